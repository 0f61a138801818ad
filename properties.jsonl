{"id": "C01", "title": "Binary response round-trip", "statement": "For every value tree accepted by the binary marshaller at protocol 2.1 or 3.x, marshalling it as a method response and unmarshalling the bytes into a tree builder yields exactly the same tree (up to the documented datetime packing).", "quantifier": "every value tree of any depth/width, protocol versions 2.1.. and 3.x", "why_tests_cant": "unbounded set of trees and nesting depths", "anchors": ["src/frpcbinmarshaller.cc:BinMarshaller_t", "src/frpcbinunmarshaller.cc:unMarshallInternal", "src/frpctreebuilder.cc:TreeBuilder_t", "src/frpctreefeeder.cc:feedValueImpl"]}
{"id": "C02", "title": "Binary method-call round-trip", "statement": "For every method name of 1..255 bytes and every list of argument trees, the call received by the server has exactly that name and exactly those arguments in order.", "quantifier": "all names, all argument lists", "why_tests_cant": "unbounded", "anchors": ["src/frpcbinmarshaller.cc:packMethodCall", "src/frpcbinunmarshaller.cc:unMarshallInternal", "src/frpctreebuilder.cc:buildMethodCall"]}
{"id": "C03", "title": "Binary fault round-trip", "statement": "For every 32-bit fault code and every message below the element limit, a packed fault is received as a fault with the same code and message, and asking the tree builder for the data raises that fault.", "quantifier": "all codes and messages, protocol versions 2 and 3", "why_tests_cant": "unbounded messages; all 2^32 codes", "anchors": ["src/frpcbinmarshaller.cc:packFault", "src/frpcbinunmarshaller.cc:FaultBuilder_t", "src/frpctreebuilder.h:getUnMarshaledData"]}
{"id": "C04", "title": "Binary unmarshaller is chunking independent", "statement": "However the bytes of a stream are split over successive unMarshall calls (including empty pieces), the same builder calls are made in the same order with the same arguments, and the same final state or error class results as with a single call.", "quantifier": "all byte streams, all splittings", "why_tests_cant": "the number of splittings is exponential and inputs are unbounded", "anchors": ["src/frpcbinunmarshaller.cc:Driver_t", "src/frpcbinunmarshaller.cc:unMarshall"]}
{"id": "C05", "title": "Every 64-bit integer survives protocol 2 and 3", "statement": "Every int64, including INT64_MIN, encoded at protocol major 2 or 3 is decoded to itself.", "quantifier": "all 2^64 integers, both majors", "why_tests_cant": "2^64 inputs", "anchors": ["src/frpcbinmarshaller.cc:packInt", "src/frpcbinmarshaller.cc:zigzagEncode", "src/frpcbinunmarshaller.cc:zigzagDecode", "src/frpcbinunmarshaller.cc:safe_negate"]}
{"id": "C06", "title": "Protocol 1 integers are never silently changed", "statement": "An integer packed at protocol major 1 is either rejected or received unchanged.", "quantifier": "all int64 values", "why_tests_cant": "2^64 inputs", "anchors": ["src/frpcbinmarshaller.cc:getNumberType", "src/frpcbinmarshaller.cc:packInt", "src/frpcbinunmarshaller.cc:S_INT"]}
{"id": "C07", "title": "Doubles are transferred bit-exactly", "statement": "Every 64-bit double pattern (including NaN payloads, infinities, signed zero) encoded in binary form is decoded to the identical bit pattern at every protocol version.", "quantifier": "all 2^64 patterns, all versions", "why_tests_cant": "2^64 inputs", "anchors": ["src/frpcbinmarshaller.cc:packDouble", "src/frpcbinunmarshaller.cc:getDouble"]}
{"id": "C08", "title": "Strings and binaries are transferred byte-exactly or rejected", "statement": "Every byte string shorter than 2^30 is received byte-for-byte; one of 2^30 bytes or more is rejected by the receiver, never truncated.", "quantifier": "all byte strings and lengths", "why_tests_cant": "unbounded lengths", "anchors": ["src/frpcbinmarshaller.cc:packString", "src/frpcbinmarshaller.cc:packBinary", "src/frpcbinunmarshaller.cc:S_STRING_LEN"]}
{"id": "C09", "title": "Date-time fields survive protocol 3", "statement": "Every date-time whose fields are in calendar range (year 1601..3647) and whose zone is a multiple of 15 minutes is received with the same fields, timestamp and zone.", "quantifier": "all calendar date-times, timestamps, zones", "why_tests_cant": "huge product domain", "anchors": ["src/frpcinternals.h:DateTimeDataV3_t", "src/frpcbinunmarshaller.cc:getDateTimeV3", "src/frpcbinmarshaller.cc:packDateTime"]}
{"id": "C10", "title": "Date-time timestamp at protocol 2 is exact or marked invalid", "statement": "At protocol 1/2, the unix timestamp received is either the one sent or -1.", "quantifier": "all 64-bit timestamps", "why_tests_cant": "2^64 inputs", "anchors": ["src/frpcinternals.h:DateTimeData_t", "src/frpcbinunmarshaller.cc:getDateTime"]}
{"id": "C11", "title": "A truncated message is not reported complete", "statement": "If the unmarshaller's finish() succeeds then the bytes seen so far form a complete message: header, all announced items of every container, and (for a response) a value.", "quantifier": "all byte streams and truncation points", "why_tests_cant": "unbounded streams", "anchors": ["src/frpcbinunmarshaller.cc:finish"]}
{"id": "C12", "title": "The binary unmarshaller never reads outside its input", "statement": "For every byte sequence and chunking, decoding only reads bytes it was given and never overflows its 4/8-byte scratch buffers (no undefined behaviour in the decoder).", "quantifier": "all byte streams and chunkings", "why_tests_cant": "needs all hostile inputs", "anchors": ["src/frpcbinunmarshaller.cc:unMarshallInternal", "src/frpcbinunmarshaller.cc:getInt64"]}
{"id": "C13", "title": "The binary unmarshaller terminates with linear work", "statement": "Each unMarshall call performs at most a constant times (bytes received) loop iterations, whatever the input says about sizes.", "quantifier": "all inputs", "why_tests_cant": "needs all hostile inputs", "anchors": ["src/frpcbinunmarshaller.cc:unMarshallInternal"]}
{"id": "C14", "title": "Builder calls are always well nested", "statement": "For every input, the sequence of builder calls is well nested: each close matches the innermost open container, a container announced with n items receives exactly n before being closed, and member names occur exactly before struct values.", "quantifier": "all byte streams", "why_tests_cant": "unbounded", "anchors": ["src/frpcbinunmarshaller.cc:decrementMember", "src/frpcdatabuilder.h:DataBuilder_t"]}
{"id": "C15", "title": "Streams with bad magic or unsupported version are rejected before any builder call", "statement": "A stream whose first two bytes are not CA 11 or whose major version is not 1..3 raises a stream error and causes no builder call.", "quantifier": "all byte streams", "why_tests_cant": "2^32 headers times unbounded suffixes", "anchors": ["src/frpcbinunmarshaller.cc:S_MAGIC"]}
{"id": "C16", "title": "Message type filter", "statement": "When the receiver asks for method calls it never gets a response or fault; when it asks for a response it gets only responses or faults.", "quantifier": "all byte streams, all requested types", "why_tests_cant": "unbounded", "anchors": ["src/frpcbinunmarshaller.cc:S_BODY"]}
{"id": "C17", "title": "Null only where the protocol has it", "statement": "Null is refused by the marshaller below protocol 2.1 and by the unmarshaller at major 1; at 2.1 and above it round-trips.", "quantifier": "all versions", "why_tests_cant": "all versions times all trees", "anchors": ["src/frpcbinmarshaller.cc:packNull", "src/frpcbinunmarshaller.cc:NULLTYPE"]}
{"id": "C18", "title": "Announced sizes are limited", "statement": "No builder call ever carries a container count, string or binary of 2^30 or more elements.", "quantifier": "all byte streams", "why_tests_cant": "unbounded", "anchors": ["src/frpcbinunmarshaller.cc:ELEMENT_SIZE_LIMIT"]}
{"id": "C19", "title": "Names are 1..255 bytes", "statement": "The marshaller rejects empty or longer-than-255 method and member names; the unmarshaller rejects zero-length ones and delivers every other exactly.", "quantifier": "all names", "why_tests_cant": "unbounded", "anchors": ["src/frpcbinmarshaller.cc:packStructMember", "src/frpcbinunmarshaller.cc:S_METHOD_NAME_LEN"]}
{"id": "C20", "title": "Binary encoding is unambiguous", "statement": "Two different value trees never have the same encoding at the same version, and no encoding is a proper prefix of another.", "quantifier": "all pairs of trees", "why_tests_cant": "pairs of unbounded objects", "anchors": ["src/frpcbinmarshaller.cc:BinMarshaller_t"]}
{"id": "C21", "title": "Integer encodings are minimal", "statement": "The number of length/value bytes written is the least that can hold the number.", "quantifier": "all 64-bit numbers", "why_tests_cant": "2^64", "anchors": ["src/frpcbinmarshaller.cc:getNumberType"]}
{"id": "C22", "title": "Base64 writer emits standard base64, however it is fed", "statement": "For every byte string and every division into write calls, the output after flush is the RFC 4648 encoding of the concatenation.", "quantifier": "all byte strings, all divisions", "why_tests_cant": "unbounded", "anchors": ["src/frpcb64writer.cc:Base64Writer_t"]}
{"id": "C23", "title": "Base64 decoding inverts encoding, with arbitrary white space and chunking", "statement": "Decoding the encoding of any data, with white space inserted anywhere and split into any pieces, gives back the data.", "quantifier": "all data, white space placements and splittings", "why_tests_cant": "unbounded", "anchors": ["src/frpcbase64.cc:Base64::process"]}
{"id": "C24", "title": "XML/JSON base64 body encodes exactly the chunks fed", "statement": "For every list of chunks the body base64 output (with or without CRLF line breaks) decodes to the concatenation, independent of chunk boundaries, and lines have at most 76 characters.", "quantifier": "all chunk lists", "why_tests_cant": "unbounded", "anchors": ["src/frpcxmlmarshaller.cc:writeEncodeBase64"]}
{"id": "C25", "title": "Base64-RPC messages round-trip", "statement": "A message written by the base64 marshaller and fed in any pieces to the base64 unmarshaller causes exactly the builder calls of the plain binary message.", "quantifier": "all messages and splittings", "why_tests_cant": "unbounded", "anchors": ["src/frpcb64marshaller.h:Base64Marshaller_t", "src/frpcb64unmarshaller.cc:unMarshall"]}
{"id": "C26", "title": "JSON output is well-formed and denotes the value", "statement": "For every value tree (finite doubles) the JSON marshaller's output is accepted by a JSON grammar and its parse is the expected image of the tree.", "quantifier": "all trees", "why_tests_cant": "unbounded", "anchors": ["src/frpcjsonmarshaller.cc:JSONMarshaller_t"]}
{"id": "C27", "title": "JSON strings cannot break out of their quotes", "statement": "For every byte string the quoted output contains no raw quote, backslash or control byte between its quotes, and unquoting gives the original bytes.", "quantifier": "all byte strings", "why_tests_cant": "unbounded", "anchors": ["src/frpcjsonmarshaller.cc:quote"]}
{"id": "C28", "title": "XML text cannot break out of its element", "statement": "For every byte string the XML-escaped text contains no raw '<' or '>' or '\"' and every '&' starts one of the four entities; unescaping gives the original bytes.", "quantifier": "all byte strings", "why_tests_cant": "unbounded", "anchors": ["src/frpcxmlmarshaller.cc:writeQuotedString"]}
{"id": "C29", "title": "XML output is balanced", "statement": "For every call/response/fault with any value tree, the sequence of tags written by the XML marshaller is a balanced XML document with matching open and close tags.", "quantifier": "all messages", "why_tests_cant": "unbounded depth", "anchors": ["src/frpcxmlmarshaller.cc:XmlMarshaller_t", "src/frpcxmlmarshaller.h:decrementItem"]}
{"id": "C30", "title": "XML round-trip", "statement": "For every supported value tree the XML document produced, parsed by a SAX parser and fed to the XML unmarshaller, rebuilds the same tree.", "quantifier": "all trees", "why_tests_cant": "unbounded", "anchors": ["src/frpcxmlmarshaller.cc", "src/frpcxmlunmarshaller.cc:setValueType", "src/frpcxmlunmarshaller.cc:setValueData", "src/frpcxmlunmarshaller.cc:closeEntity"]}
{"id": "C31", "title": "ISO date-time text round-trip", "statement": "Formatting then parsing any calendar date-time with a zone in whole minutes below 100 hours yields the same fields and zone.", "quantifier": "all date-times and zones", "why_tests_cant": "huge product domain", "anchors": ["src/frpc.cc:getISODateTime", "src/frpc.cc:parseISODateTime"]}
{"id": "C32", "title": "ISO date-time parser is total and bounds-safe", "statement": "For every byte string the parser either reports a bad format (exactly when year, month or day digits are missing) or returns fields in the digit ranges, and never reads past the end.", "quantifier": "all byte strings", "why_tests_cant": "unbounded", "anchors": ["src/frpc.cc:parseISODateTime"]}
{"id": "C33", "title": "URL decoding inverts percent-encoding", "statement": "Decoding the percent-encoding of any byte string gives the byte string, and for any input the output is never longer than the input.", "quantifier": "all byte strings", "why_tests_cant": "unbounded", "anchors": ["src/frpcurlunmarshaller.cc:urldecode"]}
{"id": "C34", "title": "URL-encoded request decoding", "statement": "The builder calls depend only on the concatenation of the pieces; exactly one method call with one struct argument is built, with members sorted and unique, and `name[]` members become arrays of all their values in order.", "quantifier": "all inputs and splittings", "why_tests_cant": "unbounded", "anchors": ["src/frpcurlunmarshaller.cc:URLUnMarshaller_t", "src/frpcurlunmarshaller.cc:Values_t"]}
{"id": "C35", "title": "Value comparison is a total order", "statement": "compare() is reflexive, antisymmetric and transitive, total on all trees built of comparable types, and the six relational operators agree with it.", "quantifier": "all trees / triples of trees", "why_tests_cant": "triples of unbounded objects", "anchors": ["src/frpccompare.cc:compare"]}
{"id": "C36", "title": "Struct behaves as a finite map", "statement": "After any sequence of append/insert/erase/clear, lookups return the last appended value, iteration is sorted by key without duplicates, insert does not overwrite, and erase reports whether the key existed.", "quantifier": "all operation histories", "why_tests_cant": "unbounded histories", "anchors": ["src/frpcstruct.cc:Struct_t"]}
{"id": "C37", "title": "Array behaves as a bounds-checked sequence", "statement": "After any history, indexing below size returns the element stored there and at or beyond size raises an index error; append/replace/clear behave as on a list.", "quantifier": "all operation histories", "why_tests_cant": "unbounded histories", "anchors": ["src/frpcarray.cc:Array_t"]}
{"id": "C38", "title": "Parameter check accepts exactly the described arrays", "statement": "For a well-formed format string, the parameter check succeeds exactly on arrays with one element per type letter, each element of that type, or null where the letter is followed by '?'.", "quantifier": "all formats and arrays", "why_tests_cant": "unbounded", "anchors": ["src/frpcarray.cc:checkItems"]}
{"id": "C39", "title": "Cloning preserves values", "statement": "Cloning any tree into another pool gives an equal tree.", "quantifier": "all trees", "why_tests_cant": "unbounded", "anchors": ["src/frpcarray.cc:clone", "src/frpcstruct.cc:clone", "src/frpcdatetime.cc:clone"]}
{"id": "C40", "title": "HTTP header store is a case-insensitive ordered multimap", "statement": "After any sequence of add/set/remove, get with any letter case returns the index-th value added under that name, in order.", "quantifier": "all histories", "why_tests_cant": "unbounded histories", "anchors": ["src/frpchttp.cc:HTTPHeader_t", "src/frpchttp.cc:polishName"]}
{"id": "C41", "title": "Chunked transfer coding round-trip", "statement": "For every sequence of writes made by a marshaller, the chunked body the client or server emits, decoded by the chunked reader under any network segmentation, is the concatenation of the writes.", "quantifier": "all write sequences and segmentations", "why_tests_cant": "unbounded", "anchors": ["src/frpchttpclient.cc:write", "src/frpchttpclient.cc:sendRequest", "src/frpcserver.cc:write", "src/frpchttpio.cc:readChunkedContent"]}
{"id": "C42", "title": "Content-Length equals the body sent", "statement": "Without chunking, for every sequence of writes the Content-Length announced equals the number of body bytes sent and the body is the concatenation of the writes.", "quantifier": "all write sequences", "why_tests_cant": "unbounded", "anchors": ["src/frpchttpclient.cc:write", "src/frpchttpclient.cc:sendRequest", "src/frpcserver.cc:sendResponse"]}
{"id": "C43", "title": "Body size limit is enforced", "statement": "With a body limit configured, no more than that many body bytes are ever delivered to the unmarshaller, for every framing (length, chunked, until close).", "quantifier": "all inputs, segmentations, limits", "why_tests_cant": "hostile inputs", "anchors": ["src/frpchttpio.cc:readBlock", "src/frpchttpio.cc:readChunkedContent"]}
{"id": "C44", "title": "Line reading is segmentation independent and limited", "statement": "However the peer's bytes are segmented, a line read returns the bytes before the first LF without trailing CRs and consumes exactly up to the LF; with the limit on, a line longer than the limit is an error.", "quantifier": "all inputs, segmentations, limits", "why_tests_cant": "unbounded", "anchors": ["src/frpchttpio.cc:readLineOpt"]}
{"id": "C45", "title": "A counted body is read exactly", "statement": "With Content-Length n, exactly n bytes are consumed and delivered in order whatever the segmentation, or an error is raised if the peer closes early.", "quantifier": "all inputs and segmentations", "why_tests_cant": "unbounded", "anchors": ["src/frpchttpio.cc:readBlock"]}
{"id": "C46", "title": "Server keep-alive bound", "statement": "A connection serves at most maxKeepalive requests and stops after a request that asked for close or when keep-alive is off.", "quantifier": "all request histories", "why_tests_cant": "unbounded histories", "anchors": ["src/frpcserver.cc:serve"]}
{"id": "C47", "title": "Method dispatch and error mapping", "statement": "A call runs exactly the method last registered under its name, else the default method, else yields a no-such-method fault; argument errors become the documented fault codes.", "quantifier": "all registries, names, method behaviours", "why_tests_cant": "unbounded", "anchors": ["src/frpcmethodregistry.cc:processCall", "src/frpcmethodregistry.cc:registerMethod"]}
{"id": "C48", "title": "Multicall answers position by position and isolates failures", "statement": "multicall returns one result per request element, in order; a failing element yields a fault struct in its own position and does not affect the others.", "quantifier": "all call lists and method behaviours", "why_tests_cant": "unbounded", "anchors": ["src/frpcmethodregistry.cc:multicall"]}
{"id": "C49", "title": "Exactly one response message per processed call", "statement": "Whatever the method does, the bytes written for one call are exactly one well-formed response or fault message.", "quantifier": "all method results/failures, all versions", "why_tests_cant": "unbounded", "anchors": ["src/frpcmethodregistry.cc:processCall"]}
{"id": "C50", "title": "Introspection lists exactly the registered methods", "statement": "listMethods returns the registered names, sorted, without duplicates, including the four system methods when introspection is on; methodHelp returns the latest help.", "quantifier": "all registration histories", "why_tests_cant": "unbounded histories", "anchors": ["src/frpcmethodregistry.cc:listMethods", "src/frpcmethodregistry.cc:methodHelp"]}
{"id": "C51", "title": "Cached proxies are fresh, exclusive and for the right URL", "statement": "With a non-decreasing clock, a proxy taken from the cache was returned less than the configured timeout ago, was returned for the same host, port and path, and is handed out at most once.", "quantifier": "all histories of take/return with times", "why_tests_cant": "unbounded histories and clock values", "anchors": ["src/frpcserverproxy.cc:ProxyCache_t"]}
{"id": "C52", "title": "Request headers do not leak between proxies", "statement": "A proxy obtained for a URL carries no request headers set by a previous user of the cached connection.", "quantifier": "all histories", "why_tests_cant": "unbounded histories", "anchors": ["src/frpcserverproxy.cc:lookup", "src/frpcserverproxy.cc:addRequestHttpHeader"]}
{"id": "C53", "title": "Secret marking survives transfer", "statement": "The secret pointers gathered while feeding a call, given to the extended tree builder, make exactly the same positions secret in the rebuilt tree.", "quantifier": "all trees with secrets anywhere", "why_tests_cant": "unbounded", "anchors": ["src/frpctreefeeder.cc:Secrets_t", "src/frpctreebuilder.cc:ExtTreeBuilder_t"]}
{"id": "C54", "title": "Pointer segment escaping is invertible", "statement": "Unescaping the escape of any key gives the key, and the escaped form contains no '/' or ','.", "quantifier": "all keys", "why_tests_cant": "unbounded", "anchors": ["src/frpctreefeeder.cc:escape_segment", "src/frpctreebuilder.cc:unescape_segment"]}
{"id": "C55", "title": "The log dump hides secrets", "statement": "The text dump of a tree does not depend on the contents of secret values, of members whose name is in the hidden set, or of hidden positions of the top array.", "quantifier": "all pairs of trees differing only in hidden parts", "why_tests_cant": "pairs of unbounded objects", "anchors": ["src/frpc.cc:dumpFastrpcTree"]}
{"id": "C56", "title": "URL parsing", "statement": "For every http/https URL built from host, port and path the parser recovers them, and getUrl reproduces an equivalent URL.", "quantifier": "all hosts, ports, paths", "why_tests_cant": "unbounded", "anchors": ["src/frpchttp.cc:URL_t::parse", "src/frpchttp.cc:getUrl"]}
{"id": "C57", "title": "Protocol version from configuration", "statement": "A configured protocol version string \"M.m\" selects version M.m.", "quantifier": "all version strings", "why_tests_cant": "all strings", "anchors": ["src/frpcserverproxy.cc:parseProtocolVersion"]}
{"id": "C58", "title": "Request-line splitting", "statement": "Splitting a line into at most n words returns the maximal non-space runs, the last one being the unsplit rest, and never reads outside the line.", "quantifier": "all lines", "why_tests_cant": "unbounded", "anchors": ["src/frpchttpio.cc:splitBySpace"]}
{"id": "C59", "title": "Partial unmarshalling reports exactly what was consumed", "statement": "unMarshallPartial returns the number k of bytes successfully parsed: feeding exactly the first k bytes to unMarshall gives the same builder calls and the same state, and a byte left after them is of no known value type.", "quantifier": "all streams", "why_tests_cant": "unbounded", "anchors": ["src/frpcbinunmarshaller.cc:unMarshallKnown"]}
{"id": "C60", "title": "String validation", "statement": "With validation on, a string value is created exactly when its bytes are UTF-8 of XML-legal characters; with validation off always.", "quantifier": "all byte strings", "why_tests_cant": "unbounded", "anchors": ["src/frpcstring.cc:validateBytes"]}
{"id": "C61", "title": "Header line parsing", "statement": "Parsing a header line `name: value` gives the name before the first colon and the value trimmed of white space; continuation lines append to the previous value.", "quantifier": "all lines", "why_tests_cant": "unbounded", "anchors": ["src/frpchttpio.cc:getHeaderValue", "src/frpchttpio.cc:readHeader"]}
{"id": "C62", "title": "Duplicate members resolve to the last one", "statement": "If a received struct repeats a member name, the tree holds the last value, and the number of members is the number of distinct names.", "quantifier": "all streams", "why_tests_cant": "unbounded", "anchors": ["src/frpctreebuilder.h:isMember", "src/frpcstruct.cc:append"]}
{"id": "C63", "title": "Date-time formatting fits its buffer", "statement": "For every date-time the API can hold, the ISO text written into the fixed 50-byte buffer fits, including the terminating NUL.", "quantifier": "all values of the year, month, day, hour, minute, second and zone fields their C types can hold", "why_tests_cant": "the bound must hold for every combination of field values, including negative and out-of-calendar ones", "anchors": ["src/frpc.cc:getISODateTime"]}
{"id": "C64", "title": "A request written by the client is read by the server as it was sent", "statement": "For every sequence of writes, every client setting (chunked or not, HTTP/1.0 or 1.1, keep-alive or not, custom header fields), however the network splits the bytes on either side and whatever follows on the connection, the server's reader gets the path and exactly the bytes written, leaves the following bytes unread, chooses the unmarshaller of the client's protocol and keeps the connection exactly when the client asked for it.", "quantifier": "all write sequences, client settings, segmentations, following bytes", "why_tests_cant": "unbounded writes and segmentations", "anchors": ["src/frpchttpclient.cc:write,flush,sendRequest", "src/frpcserver.cc:readRequest", "src/frpchttpio.cc:readHeader,readContent"]}
{"id": "C65", "title": "A response written by the server is read by the client as it was sent", "statement": "For every sequence of writes and every server setting, however the network splits the bytes, the client's reader gets exactly the bytes written, leaves what follows unread, chooses the unmarshaller by the content type, learns which protocols the server accepts, and keeps the connection exactly when both sides want to.", "quantifier": "all write sequences, server settings, segmentations", "why_tests_cant": "unbounded writes and segmentations", "anchors": ["src/frpcserver.cc:write,flush,sendResponse", "src/frpchttpclient.cc:readResponse", "src/frpchttpio.cc:readContent"]}
{"id": "C66", "title": "A call in the binary protocol over HTTP, end to end", "statement": "For every method name, arguments and settings, what the server unmarshals from the connection is the method name and the arguments passed by the client; and what the client unmarshals from the answer is the value the method returned, or the fault with its number and message.", "quantifier": "all names, values, faults, settings, segmentations", "why_tests_cant": "composition of unbounded domains", "anchors": ["src/frpcserverproxy.cc", "src/frpchttpclient.cc", "src/frpcserver.cc", "src/frpcbinmarshaller.cc", "src/frpcbinunmarshaller.cc"]}
{"id": "C67", "title": "A request is never read out of the body of another one", "statement": "Whatever a peer sends, the server never interprets bytes inside the body of a request (as announced by its Content-Length or chunks) as the beginning of another request.", "quantifier": "all byte streams", "why_tests_cant": "unbounded streams", "anchors": ["src/frpcserver.cc:serve,readRequest"]}
{"id": "C68", "title": "Pipelined requests are served in order, each exactly once", "statement": "Requests sent one after another on a connection without waiting, each with its own settings and protocol, are handed to methods in the order sent, each exactly once, with its own path and body, for every segmentation of the bytes.", "quantifier": "all sequences of requests, settings, segmentations", "why_tests_cant": "unbounded sequences and segmentations", "anchors": ["src/frpcserver.cc:serve,readRequest", "src/frpchttpio.cc"]}
{"id": "C69", "title": "Reading and serving end", "statement": "Whatever bytes a peer sends before it closes the connection and whatever the timing, reading a request, reading a response and serving the connection end; the readers only move forward in the stream.", "quantifier": "all byte streams and network schedules", "why_tests_cant": "unbounded streams", "anchors": ["src/frpchttpio.cc:readLineOpt,readBlock,readHeader,readChunkedContent", "src/frpcserver.cc:serve", "src/frpchttpclient.cc:readResponse"]}
{"id": "C70", "title": "Callbacks are paired", "statement": "With callbacks registered, every call processed for a client is announced exactly once before it and exactly once after it, with its result or with its fault.", "quantifier": "all registries, methods, arguments, results, versions", "why_tests_cant": "unbounded method behaviours and results", "anchors": ["src/frpcmethodregistry.cc:processCall"]}
{"id": "C71", "title": "The registry's stream interface answers every request", "statement": "processCall from a reader to a writer answers every request by exactly one message at the version of the request: a complete call is run once, as if called directly; bytes that are not a complete call run no method and are answered by the fault -503.", "quantifier": "all byte streams, divisions into reads, registries, versions", "why_tests_cant": "unbounded inputs", "anchors": ["src/frpcmethodregistry.cc:processCall", "src/frpcmarshaller.cc:create", "src/frpcbinmarshaller.cc:BinMarshaller_t"]}
{"id": "C72", "title": "A remote call equals a local call", "statement": "A call sent by the HTTP client and served by the HTTP server over one connection gives the caller exactly what the same call made in the server's process gives: the value, or the fault, and the method is run exactly once with the same arguments.", "quantifier": "all registries, methods, arguments, versions, segmentations of both directions", "why_tests_cant": "unbounded inputs and schedules", "anchors": ["src/frpcserver.cc:serve", "src/frpcserverproxy.cc:call", "src/frpcmethodregistry.cc:processCall", "src/frpchttpio.cc"]}
{"id": "C73", "title": "Requests of any HTTP client", "statement": "A POST request of any client (any path, HTTP/1.0 or 1.1, any header including folded lines, any delivery) is read exactly: the body is decoded as its content type says, the connection stays open exactly when the client allows it, the answer is in a protocol the client accepts; other methods, versions, content types and malformed request lines are refused with 405, 505, a stream error and 400.", "quantifier": "all request texts, header blocks, bodies, framings and cuttings of the stream", "why_tests_cant": "unbounded texts and schedules", "anchors": ["src/frpcserver.cc:Server_t::readRequest", "src/frpchttpio.cc"]}
{"id": "C74", "title": "Responses of any HTTP server", "statement": "A response with status 200 of any server is read exactly and gives its body to the unmarshaller of its content type, and the connection is kept exactly when both sides want it; any other status raises an HTTP error with that number and reason.", "quantifier": "all response texts, statuses, header blocks, bodies, framings and cuttings", "why_tests_cant": "unbounded texts and schedules", "anchors": ["src/frpchttpclient.cc:HTTPClient_t::readResponse"]}
{"id": "C75", "title": "Requests name the target of the URL", "statement": "The request for a URL names the path of the URL in the request line and its host and port in the Host field; through a proxy the request line names the whole URL.", "quantifier": "all URLs", "why_tests_cant": "unbounded texts", "anchors": ["src/frpchttpclient.cc:HTTPClient_t::sendRequest", "src/frpchttp.cc:URL_t"]}
{"id": "C76", "title": "Protocol negotiation", "statement": "With ALWAYS every call is binary, with NEVER every call is XML, with ON_SUPPORT a call is binary exactly when the server's last response announced binary support (XML before the first response), and in the default mode binary is used on kept connections when the server supports it.", "quantifier": "all histories of calls, responses and failures", "why_tests_cant": "unbounded histories", "anchors": ["src/frpcserverproxy.cc:createMarshaller", "src/frpchttpclient.cc:readResponse"]}
{"id": "C77", "title": "A call sends exactly its request", "statement": "The bytes a call sends are its whole request, or a beginning of it if the connection fails: request line and header for the URL and the settings, the fields added for all calls since the last deletion, the fields added for the next call since the last call, and the marshalled call with its exact length. Fields for one call are gone after that call, whatever it comes to.", "quantifier": "all histories of calls, added and deleted header fields, failures at any byte", "why_tests_cant": "unbounded histories and failure points", "anchors": ["src/frpcserverproxy.cc:call", "src/frpcserverproxy.cc:addRequestHttpHeader", "src/frpchttpclient.cc:sendRequest"]}
{"id": "C78", "title": "A call gets the answer to its own request", "statement": "Whatever connections break, responses stay away or time out, a call that returns a response returns the one that the server sent to its own request; the connection of a failed call is not used again; without keep-alive no connection is used twice; with keep-alive it is used again unless a side closed it.", "quantifier": "all histories, all failures and schedules", "why_tests_cant": "unbounded histories and schedules", "anchors": ["src/frpcserverproxy.cc:call", "src/frpcconnector.cc:connectSocket", "src/frpcconnector.cc:closeSocketIfPeerClosed", "src/frpchttpclient.cc:readResponse"]}
{"id": "C79", "title": "Protocol version of calls", "statement": "A binary call carries the protocol version of the last response that was read, the configured version before the first response.", "quantifier": "all histories", "why_tests_cant": "unbounded histories", "anchors": ["src/frpcserverproxy.cc:call", "src/frpcbinmarshaller.cc:packMagic"]}
{"id": "C80", "title": "Calls that cannot be marshalled send nothing", "statement": "A call whose marshalling raises an exception sends no byte and leaves connection, permanent header fields, protocol and settings as they were; no other call raises an exception of the marshaller.", "quantifier": "all states, calls and connections", "why_tests_cant": "unbounded", "anchors": ["src/frpcserverproxy.cc:call", "src/frpchttpclient.cc:write"]}
{"id": "C81", "title": "XML that is not understood is refused", "statement": "Whatever the XML parser reports: a message of another type than the wanted one, an integer, double or date-time whose text is none, an element with text that is never closed, an error of the parser and an exception of the builder all make the unmarshaller throw; when it does not throw, every builder call succeeded.", "quantifier": "all parsers, documents, cuttings into pieces, builders", "why_tests_cant": "all inputs and all builders", "anchors": ["src/frpcxmlunmarshaller.cc:setValueType", "src/frpcxmlunmarshaller.cc:setValueData", "src/frpcxmlunmarshaller.cc:finish", "src/frpcxmlunmarshaller.cc:startElementXML"]}
{"id": "C82", "title": "Logging does not change a call", "statement": "What the caller of a proxy's call gets (the value, the fault, the exception) is what the exchange with the server came to, whatever the logger is told about it, for every method, arguments and response.", "quantifier": "all methods, arguments, responses", "why_tests_cant": "all pairs of calls and responses, including malformed ones", "anchors": ["src/frpc.cc:logStructuredCalls", "src/frpc.cc:callLoggerCallback", "src/frpcserverproxy.cc:with_logger"]}
{"id": "C83", "title": "What the logger is told", "statement": "For every call the logger function gets the start first, at last exactly one event with what the call came to, and for a multicall that succeeded one event per sub-call in order, a fault event exactly for the failed ones.", "quantifier": "all calls and outcomes", "why_tests_cant": "unbounded lists of sub-calls", "anchors": ["src/frpc.cc:logStructuredCalls", "src/frpcserverproxy.cc:with_logger"]}
{"id": "C84", "title": "A configuration struct means what it says", "statement": "A proxy configured by a struct has each timeout, mode, keep-alive, HTTP/1.0 flag and proxy URL as the member of that name says, the default if there is no such member, and a member of the wrong type is refused.", "quantifier": "all structs", "why_tests_cant": "all structs", "anchors": ["src/frpcserverproxy.cc:configFromStruct", "src/frpcserverproxy.cc:getTimeout"]}
{"id": "C85", "title": "A call through a proxy in either protocol equals a local call", "statement": "A sequence of calls made through one proxy, whatever mix of the binary protocol and XML-RPC the proxy's mode and the server's configuration lead to, over kept or fresh connections cut into any pieces, returns for every call the value (or raises the fault) that the same sequence of calls run locally in the server's registry would give, and runs each method exactly once; only what the wire format drops from date-times may differ.", "quantifier": "all registries, call sequences, argument and result values, proxy modes, server configurations, network segmentations", "why_tests_cant": "unbounded sequences, values and schedules; the protocol and version negotiated depend on the whole history of the proxy", "anchors": ["src/frpcserverproxy.cc:ServerProxyImpl_t::call", "src/frpchttpclient.cc:HTTPClient_t::readResponse", "src/frpcserver.cc:Server_t::serve", "src/frpcserver.cc:readRequest", "src/frpcserver.cc:sendResponse", "src/frpcmethodregistry.cc:processCall"]}
{"id": "C86", "title": "A date-time names its unix time", "statement": "However a date-time is made (local time, UTC time, a time stamp with a zone, an ISO text), getUnixTime() is the instant that its calendar fields name in the zone it claims, so its ISO text and its unix time agree, and isSaveLightDay() says whether its zone has summer time at that instant.", "quantifier": "all time zones, instants, calendar fields and texts", "why_tests_cant": "depends on the time zone of the process and on summer time; all instants", "anchors": ["src/frpcdatetime.cc:DateTime_t::DateTime_t", "src/frpcpool.cc:Pool_t::UTCTime", "src/frpcpool.cc:Pool_t::LocalTime", "src/frpcpool.cc:Pool_t::DateTime", "src/frpcdatetime.cc:DateTime_t::isSaveLightDay"]}
{"id": "C87", "title": "An instant survives transfer to another machine", "statement": "A local time sent in the binary protocol is received with the same unix time, in whatever time zone the receiver runs.", "quantifier": "all pairs of time zones, instants, versions and segmentations", "why_tests_cant": "tests run in one time zone", "anchors": ["src/frpcdatetime.cc:DateTime_t::DateTime_t", "src/frpctreebuilder.cc:TreeBuilder_t::buildDateTime", "src/frpcbinmarshaller.cc:packDateTime"]}
{"id": "C88", "title": "getTimeZone is positive to the east", "statement": "For a local time getTimeZone() is the offset of the clocks from UTC, positive to the east of Greenwich as documented; the ISO text writes that offset.", "quantifier": "all time zones and instants", "why_tests_cant": "all zones and instants", "anchors": ["src/frpcdatetime.h:getTimeZone", "src/frpcdatetime.cc:DateTime_t::DateTime_t", "src/frpc.cc:getISODateTime"]}
{"id": "C89", "title": "Calls of the JavaScript library reach a C++ server", "statement": "A call made by JavaScript's serializeCall (any version, hints) is received by the C++ library as the method of that name with arguments that stand for those given: integers as integers, hinted numbers as doubles with the same number, text, binary data, dates with the same instant and fields, arrays and objects member by member.", "quantifier": "all JavaScript values, hints, versions and segmentations", "why_tests_cant": "all values; doubles and versions interact", "anchors": ["javascript/fastrpc.mjs:serializeCall", "javascript/fastrpc.mjs:_serializeValue", "javascript/fastrpc.mjs:_encodeDouble", "src/frpcbinunmarshaller.cc"]}
{"id": "C90", "title": "Messages of the C++ library are read by JavaScript", "statement": "A call, response or fault made by the C++ library's binary marshaller is read by JavaScript's parse as the method, the value or the error that stands for it.", "quantifier": "all values, versions and names", "why_tests_cant": "all values", "anchors": ["javascript/fastrpc.mjs:parse", "javascript/fastrpc.mjs:_parseValue", "src/frpcbinmarshaller.cc"]}
{"id": "C91", "title": "JavaScript reads its own calls", "statement": "parse of what serializeCall made gives the method and the arguments back (integers hinted as floats as numbers, binary data in the form asked for, dates as the host's date of the same moment).", "quantifier": "all JavaScript values, hints, versions", "why_tests_cant": "all values", "anchors": ["javascript/fastrpc.mjs:parse", "javascript/fastrpc.mjs:serializeCall"]}
{"id": "C92", "title": "JavaScript's parse is robust", "statement": "For every input parse comes to an end; a response followed by anything else is refused; a response that is cut off is refused.", "quantifier": "all byte sequences; all responses and all places to cut them off", "why_tests_cant": "all inputs", "anchors": ["javascript/fastrpc.mjs:parse", "javascript/fastrpc.mjs:_decodeUTF8"]}
{"id": "C93", "title": "Python reads its own messages", "statement": "loads(dumps(x, useBinary=True)) gives the arguments and the method name (or the response value, or raises the fault) that were dumped: tuples come back as lists, fastrpc.Boolean as bool, everything else as it was.", "quantifier": "all Python objects of the protocol's types, versions, method names", "why_tests_cant": "all objects of any depth", "anchors": ["python/fastrpcmodule.cc:fastrpc_dumps", "python/fastrpcmodule.cc:fastrpc_loads", "python/pythonfeeder.cc:Feeder_t::feedValue", "python/pythonbuilder.cc"]}
{"id": "C94", "title": "Python and C++ understand each other", "statement": "A message dumped by Python is received by C++ as values that stand for the Python objects however the bytes are divided, and every message C++ sends that Python can hold is loaded as the Python objects for it.", "quantifier": "all objects, all values, versions 2 and 3, all divisions into chunks", "why_tests_cant": "all values and divisions", "anchors": ["python/pythonfeeder.cc:Feeder_t::feedValue", "python/pythonbuilder.cc", "src/frpcbinmarshaller.cc", "src/frpcbinunmarshaller.cc"]}
{"id": "C95", "title": "dumps refuses what it cannot send", "statement": "If dumps returns a message then every object in it stands for a value of the protocol; otherwise it raises an ordinary exception and the interpreter goes on.", "quantifier": "all objects, versions, method names and faults", "why_tests_cant": "all objects of any depth", "anchors": ["python/pythonfeeder.cc:Feeder_t::feedValue", "python/fastrpcmodule.cc:fastrpc_dumps"]}
{"id": "C96", "title": "loads of any bytes", "statement": "Whatever bytes are given, loads returns or raises RuntimeError, UnicodeError, the fault of the message or what the callable raised; a message that has been cut is refused.", "quantifier": "all byte sequences", "why_tests_cant": "all inputs", "anchors": ["python/fastrpcmodule.cc:fastrpc_loads", "python/pythonbuilder.cc:Builder_t::buildFault", "python/pythonbuilder.h:getUnMarshaledData"]}
{"id": "C97", "title": "Any client is answered", "statement": "Requests of any well-formed clients (binary, base64, XML of this library, XML documents of any XML-RPC client, URL-encoded forms), pipelined on connections one after another, are answered in order, each with one HTTP response in the format the client accepts that says what the same call made locally gives, with the application's header fields, until the request that ends the connection; the methods end in the state of the calls answered.", "quantifier": "all lists of connections, requests, formats, layouts of header and body, chunkings, schedules of partial reads and writes, registries and states of methods", "why_tests_cant": "sequences, splittings and payloads are unbounded", "anchors": ["src/frpcserver.cc:Server_t::serve", "src/frpcserver.cc:Server_t::readRequest", "src/frpcserver.cc:Server_t::sendResponse", "src/frpcmethodregistry.cc:processCall", "src/frpctreebuilder.cc"]}
{"id": "C98", "title": "Refused requests", "statement": "A request whose content type is unknown, or whose body is cut short, is answered once, with the fault -503 in the format the client accepts; no method runs because of it.", "quantifier": "all requests and schedules", "why_tests_cant": "all requests and what follows them on the connection", "anchors": ["src/frpcserver.cc:Server_t::serve", "src/frpcserver.cc:Server_t::readRequest"]}
{"id": "C99", "title": "No dead response header", "statement": "Whatever clients send on connections one after another, the server object never uses a response header of a connection that is over.", "quantifier": "all sequences of connections and requests", "why_tests_cant": "all histories of the server object", "anchors": ["src/frpcserver.cc:Server_t::serve", "src/frpcserver.cc:Server_t::sendResponse", "src/frpcserver.h:headerOut"]}
{"id": "C100", "title": "A client's descriptors", "statement": "A ServerProxy_t from its constructor to its destructor has never more than one connection open, closes every descriptor it opened exactly once, uses none that is not open and deletes every unmarshaller exactly once, whatever is called and whatever the network does; a call that failed leaves no connection that later calls use.", "quantifier": "all sequences of calls and all outcomes of all system calls", "why_tests_cant": "every history of failures of system calls", "anchors": ["src/frpcsocket.h:Socket_t", "src/frpcsocket.cc", "src/frpcconnector.cc:SimpleConnectorIPv6_t", "src/frpchttpclient.cc", "src/frpcserverproxy.cc"]}
{"id": "C101", "title": "connectSocket connects or throws", "statement": "connectSocket returns exactly if there is a connection: a kept one the peer has not closed, or a new one; if it throws there is no descriptor that a later call takes for a connection.", "quantifier": "all states of the descriptor and outcomes of system calls", "why_tests_cant": "every outcome of system calls in every order", "anchors": ["src/frpcconnector.cc:connectSocket", "src/frpcconnector.cc:checkSocket"]}
{"id": "C102", "title": "An HTTP client can be used again", "statement": "An HTTPClient_t used for any number of requests and responses deletes every unmarshaller exactly once and keeps at most one connection.", "quantifier": "all sequences of operations and outcomes", "why_tests_cant": "unbounded histories", "anchors": ["src/frpchttpclient.cc:HTTPClient_t::readResponse", "src/frpchttpclient.cc:HTTPClient_t::~HTTPClient_t"]}
{"id": "C103", "title": "A proxy connects to what its URL names", "statement": "A proxy for http(s)://host[:port]/path connects to that host and port (80 or 443 if there is none), one for unix:///path to the unix socket of that path, one that has an HTTP proxy to the HTTP proxy.", "quantifier": "all hosts, ports, paths and HTTP proxies", "why_tests_cant": "unbounded texts", "anchors": ["src/frpcurl.cc", "src/frpcconnector.cc", "src/frpcserverproxy.cc:makeConnector"]}
{"id": "C104", "title": "Pools delete every value exactly once", "statement": "Whatever is done with pools and values (creating, appending, cloning, freeing, stealing, moving pools, in any order), no value is deleted twice, what a pool owns is alive and owned by no other pool, and when the last pool is gone every value has been deleted.", "quantifier": "all sequences of operations on any number of pools", "why_tests_cant": "unbounded histories", "anchors": ["src/frpcpool.h:Pool_t", "src/frpcpool.cc:Pool_t::free", "src/frpcpool.h:steal_pointers"]}
{"id": "C105", "title": "Values stay as they are; clones are independent", "statement": "A value remains the same tree as long as no operation changes or deletes an object that is part of it; a clone is an equal tree of new objects in the given pool, the original is untouched, and nothing done later to the original or its pool changes the clone.", "quantifier": "all object graphs, all later histories", "why_tests_cant": "unbounded graphs and histories", "anchors": ["src/frpcarray.cc:Array_t::clone", "src/frpcstruct.cc:Struct_t::clone", "src/frpcpool.cc"]}
{"id": "C106", "title": "A received message is a tree of new objects in the pool", "statement": "For any bytes in any pieces, at any time, the tree builder makes in the pool exactly the tree that was received, of new objects which that pool owns, and leaves all objects there were as they were.", "quantifier": "all byte sequences, all pieces, all states of the pools", "why_tests_cant": "unbounded inputs and states", "anchors": ["src/frpctreebuilder.cc", "src/frpctreebuilder.h:TreeBuilder_t", "src/frpcbinunmarshaller.cc"]}
{"id": "C107", "title": "Which values can be marshalled or cloned", "statement": "A walk over a value ends and meets a tree exactly if everything reached from it is alive and there is no endless path of pointers; from a value that contains itself neither marshalling nor clone ever ends.", "quantifier": "all object graphs", "why_tests_cant": "unbounded graphs", "anchors": ["src/frpcarray.cc:Array_t::append", "src/frpctreefeeder.h", "src/frpcarray.cc:Array_t::clone"]}
{"id": "C108", "title": "Changing a container changes that tree and no other", "statement": "append, replace, insert, erase and clear on a container make its tree the tree with that change, and leave every value from which the container is not reached; refused operations change nothing; a struct made of given members has for every name the item given first.", "quantifier": "all object graphs, items, names", "why_tests_cant": "unbounded graphs", "anchors": ["src/frpcarray.cc:Array_t::replace", "src/frpcstruct.cc:Struct_t::append", "src/frpcstruct.cc:Struct_t::insert", "src/frpcpool.cc:Pool_t::Struct"]}
{"id": "C109", "title": "Python signature strings", "statement": "A signature given to register as text in the notation result ':' parameters, separated by commas, is kept as the list of lists of type names it denotes; other text is refused with ValueError; the C++ and the Python server read the notation alike.", "quantifier": "all byte strings", "why_tests_cant": "unbounded strings", "anchors": ["python/pythonserver.cc:stringToSignature"]}
{"id": "C110", "title": "Python registration", "statement": "register registers exactly the method described by its arguments under the name given and changes nothing else, or raises and changes nothing; after any history a name is that of the method registered last under it, or of a system method; registerDefault sets exactly the callbacks given.", "quantifier": "all histories of registrations, all arguments", "why_tests_cant": "unbounded histories", "anchors": ["python/pythonserver.cc:MethodRegistryObject_register", "python/pythonserver.cc:MethodRegistryObject_registerDefault", "python/pythonserver.cc:MethodRegistryObject_new"]}
{"id": "C111", "title": "Python dispatch", "statement": "A call runs the method of its name once, with exactly its arguments, after the preprocessor let it through; a refused call runs nothing; unknown names run the default method or are the fault -506; the postprocessor runs once and is told the outcome; exceptions become faults.", "quantifier": "all registries, names, argument lists, user functions, interpreter versions", "why_tests_cant": "all user functions and outcomes", "anchors": ["python/pythonserver.cc:dispatchCall", "python/pythonserver.cc:Method_t::operator()", "python/pythonserver.cc:makeFault"]}
{"id": "C112", "title": "Python introspection", "statement": "system.listMethods lists the names of all methods in order and each once; system.methodSignature and system.methodHelp give what was registered last for a name, or what the default callbacks say, or the fault -502; with introspection disabled all three are the fault -508.", "quantifier": "all histories of registrations, names", "why_tests_cant": "unbounded histories", "anchors": ["python/pythonserver.cc:MethodRegistryObject_system_listMethods", "python/pythonserver.cc:MethodRegistryObject_system_methodSignature", "python/pythonserver.cc:MethodRegistryObject_system_methodHelp"]}
{"id": "C113", "title": "Python multicall", "statement": "system.multicall does its calls one by one in order, each as it would be done on its own, isolates failures, answers in place, and may be nested to any depth.", "quantifier": "all lists of calls, nested to any depth, all user functions", "why_tests_cant": "unbounded nesting", "anchors": ["python/pythonserver.cc:MethodRegistryObject_system_multicall"]}
{"id": "C114", "title": "A connection to the Python server", "statement": "Server.serve(sock) answers the requests on the connection one by one, in order, each with exactly one HTTP response in the format that the client asks for, which carries what a local dispatch of the registry returns and the header fields that the user's functions have added for that request; no request after the one that ends the connection is run, and serve returns when the connection is over.", "quantifier": "all registries, user functions, histories of requests in the binary, base64 and XML formats, results, ways the network cuts the bytes into pieces", "why_tests_cant": "unbounded conversations, results and schedules of the socket", "anchors": ["python/pythonserver.cc:Server::serve", "python/pythonserver.cc:Server::readRequest", "python/pythonserver.cc:Server::sendResponse", "python/pythonserver.cc:Server::write"]}
{"id": "C115", "title": "No client can harm the Python server", "statement": "Whatever a client sends or does, the server answers it with a fault or an HTTP error, or ends the connection with an exception in Python; it does not end the process, and nothing of one client's exchange is sent to another client.", "quantifier": "all requests, results of methods, failures of the socket", "why_tests_cant": "unbounded inputs and failure points", "anchors": ["python/pythonserver.cc:Server::serve", "python/pythonserver.cc:Server::sendHttpError", "python/pythonserver.cc:Server::sendResponse", "python/pythonserver.cc:ServerObject_serve"]}
{"id": "C116", "title": "A call through the Python proxy", "statement": "ServerProxy(url).name(*args) sends one HTTP request that carries the name and the arguments in the format that was negotiated, with the header fields that were set for it, and returns the value of the response, or raises Fault with the fault's code and message; a response with another status than 200 raises ProtocolError with its status and text.", "quantifier": "all Python arguments that can be sent, servers, response formats, ways the network cuts the bytes, histories of the proxy", "why_tests_cant": "unbounded arguments, results and schedules of the socket", "anchors": ["python/fastrpcmodule.cc:Proxy_t::operator()", "python/fastrpcmodule.cc:Method_call", "python/fastrpcmodule.cc:Proxy_t"]}
{"id": "C117", "title": "A call through the Python proxy that fails leaves nothing behind", "statement": "A call whose arguments cannot be sent raises an exception and sends nothing, and neither the server nor the arguments can end the process; the next call is not affected by it.", "quantifier": "all Python arguments, header fields, versions and responses of the server", "why_tests_cant": "unbounded inputs and failure points", "anchors": ["python/fastrpcmodule.cc:Proxy_t::operator()", "src/frpchttpclient.cc:HTTPClient_t::write", "python/fastrpcmodule.cc:Proxy_t"]}
{"id": "C118", "title": "The Python client and the Python server together", "statement": "Calls through one fastrpc.ServerProxy to a fastrpc.Server give the results, faults and effects of the same calls made locally on the server's registry, one after another, each exactly once, whatever protocol is negotiated and whatever happens to connections between the calls.", "quantifier": "all registries, user functions, Python arguments and results that the protocol carries, modes and versions of the proxy, limits of the server, sequences of calls and closings, ways the network cuts the bytes", "why_tests_cant": "unbounded sessions, values and schedules of the network", "anchors": ["python/fastrpcmodule.cc:Proxy_t::operator()", "python/pythonserver.cc:Server::serve"]}
{"id": "C119", "title": "fastrpc.dumpTree hides what it is told to hide", "statement": "The text of fastrpc.dumpTree does not depend on the values under hidden names or at hidden positions, nor on what lies deeper than the level; with nothing hidden and no level it shows every value of the object; every object that can be sent has a dump.", "quantifier": "all Python objects, levels, collections of names and position masks", "why_tests_cant": "unbounded nesting, sizes and texts", "anchors": ["python/fastrpcmodule.cc:fastrpc_dumpTree", "python/fastrpcmodule.cc:printPyFastRPCTree"]}
{"id": "C120", "title": "HEAD requests to the Python server", "statement": "A HEAD request runs the registered head method once and is answered with one response without content: 200 if it says 0, 503 if it says another number, 500 if it raises an exception or gives no number, 405 if there is none; the connection ends after it.", "quantifier": "all servers and their states, head methods, header fields, ways the network cuts the bytes", "why_tests_cant": "depends on the history of the server (format and chunks of the last call), unbounded headers and schedules", "anchors": ["python/pythonserver.cc:Server_t::serve", "python/pythonserver.cc:Server_t::sendResponse"]}
{"id": "C121", "title": "Date-time objects in Python", "statement": "LocalTime(t), UTCTime(t) and DateTime(t, zone) have the time stamp t and name that instant; DateTime(text) has the fields and the zone of an ISO text and its text is that text again; comparing two date-times orders the instants they name; an attribute that is set has the number that was set and the others keep theirs; no call crashes the interpreter.", "quantifier": "all time stamps, zones, texts, attributes, numbers, pairs of date-times, time zones of the process", "why_tests_cant": "unbounded numbers, all zones and both clock changes of the year", "anchors": ["python/fastrpcmodule.cc:DateTimeObject_init", "python/fastrpcmodule.cc:LocalTimeObject_init", "python/fastrpcmodule.cc:UTCTimeObject_init", "python/fastrpcmodule.cc:DateTimeObject_setattr", "python/fastrpcmodule.cc:DateTimeObject_richcmp"]}
{"id": "C122", "title": "Truth values in Python", "statement": "fastrpc.Boolean(v) and fastrpc.boolean(v) are true just if v is; boolean(v, (no, yes)) has the truth of yes or no; comparing with truth values of both kinds is that of the values and an order, other objects are different and not comparable; the value attribute can be read and set; no call crashes the interpreter.", "quantifier": "all objects, pairs, operators", "why_tests_cant": "every object and pair of objects", "anchors": ["python/fastrpcmodule.cc:BooleanObject_init", "python/fastrpcmodule.cc:BooleanObject_richcmp", "python/fastrpcmodule.cc:BooleanObject_setattr", "python/fastrpcmodule.cc:fastrpc_boolean"]}
{"id": "C123", "title": "Native containers as values", "statement": "The converters (to_array, to_struct, array_cnvt and the scalar ones) make of any native data, however deeply nested, the value with the same contents, in the pool they were given, under every name the first item of that name; they throw just if a text is not valid, and leave everything else alone.", "quantifier": "all nestings of converters, all data, all earlier histories of values and pools", "why_tests_cant": "unbounded nesting, sizes and histories", "anchors": ["src/frpcconverters.h:to_array", "src/frpcconverters.h:to_struct", "src/frpcconverters.h:base_array_cnvt", "src/frpcstring.cc:String_t"]}
{"id": "C124", "title": "Python dumps and loads as text", "statement": "dumps without useBinary makes of any response, call or fault a text (UTF-8), and loads of that text, told that it is XML or not, gives back the same data and name (tuples as lists, Boolean as bool) or raises that fault; loads takes data as binary just if it begins as every binary message does.", "quantifier": "all Python objects, all protocol versions that are accepted, all parsers that report a whole document at once", "why_tests_cant": "unbounded nesting, all texts and all parsers", "anchors": ["python/fastrpcmodule.cc:fastrpc_dumps", "python/fastrpcmodule.cc:fastrpc_loads", "src/frpcunmarshaller.cc:UnMarshaller_t::create", "src/frpcxmlunmarshaller.cc:XmlUnMarshaller_t::unMarshall"]}
{"id": "C125", "title": "Over any network a call runs at most once and never gives a wrong answer", "statement": "Whatever the network does during a call through a proxy (bytes lost in either direction at any place, timeouts, failures, connections closed by the server without the proxy seeing it), the method is run at most once, with the caller's arguments; a call that was not run fails; a call whose method was run gives a failure, or the value that the method returned, or the fault for what it threw, never anything else, also when the connection is kept and used for further calls. Results that the protocol can carry are assumed for the last part.", "quantifier": "all registries, sequences of calls, values, proxy modes, server configurations, and all behaviours of the network in each call", "why_tests_cant": "the place where a message is cut, the schedule of partial reads, writes and timeouts and the history of the kept connection are unbounded", "anchors": ["src/frpcserverproxy.cc:ServerProxyImpl_t::call", "src/frpchttpclient.cc:HTTPClient_t::readResponse", "src/frpchttpio.cc:HTTPIO_t::readLineOpt", "src/frpchttpio.cc:HTTPIO_t::readContent", "src/frpcserver.cc:Server_t::serve", "src/frpcserver.cc:Server_t::readRequest"]}
{"id": "C126", "title": "Header fields given by the user stay header fields", "statement": "Whatever text the user gives as the value of a header field (addRequestHttpHeaderForCall, addRequestHttpHeader, the address for X-Forwarded-For, a server's response headers), the call sends one request (the server one response) whose content is the call (the result) and whose header has that field with that value.", "quantifier": "all histories of a proxy, fields, calls, protocols, chunked or not, all ways the network takes the bytes", "why_tests_cant": "all texts of fields, all calls and histories", "anchors": ["src/frpchttpclient.cc:HTTPClient_t::sendRequest", "src/frpchttpclient.cc:HTTPClient_t::addCustomRequestHeader", "src/frpcserverproxy.cc:ServerProxy_t::addRequestHttpHeaderForCall", "src/frpcserver.cc:Server_t::sendResponse"]}
{"id": "C127", "title": "Timeouts bound a call", "statement": "A call with a read timeout and a write timeout set ends, with a result or an error, within these: a peer that says nothing for the timeout makes it fail, and no peer can make it last longer than the timeouts say.", "quantifier": "all peers: all bytes they send, all ways they arrive or are taken, all timeouts", "why_tests_cant": "all schedules of arrival, unbounded", "anchors": ["src/frpchttpio.cc:HTTPIO_t::readLineOpt", "src/frpchttpio.cc:HTTPIO_t::readBlock", "src/frpchttpio.cc:HTTPIO_t::sendData", "src/frpchttpclient.cc:HTTPClient_t::readResponse"]}
{"id": "C128", "title": "A binary message makes nothing larger than itself", "statement": "Whatever binary message arrives, in whatever pieces and whatever counts and lengths it announces, the receiver never holds more values, texts and names than the message received so far has bytes: the value given is one that a message no longer could carry, containers are nested at most half as deep as the message has bytes, and the calls made of a data builder with the bytes they carry are no more than the bytes received.", "quantifier": "all byte strings, all ways to divide them, all kinds of message, all points of the stream", "why_tests_cant": "all inputs, unbounded; announced counts go up to 2^30", "anchors": ["src/frpcbinunmarshaller.cc:BinUnMarshaller_t::unMarshallInternal", "src/frpctreebuilder.cc:TreeBuilder_t::openArray", "src/frpctreebuilder.h:TreeBuilder_t::getUnMarshaledData"]}
{"id": "C129", "title": "Between the Python client and the Python server a call runs at most once and never gives a wrong answer, whatever the network does", "statement": "Whatever the network does during a call through fastrpc.ServerProxy to fastrpc.Server (bytes lost in either direction at any place, timeouts, failures, connections closed by the server without the proxy seeing it, a server process that has ended), the function is run at most once, with the caller's arguments; of a call that was not run the caller gets neither an object nor a fault; a call whose function was run gives neither, or the object that stands for its result, or its fault, never anything else, also when the connection is kept and used for further calls. Results that the protocol can carry are assumed for the last part.", "quantifier": "all registries and hooks, sequences of calls, objects, proxy modes, server configurations, header fields given with calls, and all behaviours of the network in each call", "why_tests_cant": "the place where a message is cut, the schedule of partial reads, writes and timeouts and the history of the kept connection are unbounded", "anchors": ["python/fastrpcmodule.cc:Proxy_t::operator()", "python/pythonserver.cc:Server_t::serve", "python/pythonserver.cc:Server_t::write", "python/pythonserver.cc:Server_t::flush", "src/frpchttpclient.cc:HTTPClient_t::readResponse", "src/frpchttpio.cc:HTTPIO_t::readContent"]}
{"id": "C130", "title": "Between the Python client and the C++ server a call runs at most once and never gives a wrong answer, whatever the network does", "statement": "Whatever the network does during a call through fastrpc.ServerProxy to a C++ FRPC server (bytes lost in either direction at any place, timeouts, failures, connections closed by the server without the proxy seeing it), the method is run at most once, with the values that the caller's objects stand for; of a call that was not run the caller gets neither an object nor a fault; a call whose method was run gives neither, or the object that stands for the method's value, or the fault for what it threw, never anything else, also when the connection is kept and used for further calls. Results that the protocol can carry are assumed for the last part.", "quantifier": "all registries, sequences of calls, objects, proxy modes, server configurations, header fields given with calls, and all behaviours of the network in each call", "why_tests_cant": "the two sides are written in two languages and tested apart; the place where a message is cut, the schedule of partial reads, writes and timeouts and the history of the kept connection are unbounded", "anchors": ["python/fastrpcmodule.cc:Proxy_t::operator()", "src/frpcserver.cc:Server_t::serve", "src/frpchttpclient.cc:HTTPClient_t::readResponse", "src/frpchttpio.cc:HTTPIO_t::readContent"]}
{"id": "C131", "title": "Between the C++ client and the Python server a call runs at most once and never gives a wrong answer, whatever the network does", "statement": "Whatever the network does during a call of a C++ ServerProxy to fastrpc.Server (bytes lost in either direction at any place, timeouts, failures, connections closed by the server without the proxy seeing it, a server process that has ended), the function is run at most once, with the objects that stand for the caller's values; a call that was not run fails; a call whose function was run fails, or gives the value that its result stands for, or its fault, never anything else, also when the connection is kept and used for further calls. Results that the protocol can carry are assumed for the last part.", "quantifier": "all registries and hooks, sequences of calls, values, proxy modes, server configurations, header fields set between calls, and all behaviours of the network in each call", "why_tests_cant": "the two sides are written in two languages and tested apart; the place where a message is cut, the schedule of partial reads, writes and timeouts and the history of the kept connection are unbounded", "anchors": ["src/frpcserverproxy.cc:ServerProxyImpl_t::call", "python/pythonserver.cc:Server_t::serve", "python/pythonserver.cc:Server_t::write", "python/pythonserver.cc:Server_t::flush", "src/frpchttpclient.cc:HTTPClient_t::readResponse", "src/frpchttpio.cc:HTTPIO_t::readContent"]}
{"id": "C132", "title": "A text that is not base64 is refused", "statement": "The base64 decoder (and with it the base64 transport and the base64 elements of XML-RPC) takes a text as data only if, white space aside, it is the base64 encoding of those data; any other text is refused or gives no data; characters outside the alphabet have no meaning, and the data are never longer than three bytes for four characters.", "quantifier": "all texts, all divisions into pieces", "why_tests_cant": "all byte strings: the wrong ones are infinitely many and no sample shows which are let through", "anchors": ["src/frpcbase64.cc:Base64::process", "src/frpcbase64.cc:base64Table", "src/frpcxmlunmarshaller.cc:XmlUnMarshaller_t"]}
{"id": "C133", "title": "The header functions of the Python server show the headers", "statement": "In a user function of a fastrpc.Server, getInHeaders gives the header fields of the request being served, in their order, and getInHeadersFor those of the given name irrespective of case; getOutHeaders and getOutHeadersFor give likewise what addOutHeader has added to the response; nothing is seen of another request, asking changes nothing, and no garbage is left behind.", "quantifier": "all histories of a server object (requests on any connections, responses, calls of user functions), all header fields, all names", "why_tests_cant": "all histories and all field names and values; stale and leaked data only show in particular orders", "anchors": ["python/pythonserver.cc:headersToPyList", "python/pythonserver.cc:getInHeadersFor", "python/pythonserver.cc:addOutHeader", "python/pythonserver.cc:readRequest"]}
{"id": "C134", "title": "A fault in the middle of a message reaches the receiver", "statement": "After resetToFaultState the following data are read as a fault: an unmarshaller in any state whatever that knows the sender's version, given the payload of a fault message in any pieces, makes exactly one builder call, the fault with the code and message sent, and finish succeeds. A sender failing where a value outside a structure is due can send the fault's type byte and payload: unMarshallPartial takes nothing from the type byte on, and after the reset asking the tree builder for the data raises that fault whatever was built before.", "quantifier": "all states of the unmarshaller, all 32-bit codes, all messages below the element limit, all divisions into pieces, all partial messages before the fault, protocol versions 1 to 3", "why_tests_cant": "unbounded messages, states and divisions", "anchors": ["src/frpcbinunmarshaller.cc:resetToFaultState", "src/frpcbinunmarshaller-extras.h", "src/frpcbinunmarshaller.cc:unMarshallKnown"]}
{"id": "C135", "title": "Attribute access on the Python client names the method", "statement": "proxy.a.b.c is the method called \"a.b.c\": for every chain of attributes none of which begins with two underscores (and, if the proxy was made with hideAttributes=False, whose first is not one of the proxy's own attributes) the name is the parts joined with dots; every other chain is refused or is an attribute; different chains name different methods.", "quantifier": "all chains of attribute names", "why_tests_cant": "unboundedly many chains and names", "anchors": ["python/fastrpcmodule.cc:Method_getattr", "python/fastrpcmodule.cc:ServerProxy_getattr"]}
{"id": "C136", "title": "A console script runs its lines in order, stops at the first error and says so", "statement": "The console does nothing that no line asks for, at most one thing for a line, and in the order of the lines. A script of expressions that all succeed is evaluated line by line, each expression once and as it was written. In a script the first error ends the program with status 255 and the number of the line, and nothing after that line is read or done; a script that ends with status 0 has had no error. On a terminal no error ends the session: it ends at the end of the input, at `exit` or `quit`, at an expression that ends the program itself, or at two Ctrl-C with no line between them. The commands do what the help of the console says: `exit [RESULT]` leaves with that status and `timeout {MILLISECONDS}` sets that timeout.", "quantifier": "all scripts and terminal sessions (lines and interrupts), all outcomes of the Python expressions, clients and programs, which may depend on everything done before", "why_tests_cant": "A test runs a few scripts; the claim is about every script, every place where something can fail and every pattern of interrupts.", "anchors": ["netcat/fastrpc-netcat3: main"]}
{"id": "C137", "title": "The console connects to the server it was told", "statement": "`connect HOST PORT`, `connect NAME HOST PORT` and the arguments HOST PORT of the program make a client for that host and port, the path /RPC2 and plain HTTP, whatever the host name or bracketed address (`0` is this machine); without a port it is 80. A URL is taken as it is, with `http://` before it if it has no scheme. A client gets the name given; without one, a name of the form clientN that no earlier client made without a name has.", "quantifier": "all host names and bracketed addresses, all ports, all URLs and names without spaces, all states of the console and everything read between two clients", "why_tests_cant": "The space of hosts, ports, names and histories is unbounded, and whether a word is a name, a host or a port depends on the number of words and on their contents.", "anchors": ["netcat/fastrpc-netcat3: main (connect, command line)", "src/frpchttp.cc: URL_t"]}
{"id": "C138", "title": "Whatever the XML parser complains of becomes an exception", "statement": "Whatever error the XML parser reports for the text a peer sent, the unmarshaller throws a stream error whose message names the error; different errors of the table give different messages, and no memory outside the table of messages is read.", "quantifier": "all error numbers of the parser, all chunks and states of the unmarshaller", "why_tests_cant": "A test provokes a handful of parser errors; the parser has several hundred and most need input nobody would write by hand.", "anchors": ["src/frpcxmlunmarshaller.cc: error_mapping, XmlUnMarshaller_t::unMarshall"]}
{"id": "C139", "title": "Callbacks are told the time the call took", "statement": "The duration the registry gives to postProcess is the time between the two readings of the clock, exact to the microsecond and normalised (less than a million microseconds), for every pair of readings; if the clock was set back in between it is zero.", "quantifier": "all pairs of clock readings less than 2^32 seconds apart, and all pairs in the wrong order", "why_tests_cant": "The borrow between seconds and microseconds and a clock that is set back depend on the moment a test runs at.", "anchors": ["src/frpcmethodregistry.cc: TimeDiff_t::diff", "src/frpcmethodregistry.h: Callbacks_t::postProcess"]}
{"id": "C140", "title": "The exceptions of the Python module", "statement": "fastrpc.Fault, fastrpc.ProtocolError and fastrpc.ResponseError are made exactly from a number and a string (resp. a string) and an optional method, anything else is a TypeError; their attributes are the arguments until the program sets or deletes them; their text names the class, the number, the string and, when there is one, the method and its server; printing any exception that could be made is safe; and every reference to an argument is given back when the exception goes, whatever was done with it and however its construction ended.", "quantifier": "every list of arguments, every history of setting, deleting, reading and printing the attributes", "why_tests_cant": "Reference counts and type confusions show only after many constructions or with arguments no test passes; the histories of attribute changes are unbounded.", "anchors": ["python/pyerrors.cc: ProtocolError_init, Fault_init, ResponseError_init, *_clear, *_dealloc, *_members", "python/fastrpcmodule.cc: errorRepr"]}
{"id": "C141", "title": "The database clients of the console", "statement": "With autocommit off, statements, begin, commit and rollback of a database client of the console have the effect of transactions. With autocommit on (the default) each statement whose result was printed is a transaction of its own and lasts. Errors of the server and of the connection are printed, never exceptions, except when the server cannot be reached again; Ctrl-C leaves the data as they were.", "quantifier": "every database, every history of statements, begin, commit and rollback, every point at which the connection fails", "why_tests_cant": "Whether the last statement lasts depends on when the session ends; histories are unbounded and the database is arbitrary.", "anchors": ["netcat/fastrpc-netcat3: DbConn.begin, DbConn.execute, DbConn.commit, DbConn.rollback, DbConn.connect"]}
{"id": "C142", "title": "HEAD requests to the C++ server", "statement": "Whatever the server has done before, a HEAD request gets exactly one answer: the header of a response 200 without content, with the application's header fields, if the application's head method gives 0; the HTTP error 503 if it gives more; 405 if there is none. The answer depends on nothing that other clients did, no method runs, what follows on the connection is not served, and serve returns.", "quantifier": "all configurations, all earlier connections and requests, all HEAD requests with any header, all results of the head method, all ways the network splits the bytes", "why_tests_cant": "the fields of the server object that the answer is made of survive requests and connections; a test sees one history", "anchors": ["src/frpcserver.cc: Server_t::serve, readRequest, sendResponse, sendHttpError", "src/frpcmethodregistry.cc: MethodRegistry_t::headCall"]}
{"id": "C143", "title": "The limits bound what a header makes the reader keep", "statement": "With the limits of HTTPIO_t set, a header of a peer makes the reader keep no more than the limits allow, and in any case no more than the peer has sent: the bytes of all names and values together with the number of fields are at most the bytes of the header on the connection.", "quantifier": "all limits, all bytes of the peer, all ways the network splits them, all timeouts", "why_tests_cant": "a bound for all inputs; continuation lines and optional headers combine", "anchors": ["src/frpchttpio.cc: HTTPIO_t::readHeader, readLineOpt, getHeaderValue", "src/frpchttp.cc: HTTPHeader_t::add, appendValue"]}
{"id": "C144", "title": "The extent of a body is never in doubt", "statement": "A message whose header does not say where its body ends in exactly one way (a length and chunks, two lengths, a length or a chunk size that is not just a number, an unknown transfer coding) is refused; so no two readers of the connection can disagree about where the next message begins.", "quantifier": "all header fields, bodies and segmentations", "why_tests_cant": "unbounded inputs; every way to write the fields", "anchors": ["src/frpchttpio.cc:readContent", "src/frpchttpio.cc:readChunkSize", "src/frpchttpio.cc:readChunkedContent"]}
{"id": "C145", "title": "Options of a Python server take effect", "statement": "Every option given to fastrpc.Server either takes effect (timeouts, keep-alive, introspection, string mode, switches, callbacks) or is refused with an exception; options not given have their documented defaults.", "quantifier": "all combinations of arguments of all Python types, all callbacks", "why_tests_cant": "the combinations of nine optional arguments of any type are unbounded", "anchors": ["python/pythonserver.cc: ServerObject_new, MethodRegistryObject_new, callableOrNone", "python/pythonbuilder.cc: parseStringMode"]}
{"id": "C146", "title": "A dropped Python server releases what was registered", "statement": "When the program no longer refers to a Python server or its registry, the registry is freed and lets go of every method, context and callback registered with it, whatever was registered before.", "quantifier": "all histories of registrations, all callbacks", "why_tests_cant": "a leak shows in no result of a call; all histories", "anchors": ["python/pythonserver.cc: registerInternalMethod, MethodRegistryObject_new, MethodRegistryObject_dealloc, ServerObject_dealloc, Method_t"]}
{"id": "C147", "title": "A Python result that cannot be sent is one error", "statement": "If a method of a Python server returns something that cannot be converted, the client gets exactly one answer, the HTTP error 500 that says why; nothing of the result is sent, and serve returns.", "quantifier": "all results, wherever in them the part is that cannot be converted, all requests, formats and network schedules", "why_tests_cant": "depends on how much of the result was converted before the failure and on the format asked for", "anchors": ["python/pythonserver.cc: Server_t::serve (861-914), write, sendResponse, sendHttpError", "python/pythonfeeder.cc: Feeder_t::feedValue"]}
{"id": "C148", "title": "What the console prints shows the result", "statement": "Two different results are printed differently by fastrpc-netcat3: from the lines after a call the result can be told, up to the order of the members of structs when sorting is on. In particular a string cannot pass for several items, a name for part of a value, or binary data for a string.", "quantifier": "for all pairs of results of any nesting, with and without sorting of members", "why_tests_cant": "It speaks of all pairs of nested results and of strings chosen by the other side; the layout is indented text without escapes, so the trouble is in contents no test tries.", "anchors": ["netcat/fastrpc-netcat3: _type, _write_out, write_out_list, write_out"]}
{"id": "C149", "title": "Completion at the console offers the known names that begin with what was typed", "statement": "On a tab at the prompt of fastrpc-netcat3 the offered names are exactly the known names that begin with the typed text, in the order in which they became known, whatever was asked before. Known are the words of the console and, for every server it was connected to, the name of the client, a dot and each method that the server lists outside the group system, up to the first row of the list that is no text; names never become unknown.", "quantifier": "for all lists of methods, all histories of questions and connections, all typed texts and all numbers of questions", "why_tests_cant": "The completer keeps state between the questions of readline and shares its list with the console; that no history of questions and connections shows a wrong or stale name is a statement about all histories.", "anchors": ["netcat/fastrpc-netcat3: Completer, main"]}
{"id": "C150", "title": "Web handlers answer in a format the client accepts and say truly which and how long", "statement": "Whenever the aiohttp, Flask or Tornado handler answers a request with a message, the Content-Type of the answer is one that the client's Accept field lists (or, if it says nothing, the type it sent) and that the handler allows, the body is a message in that format, and Content-Length is the number of its bytes; a client that accepts an allowed type is not refused for its Accept field.", "quantifier": "every request (Accept, Content-Type, body), every set of allowed types, every table of methods and every behaviour of the methods", "why_tests_cant": "Accept fields, results and their characters are unbounded; tests try a handful of combinations of headers.", "anchors": ["python/fastrpc/handler/aiohttp.py: FastRPCHandler", "python/fastrpc/handler/flask.py: FastRPCHandler, _response_autostatus", "python/fastrpc/handler/tornado.py: FastRpcHandler, system_list_methods, system_method_signature, system_method_help"]}
{"id": "C151", "title": "A call through a web handler runs the named method once and brings back its result", "statement": "A well-formed call by a client that accepts the message type runs the method registered under the name exactly once, with the arguments that were sent, and the answer is loaded as the result of that method, or, if it raised an exception or a fault, as that failure; a call of an unknown name runs nothing and is answered so; a request that is refused runs nothing.", "quantifier": "every request, every table of methods, all methods, all arguments and results that the library carries", "why_tests_cant": "Arguments, results and registered methods are unbounded; the property composes the handler with marshalling and unmarshalling of arbitrary values.", "anchors": ["python/fastrpc/handler/aiohttp.py: FastRPCHandler", "python/fastrpc/handler/flask.py: FastRPCHandler, _response_autostatus", "python/fastrpc/handler/tornado.py: FastRpcHandler, system_list_methods, system_method_signature, system_method_help"]}
{"id": "C152", "title": "Registration and introspection of the web handlers", "statement": "Calling a registered name runs the function registered last under it; system.listMethods lists exactly the registered names, each once and in the order of their first registration; system.methodHelp of a registered name is a text, the documentation of its function (empty if it has none), and an exception for any other name.", "quantifier": "all histories of registrations, all names and functions", "why_tests_cant": "Histories of registration are unbounded.", "anchors": ["python/fastrpc/handler/aiohttp.py: FastRPCHandler", "python/fastrpc/handler/flask.py: FastRPCHandler, _response_autostatus", "python/fastrpc/handler/tornado.py: FastRpcHandler, system_list_methods, system_method_signature, system_method_help"]}
{"id": "C153", "title": "Texts given as C strings", "statement": "Calls of the marshallers that take a text as a C string (struct member, string, fault message, method name) write exactly what the calls with the text and its length write: the text up to the first NUL, whatever follows it in memory, mixed in any order with the other calls. The same holds of calls of data builders: the builder is left, and the calls end, as with the texts and their lengths.", "quantifier": "all sequences of calls, all C strings and all memory behind them, both marshallers and all versions, all builders", "why_tests_cant": "Texts, what follows them in memory and the sequences of calls are unbounded; texts of 4 GiB are not tried by tests.", "anchors": ["src/frpcmarshaller.cc: Marshaller_t::packString, packStructMember, packFault, packMethodCall (const char*)", "src/frpcdatabuilder.cc: DataBuilder_t::buildString, buildStructMember, buildFault, buildMethodCall (const char*)"]}
{"id": "C154", "title": "Trees fed into marshallers of the user's own", "statement": "Feeding a value tree into a user's class derived from Marshaller_t makes exactly the calls that a marshaller of the library would get for the tree, in the same order, until one of them throws; a tree with a null or a binary reference anywhere ends in an exception, after the calls for what precedes the first such value and no other call; without them and without exceptions of the marshaller, feeding ends well.", "quantifier": "all value trees, all marshallers (any state, any behaviour including exceptions)", "why_tests_cant": "The marshaller is arbitrary code with arbitrary state, and trees are unbounded.", "anchors": ["src/frpctreefeeder.cc: TreeFeeder_t::feedValue, feedValueImpl, packNull, packBinaryRef, has_non_virtual_api"]}
{"id": "C155", "title": "Chains of subscripts find exactly what is in a tree", "statement": "Applying operator[] with numbers and names one after another to a value returns the value that is at that place in the tree, and if there is none throws, for the first step that leads nowhere, the index error, the key error, or the type error if the value there is not an array (for a number) or not a struct (for a name); the content of a secret is not reached.", "quantifier": "all value trees, all chains of numbers and names", "why_tests_cant": "Trees and chains are unbounded; the exception depends on the first step that fails, wherever it is.", "anchors": ["src/frpcvalue.cc: Value_t::operator[]", "src/frpcarray.cc: Array_t::operator[]", "src/frpcstruct.cc: Struct_t::operator[]"]}
{"id": "C156", "title": "Gathering secrets does not change what is fed", "statement": "feedValueAndGatherSecrets makes of the marshaller, library's or user's, exactly the calls that feedValue makes of it; if none of them throws it returns the pointers to all the secrets of the tree in the order of the tree, and otherwise it ends with the exception of the first that throws; the stack of segments is restored in every case.", "quantifier": "all value trees, all marshallers with any state and any exceptions at any call", "why_tests_cant": "The marshaller may throw at any of unboundedly many calls, and trees and secrets in them are unbounded.", "anchors": ["src/frpctreefeeder.cc: TreeFeeder_t::feedValueAndGatherSecrets, TreeFeeder_t::feedValue, feedValueImpl, Secrets_t, PointerExtender_t"]}
