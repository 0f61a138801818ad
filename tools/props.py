#!/usr/bin/env python3
# Generates /verif/properties.jsonl.  Each entry: id, title, statement, quantifier, why_tests_cant, anchors
import json
P=[]
def p(i,t,s,q,w,*a): P.append(dict(id=i,title=t,statement=s,quantifier=q,why_tests_cant=w,anchors=list(a)))
p("C01","Binary response round-trip","For every value tree accepted by the binary marshaller at protocol 2.1 or 3.x, marshalling it as a method response and unmarshalling the bytes into a tree builder yields exactly the same tree (up to the documented datetime packing).","every value tree of any depth/width, protocol versions 2.1.. and 3.x","unbounded set of trees and nesting depths","src/frpcbinmarshaller.cc:BinMarshaller_t","src/frpcbinunmarshaller.cc:unMarshallInternal","src/frpctreebuilder.cc:TreeBuilder_t","src/frpctreefeeder.cc:feedValueImpl")
p("C02","Binary method-call round-trip","For every method name of 1..255 bytes and every list of argument trees, the call received by the server has exactly that name and exactly those arguments in order.","all names, all argument lists","unbounded","src/frpcbinmarshaller.cc:packMethodCall","src/frpcbinunmarshaller.cc:unMarshallInternal","src/frpctreebuilder.cc:buildMethodCall")
p("C03","Binary fault round-trip","For every 32-bit fault code and every message below the element limit, a packed fault is received as a fault with the same code and message, and asking the tree builder for the data raises that fault.","all codes and messages, protocol versions 2 and 3","unbounded messages; all 2^32 codes","src/frpcbinmarshaller.cc:packFault","src/frpcbinunmarshaller.cc:FaultBuilder_t","src/frpctreebuilder.h:getUnMarshaledData")
p("C04","Binary unmarshaller is chunking independent","However the bytes of a stream are split over successive unMarshall calls (including empty pieces), the same builder calls are made in the same order with the same arguments, and the same final state or error class results as with a single call.","all byte streams, all splittings","the number of splittings is exponential and inputs are unbounded","src/frpcbinunmarshaller.cc:Driver_t","src/frpcbinunmarshaller.cc:unMarshall")
p("C05","Every 64-bit integer survives protocol 2 and 3","Every int64, including INT64_MIN, encoded at protocol major 2 or 3 is decoded to itself.","all 2^64 integers, both majors","2^64 inputs","src/frpcbinmarshaller.cc:packInt","src/frpcbinmarshaller.cc:zigzagEncode","src/frpcbinunmarshaller.cc:zigzagDecode","src/frpcbinunmarshaller.cc:safe_negate")
p("C06","Protocol 1 integers are never silently changed","An integer packed at protocol major 1 is either rejected or received unchanged.","all int64 values","2^64 inputs","src/frpcbinmarshaller.cc:getNumberType","src/frpcbinmarshaller.cc:packInt","src/frpcbinunmarshaller.cc:S_INT")
p("C07","Doubles are transferred bit-exactly","Every 64-bit double pattern (including NaN payloads, infinities, signed zero) encoded in binary form is decoded to the identical bit pattern at every protocol version.","all 2^64 patterns, all versions","2^64 inputs","src/frpcbinmarshaller.cc:packDouble","src/frpcbinunmarshaller.cc:getDouble")
p("C08","Strings and binaries are transferred byte-exactly or rejected","Every byte string shorter than 2^30 is received byte-for-byte; one of 2^30 bytes or more is rejected by the receiver, never truncated.","all byte strings and lengths","unbounded lengths","src/frpcbinmarshaller.cc:packString","src/frpcbinmarshaller.cc:packBinary","src/frpcbinunmarshaller.cc:S_STRING_LEN")
p("C09","Date-time fields survive protocol 3","Every date-time whose fields are in calendar range (year 1601..3647) and whose zone is a multiple of 15 minutes is received with the same fields, timestamp and zone.","all calendar date-times, timestamps, zones","huge product domain","src/frpcinternals.h:DateTimeDataV3_t","src/frpcbinunmarshaller.cc:getDateTimeV3","src/frpcbinmarshaller.cc:packDateTime")
p("C10","Date-time timestamp at protocol 2 is exact or marked invalid","At protocol 1/2, the unix timestamp received is either the one sent or -1.","all 64-bit timestamps","2^64 inputs","src/frpcinternals.h:DateTimeData_t","src/frpcbinunmarshaller.cc:getDateTime")
p("C11","A truncated message is not reported complete","If the unmarshaller's finish() succeeds then the bytes seen so far form a complete message: header, all announced items of every container, and (for a response) a value.","all byte streams and truncation points","unbounded streams","src/frpcbinunmarshaller.cc:finish")
p("C12","The binary unmarshaller never reads outside its input","For every byte sequence and chunking, decoding only reads bytes it was given and never overflows its 4/8-byte scratch buffers (no undefined behaviour in the decoder).","all byte streams and chunkings","needs all hostile inputs","src/frpcbinunmarshaller.cc:unMarshallInternal","src/frpcbinunmarshaller.cc:getInt64")
p("C13","The binary unmarshaller terminates with linear work","Each unMarshall call performs at most a constant times (bytes received) loop iterations, whatever the input says about sizes.","all inputs","needs all hostile inputs","src/frpcbinunmarshaller.cc:unMarshallInternal")
p("C14","Builder calls are always well nested","For every input, the sequence of builder calls is well nested: each close matches the innermost open container, a container announced with n items receives exactly n before being closed, and member names occur exactly before struct values.","all byte streams","unbounded","src/frpcbinunmarshaller.cc:decrementMember","src/frpcdatabuilder.h:DataBuilder_t")
p("C15","Streams with bad magic or unsupported version are rejected before any builder call","A stream whose first two bytes are not CA 11 or whose major version is not 1..3 raises a stream error and causes no builder call.","all byte streams","2^32 headers times unbounded suffixes","src/frpcbinunmarshaller.cc:S_MAGIC")
p("C16","Message type filter","When the receiver asks for method calls it never gets a response or fault; when it asks for a response it gets only responses or faults.","all byte streams, all requested types","unbounded","src/frpcbinunmarshaller.cc:S_BODY")
p("C17","Null only where the protocol has it","Null is refused by the marshaller below protocol 2.1 and by the unmarshaller at major 1; at 2.1 and above it round-trips.","all versions","all versions times all trees","src/frpcbinmarshaller.cc:packNull","src/frpcbinunmarshaller.cc:NULLTYPE")
p("C18","Announced sizes are limited","No builder call ever carries a container count, string or binary of 2^30 or more elements.","all byte streams","unbounded","src/frpcbinunmarshaller.cc:ELEMENT_SIZE_LIMIT")
p("C19","Names are 1..255 bytes","The marshaller rejects empty or longer-than-255 method and member names; the unmarshaller rejects zero-length ones and delivers every other exactly.","all names","unbounded","src/frpcbinmarshaller.cc:packStructMember","src/frpcbinunmarshaller.cc:S_METHOD_NAME_LEN")
p("C20","Binary encoding is unambiguous","Two different value trees never have the same encoding at the same version, and no encoding is a proper prefix of another.","all pairs of trees","pairs of unbounded objects","src/frpcbinmarshaller.cc:BinMarshaller_t")
p("C21","Integer encodings are minimal","The number of length/value bytes written is the least that can hold the number.","all 64-bit numbers","2^64","src/frpcbinmarshaller.cc:getNumberType")
p("C22","Base64 writer emits standard base64, however it is fed","For every byte string and every division into write calls, the output after flush is the RFC 4648 encoding of the concatenation.","all byte strings, all divisions","unbounded","src/frpcb64writer.cc:Base64Writer_t")
p("C23","Base64 decoding inverts encoding, with arbitrary white space and chunking","Decoding the encoding of any data, with white space inserted anywhere and split into any pieces, gives back the data.","all data, white space placements and splittings","unbounded","src/frpcbase64.cc:Base64::process")
p("C24","XML/JSON base64 body encodes exactly the chunks fed","For every list of chunks the body base64 output (with or without CRLF line breaks) decodes to the concatenation, independent of chunk boundaries, and lines have at most 76 characters.","all chunk lists","unbounded","src/frpcxmlmarshaller.cc:writeEncodeBase64")
p("C25","Base64-RPC messages round-trip","A message written by the base64 marshaller and fed in any pieces to the base64 unmarshaller causes exactly the builder calls of the plain binary message.","all messages and splittings","unbounded","src/frpcb64marshaller.h:Base64Marshaller_t","src/frpcb64unmarshaller.cc:unMarshall")
p("C26","JSON output is well-formed and denotes the value","For every value tree (finite doubles) the JSON marshaller's output is accepted by a JSON grammar and its parse is the expected image of the tree.","all trees","unbounded","src/frpcjsonmarshaller.cc:JSONMarshaller_t")
p("C27","JSON strings cannot break out of their quotes","For every byte string the quoted output contains no raw quote, backslash or control byte between its quotes, and unquoting gives the original bytes.","all byte strings","unbounded","src/frpcjsonmarshaller.cc:quote")
p("C28","XML text cannot break out of its element","For every byte string the XML-escaped text contains no raw '<' or '>' or '\"' and every '&' starts one of the four entities; unescaping gives the original bytes.","all byte strings","unbounded","src/frpcxmlmarshaller.cc:writeQuotedString")
p("C29","XML output is balanced","For every call/response/fault with any value tree, the sequence of tags written by the XML marshaller is a balanced XML document with matching open and close tags.","all messages","unbounded depth","src/frpcxmlmarshaller.cc:XmlMarshaller_t","src/frpcxmlmarshaller.h:decrementItem")
p("C30","XML round-trip","For every supported value tree the XML document produced, parsed by a SAX parser and fed to the XML unmarshaller, rebuilds the same tree.","all trees","unbounded","src/frpcxmlmarshaller.cc","src/frpcxmlunmarshaller.cc:setValueType","src/frpcxmlunmarshaller.cc:setValueData","src/frpcxmlunmarshaller.cc:closeEntity")
p("C31","ISO date-time text round-trip","Formatting then parsing any calendar date-time with a zone in whole minutes below 100 hours yields the same fields and zone.","all date-times and zones","huge product domain","src/frpc.cc:getISODateTime","src/frpc.cc:parseISODateTime")
p("C32","ISO date-time parser is total and bounds-safe","For every byte string the parser either reports a bad format (exactly when year, month or day digits are missing) or returns fields in the digit ranges, and never reads past the end.","all byte strings","unbounded","src/frpc.cc:parseISODateTime")
p("C33","URL decoding inverts percent-encoding","Decoding the percent-encoding of any byte string gives the byte string, and for any input the output is never longer than the input.","all byte strings","unbounded","src/frpcurlunmarshaller.cc:urldecode")
p("C34","URL-encoded request decoding","The builder calls depend only on the concatenation of the pieces; exactly one method call with one struct argument is built, with members sorted and unique, and `name[]` members become arrays of all their values in order.","all inputs and splittings","unbounded","src/frpcurlunmarshaller.cc:URLUnMarshaller_t","src/frpcurlunmarshaller.cc:Values_t")
p("C35","Value comparison is a total order","compare() is reflexive, antisymmetric and transitive, total on all trees built of comparable types, and the six relational operators agree with it.","all trees / triples of trees","triples of unbounded objects","src/frpccompare.cc:compare")
p("C36","Struct behaves as a finite map","After any sequence of append/insert/erase/clear, lookups return the last appended value, iteration is sorted by key without duplicates, insert does not overwrite, and erase reports whether the key existed.","all operation histories","unbounded histories","src/frpcstruct.cc:Struct_t")
p("C37","Array behaves as a bounds-checked sequence","After any history, indexing below size returns the element stored there and at or beyond size raises an index error; append/replace/clear behave as on a list.","all operation histories","unbounded histories","src/frpcarray.cc:Array_t")
p("C38","Parameter check accepts exactly the described arrays","For a well-formed format string, the parameter check succeeds exactly on arrays with one element per type letter, each element of that type, or null where the letter is followed by '?'.","all formats and arrays","unbounded","src/frpcarray.cc:checkItems")
p("C39","Cloning preserves values","Cloning any tree into another pool gives an equal tree.","all trees","unbounded","src/frpcarray.cc:clone","src/frpcstruct.cc:clone","src/frpcdatetime.cc:clone")
p("C40","HTTP header store is a case-insensitive ordered multimap","After any sequence of add/set/remove, get with any letter case returns the index-th value added under that name, in order.","all histories","unbounded histories","src/frpchttp.cc:HTTPHeader_t","src/frpchttp.cc:polishName")
p("C41","Chunked transfer coding round-trip","For every sequence of writes made by a marshaller, the chunked body the client or server emits, decoded by the chunked reader under any network segmentation, is the concatenation of the writes.","all write sequences and segmentations","unbounded","src/frpchttpclient.cc:write","src/frpchttpclient.cc:sendRequest","src/frpcserver.cc:write","src/frpchttpio.cc:readChunkedContent")
p("C42","Content-Length equals the body sent","Without chunking, for every sequence of writes the Content-Length announced equals the number of body bytes sent and the body is the concatenation of the writes.","all write sequences","unbounded","src/frpchttpclient.cc:write","src/frpchttpclient.cc:sendRequest","src/frpcserver.cc:sendResponse")
p("C43","Body size limit is enforced","With a body limit configured, no more than that many body bytes are ever delivered to the unmarshaller, for every framing (length, chunked, until close).","all inputs, segmentations, limits","hostile inputs","src/frpchttpio.cc:readBlock","src/frpchttpio.cc:readChunkedContent")
p("C44","Line reading is segmentation independent and limited","However the peer's bytes are segmented, a line read returns the bytes before the first LF without trailing CRs and consumes exactly up to the LF; with the limit on, a line longer than the limit is an error.","all inputs, segmentations, limits","unbounded","src/frpchttpio.cc:readLineOpt")
p("C45","A counted body is read exactly","With Content-Length n, exactly n bytes are consumed and delivered in order whatever the segmentation, or an error is raised if the peer closes early.","all inputs and segmentations","unbounded","src/frpchttpio.cc:readBlock")
p("C46","Server keep-alive bound","A connection serves at most maxKeepalive requests and stops after a request that asked for close or when keep-alive is off.","all request histories","unbounded histories","src/frpcserver.cc:serve")
p("C47","Method dispatch and error mapping","A call runs exactly the method last registered under its name, else the default method, else yields a no-such-method fault; argument errors become the documented fault codes.","all registries, names, method behaviours","unbounded","src/frpcmethodregistry.cc:processCall","src/frpcmethodregistry.cc:registerMethod")
p("C48","Multicall answers position by position and isolates failures","multicall returns one result per request element, in order; a failing element yields a fault struct in its own position and does not affect the others.","all call lists and method behaviours","unbounded","src/frpcmethodregistry.cc:multicall")
p("C49","Exactly one response message per processed call","Whatever the method does, the bytes written for one call are exactly one well-formed response or fault message.","all method results/failures, all versions","unbounded","src/frpcmethodregistry.cc:processCall")
p("C50","Introspection lists exactly the registered methods","listMethods returns the registered names, sorted, without duplicates, including the four system methods when introspection is on; methodHelp returns the latest help.","all registration histories","unbounded histories","src/frpcmethodregistry.cc:listMethods","src/frpcmethodregistry.cc:methodHelp")
p("C51","Cached proxies are fresh, exclusive and for the right URL","With a non-decreasing clock, a proxy taken from the cache was returned less than the configured timeout ago, was returned for the same host, port and path, and is handed out at most once.","all histories of take/return with times","unbounded histories and clock values","src/frpcserverproxy.cc:ProxyCache_t")
p("C52","Request headers do not leak between proxies","A proxy obtained for a URL carries no request headers set by a previous user of the cached connection.","all histories","unbounded histories","src/frpcserverproxy.cc:lookup","src/frpcserverproxy.cc:addRequestHttpHeader")
p("C53","Secret marking survives transfer","The secret pointers gathered while feeding a call, given to the extended tree builder, make exactly the same positions secret in the rebuilt tree.","all trees with secrets anywhere","unbounded","src/frpctreefeeder.cc:Secrets_t","src/frpctreebuilder.cc:ExtTreeBuilder_t")
p("C54","Pointer segment escaping is invertible","Unescaping the escape of any key gives the key, and the escaped form contains no '/' or ','.","all keys","unbounded","src/frpctreefeeder.cc:escape_segment","src/frpctreebuilder.cc:unescape_segment")
p("C55","The log dump hides secrets","The text dump of a tree does not depend on the contents of secret values, of members whose name is in the hidden set, or of hidden positions of the top array.","all pairs of trees differing only in hidden parts","pairs of unbounded objects","src/frpc.cc:dumpFastrpcTree")
p("C56","URL parsing","For every http/https URL built from host, port and path the parser recovers them, and getUrl reproduces an equivalent URL.","all hosts, ports, paths","unbounded","src/frpchttp.cc:URL_t::parse","src/frpchttp.cc:getUrl")
p("C57","Protocol version from configuration","A configured protocol version string \"M.m\" selects version M.m.","all version strings","all strings","src/frpcserverproxy.cc:parseProtocolVersion")
p("C58","Request-line splitting","Splitting a line into at most n words returns the maximal non-space runs, the last one being the unsplit rest, and never reads outside the line.","all lines","unbounded","src/frpchttpio.cc:splitBySpace")
p("C59","Partial unmarshalling reports exactly what was consumed","unMarshallPartial returns a byte count k such that feeding exactly the first k bytes gives the same builder calls and a state ready for a value, and stops only at an unknown type byte.","all streams","unbounded","src/frpcbinunmarshaller.cc:unMarshallKnown")
p("C60","String validation","With validation on, a string value is created exactly when its bytes are UTF-8 of XML-legal characters; with validation off always.","all byte strings","unbounded","src/frpcstring.cc:validateBytes")
p("C61","Header line parsing","Parsing a header line `name: value` gives the name before the first colon and the value trimmed of white space; continuation lines append to the previous value.","all lines","unbounded","src/frpchttpio.cc:getHeaderValue","src/frpchttpio.cc:readHeader")
p("C62","Duplicate members resolve to the last one","If a received struct repeats a member name, the tree holds the last value, and the number of members is the number of distinct names.","all streams","unbounded","src/frpctreebuilder.h:isMember","src/frpcstruct.cc:append")
if __name__=="__main__":
    with open("/verif/properties.jsonl","w") as f:
        for x in P: f.write(json.dumps(x)+"\n")
    print(len(P))
