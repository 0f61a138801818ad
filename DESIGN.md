# Formal model of seznam/fastrpc in Lean 4 — design

## 1. What this is

`lean/Verif` holds an executable Lean 4 model of the C++ library in `/repo/src` and of `javascript/fastrpc.mjs`,
and theorems about them.  Layers:

* `Verif/Basic/*`  — byte / bit / list helper lemmas, no model content.
* `Verif/Model/*`  — the model, one module per C++ translation unit (every
  definition cites file:lines and says where it simplifies).
* `Verif/Spec/*`   — small independent specifications (RFC 4648, message
  grammar, finite maps, JSON grammar, percent encoding, XML-RPC documents ...).  They do not use the model's
  helpers.
* `Verif/Proofs/*` — helper lemmas and refinement/invariant proofs.
* `Verif/Props/*`  — the property theorems named `Cnn_*` (one per claim, or
  several), each with `example`s showing that the hypotheses are met
  by a concrete non-trivial case.

Undefined behaviour of the C++ (out-of-range reads, scratch-buffer overflow,
signed overflow, use of uninitialised variables) is a distinct outcome (`Err.ub` or an explicit error
constructor) in the model, never silently totalised.

Where the code violates the property the theorem is
`Cnn_..._violated` (the negation with a concrete witness, or for a whole class of inputs) together with the strongest
true part, `Cnn_..._partial`.

## 2. Trusted base

* Lean 4.33.0's kernel.  Axioms: at most `propext`, `Classical.choice`,
  `Quot.sound` (checked by `#print axioms`, script `tools/axioms.sh`).  No own axioms,
  no compiled evaluation.
* The fidelity of the reading of the C++ source.  The code is not executed here.
* Assumed platform: 8-bit bytes, little-endian host (so `FRPC_INT` etc. are
  the little-endian view chosen by the headers), two's-complement 64-bit
  `int64_t`, `size_t` of 64 bits, `char` signed (x86-64 ABI), IEEE-754 doubles.
* Parameters (external calls), over which the theorems quantify:
  * text formatting of doubles (`snprintf`, `operator<<`) and `strtod`: any function, with the round trip of 17 digits as a
    hypothesis where it is needed;
  * `mbrtowc`: `StringValid.Mbrtowc`, specified by `Utf8Mb` in C60;
  * `mktime`/`localtime_r`: a function of the calendar fields;
  * the SAX parser (`libxml2`): any function from pieces to callbacks; C30 assumes `Spec.Xml.Conforms`, and
    `XmlParser.eager_conforms` shows that an actual parser conforms;
  * sockets: the bytes of the peer, an arbitrary schedule of segment sizes, timeouts and errors, and what is written;
  * the clock (`time()`), `std::multimap::find`'s choice among equal keys;
  * the JavaScript host: logarithm, text decoder, calendar (`Js.Host`);
  * CPython: objects as the trees `Py`, exceptions as `Exn`, the UTF-8 codec as the predicate `isUtf8`, `PyArg_ParseTuple` conversions as written in the comments; Python callables are functions of a state (`PyServer.Fn`), `hashOk` says whether `s#` works without `PY_SSIZE_T_CLEAN`;
  * the web frameworks (aiohttp, Flask/Werkzeug, Tornado, uWSGI) around the handlers of `python/fastrpc/handler`: a request is its header fields and its body;
  * user methods, user builders, the logger function (assumed not to throw), memory allocation (assumed to succeed).

### Not modelled
Threads, reuse of memory addresses, TLS/DNS, reference counts of Python objects (but those of a registry to itself, C146), the Windows port, the reading of lines and the history of `fastrpc-netcat` (its commands, printing and completion are C136–C138 and C147–C149).
`typescript/fastrpc.ts` is the source of `javascript/fastrpc.mjs`, with the same functions; the latter is the one modelled.

## 3. Per-property plan
| id | modelled | proof |
|---|---|---|
| C01 | Model/BinMarshaller, BinUnmarshaller, TreeBuilder, TreeFeeder | mutual induction over value trees with a continuation-style lemma: decoding `enc v ++ rest` makes exactly the builder events of `v` and leaves `rest`; tree builder on those events rebuilds `v` |
| C02 | same | same lemma plus header/name states |
| C03 | same + FaultBuilder | same lemma for fault states |
| C04 | BinUnmarshaller.feed | feeding is shown equal to byte-by-byte feeding; state after a chunk is a fold over bytes |
| C05 | packInt / decode int | arithmetic over Int with explicit ranges |
| C06 | packInt v1 | false of the code: negation with witness; partial for 0 <= n < 2^32 |
| C07 | packDouble | bit-vector bytes round trip |
| C08 | packString/packBinary | length round trip + limit rejection; false from 2^32 bytes on (size truncated): negation |
| C09 | DateTimeDataV3_t pack/unpack at byte level | false for years >= 2624 (signed char shift): negation; partial for 1601..2623 |
| C10 | DateTimeData_t | false for 2^31 <= |t| < 2^32: negation; partial |
| C11 | finish | false of the code (response header without value): negation; partial: inside containers and elements always rejected |
| C12 | decoder with Err.ub | invariant: reachable states never return Err.ub |
| C13 | decoder loop with iteration counter | measure argument |
| C14 | event automaton in Spec | invariant relating decoder stack to the automaton |
| C15 | decoder | case analysis |
| C16 | decoder | invariant over event traces |
| C17 | packNull, decoder | case analysis |
| C18 | decoder | invariant on events |
| C19 | names | case analysis + round trip |
| C20 | marshaller | corollary of continuation lemma (decode is a left inverse with rest) |
| C21 | getNumberType | arithmetic |
| C22 | Base64Writer_t | invariant over write history vs RFC 4648 spec |
| C23 | Base64::process | refinement to per-character machine; true as stated, what follows a padded quad is treated differently depending on the pieces (extra theorem) |
| C24 | writeEncodeBase64 | line-breaking lemma + spec |
| C25 | composition | composition of C22/C23/C04 |
| C26 | JSONMarshaller_t, JSON grammar spec | mutual induction with context stack |
| C27 | quote | per-byte table + induction |
| C28 | writeQuotedString | per-byte table + induction |
| C29 | XmlMarshaller_t as token writer | mutual induction with entity stack |
| C30 | XmlUnMarshaller_t over SAX events; Spec/Xml `Conforms` states what the parser is assumed to do | automaton over callbacks, composition with the marshaller and an independent grammar of XML-RPC; false for some leaves (CR, control characters, INT64 limits): negations |
| C31 | getISODateTime/parseISODateTime | digit arithmetic |
| C32 | parseISODateTime | totality by construction with explicit ub outcome |
| C33 | urldecode | induction; false for a lone trailing %: negation |
| C34 | URLUnMarshaller_t | fold over pieces; map refinement; false for `a` and `a[]` together: negation |
| C35 | compare | mutual induction; NaN excluded (negation for NaN) |
| C36 | Struct_t | refinement to key -> option value |
| C37 | Array_t | refinement to list |
| C38 | checkItems | induction over the format |
| C39 | clone | mutual induction; false with date-time validation on: negation |
| C40 | HTTPHeader_t | refinement to lower-cased multimap |
| C41 | chunked writer and reader | invariant + induction over segments |
| C42 | writer without chunking | invariant over writes; false from 4 GiB on: negation |
| C43 | readBlock/readChunkedContent | false for until-close framing: negation; partial for others with exact overshoot bound |
| C44 | readLineOpt | induction over segments |
| C45 | readBlock | induction over segments |
| C46 | serve loop | false for stream errors: negation; partial for the rest |
| C47 | MethodRegistry_t | decision logic |
| C48 | multicall | false for stream errors; partial |
| C49 | processCall | false when feeding fails late; partial |
| C50 | listMethods etc. | map refinement |
| C51 | ProxyCache_t with its timer wheel | invariant over histories |
| C52 | lookup | false: negation; partial |
| C53 | Secrets_t, ExtTreeBuilder_t | exact characterisation of surviving marks by simulation of the plain tree builder; false for nested secrets, for indexes with a zero that is not the first digit, and for responses: negations |
| C54 | escape/unescape | induction |
| C55 | dumpFastrpcTree | noninterference by mutual induction over the tree; printValue shows secrets: negation |
| C56 | URL_t | string lemmas |
| C57 | parseProtocolVersion | false (characters read as numbers): negation; partial for the empty text |
| C58 | splitBySpace | induction; false for n = 1: negation |
| C59 | unMarshallKnown (Props/Decoder.lean, Props/LateFault.lean) | loop lemma; the three ways it returns a count; a concrete member of an unknown type for the negation |
| C60 | validateBytes over a specified mbrtowc | induction over characters; bytes that are not UTF-8 are never refused: negations |
| C61 | readHeader | string lemmas |
| C62 | TreeBuilder/Struct append | fold lemma |
| C63 | getISODateTime | digit arithmetic, bound on the buffer |
| C64 | HTTPClient_t output + server input | composition of the writer's invariant with the reader's on any segmentation |
| C65 | Server_t output + client input | same, other direction |
| C66 | C01-C03 over C64/C65 | composition |
| C67 | readRequest | the body is read exactly; false when the content type is refused (request smuggling): negation |
| C68 | serve loop | induction over the requests of a session |
| C69 | serve loop, readers | measure: bytes of the peer and events of the schedule |
| C70 | MethodRegistry_t callbacks | case analysis; false for unmarshallable results: negation |
| C71 | MethodRegistry_t::processCall over a stream | false for truncated requests and unknown versions: negation; partial |
| C72 | client + server + registry | composition C66 + C47, induction over a session |
| C73 | readRequest on any request text | string lemmas |
| C74 | readResponse on any response text | string lemmas; false for an empty reason phrase: negation |
| C75 | HTTPClient_t request line and Host | string lemmas; false through a proxy: negation |
| C76 | ServerProxy_t protocol switch | invariant over histories; the default mode is false: negation |
| C77 | ServerProxy_t::call | refinement: what is sent is the request |
| C78 | ServerProxy_t with keep-alive | invariant over histories of calls; false for servers that send unsolicited bytes: negation |
| C79 | ServerProxy_t::call | invariant |
| C80 | ServerProxy_t::call | case analysis |
| C81 | XmlUnMarshaller_t with any parser | case analysis over callbacks; false for booleans, empty integers, foreign documents: negations |
| C82 | with_logger, logStructuredCalls | case analysis; false for multicalls without `params`: negations |
| C83 | logStructuredCalls | induction over the pairs of calls and responses; false where results are no structs: negation |
| C84 | configFromStruct | case analysis over members |
| C85 | Remote: proxy, HTTP client, HTTP server loop, registry dispatch and both protocols joined end to end (XML parser, strtod and the text of doubles are parameters) | composition of C02/C03/C30 (codec), C64-C65/C73-C74 (HTTP), C81/C82 (proxy) through the invariant that what a proxy keeps of a connection was read to the end; a close that is not seen in time is the counterexample; after one XML exchange a proxy configured for another version speaks 2.1 |
| C86 | DateTimeMake: all constructors of DateTime_t and the pool's makers; localtime_r, mktime and timezone are parameters constrained by Spec/Zone (a civil calendar in Spec/Civil whose day numbers are proved to count days; a conforming library is constructed) | the local-time makers agree with their unix time in zones with one-hour summer time; UTCTime, DateTime(t, zone) and DateTime(text) are off by the local offset (proved for every zone) |
| C87 | the same, with the binary codec | composition with C01/C09: exact without validation; with the default validation the receiver recomputes the unix time in its own zone, so the instant is lost between zones and in the hour shown twice |
| C88 | the same | the stored zone is proved to be west-positive, against its documentation; the ISO text has the right sign |
| C89 | Model/Js (serializeCall of `javascript/fastrpc.mjs`) + BinUnmarshaller, TreeBuilder | mutual induction over JavaScript values: the bytes are those the C++ marshaller writes for a value that stands for them; then C02. Doubles by arithmetic on IEEE 754 bit fields with the host's logarithm as a parameter. False of negative integers at version 3 and five more classes: negations |
| C90 | BinMarshaller + Model/Js (parse) | mutual induction over C++ values: `parse` of the written bytes followed by anything gives the value and leaves the rest |
| C91 | Model/Js | composition of the two inductions |
| C92 | Model/Js (parse) | induction on the fuel with a bound by the bytes that are left (the fuel is never used up); strict beginnings by induction over values and a lemma that more bytes do not change what has been read |
| C93 | Model/Python (`dumps`, the feeder, the builder, `loads` of `python/`) + BinMarshaller, BinUnmarshaller | mutual induction over Python objects: what is fed is what the C++ marshaller is fed for a value that the object means; the builder's stack machine along the events of the value; composition with the codec. Negations for keys with a NUL, unsigned integers and time stamps of -1 |
| C94 | the same + TreeBuilder | composition with C02 in one direction, with the marshaller's codec in the other |
| C95 | Model/Python (feeder) | induction over objects: if nothing was raised the object means a value; classification of exceptions |
| C96 | Model/Python (builder) | invariant of the builder along every legal sequence of calls (C14), stated for any builder in Proofs/AnyBuilder; the same lemma gives `C12_receiver` |
| C97 | Model/Web (`Server_t::serve` with the registry, the four unmarshallers and marshallers, bytes in and out) | what each kind of client sends is understood (composition of C02, C22, C30, C34_tree); one turn; induction over requests and over connections |
| C98 | Model/Web | the two ways to a `StreamError_t` in `readRequest`; composition with C97 for the body that is served |
| C99 | Model/Web | invariant of the pointer `headerOut`; a history of two connections for the negation |
| C100 | Model/Descriptors (socket, connector, client, proxy; every system call's outcome is a parameter) | a ledger replayed by a small specification; invariant along operations, induction over calls |
| C101 | Model/Descriptors (connector) | case analysis over outcomes |
| C102 | Model/Descriptors (client) | invariant along any sequence of operations |
| C103 | Model/Address + Url | composition of C56 with the choice of the connector |
| C104 | Model/Heap (pools and objects) | invariant along any history; ledger of what was made and deleted |
| C105 | Model/Heap | frame property of walks: what is not reached does not matter; induction on the depth of `clone` |
| C106 | Model/Heap + TreeBuilder + BinUnmarshaller | refinement: open containers of the objects against the stack of the tree, for any calls; C04 for bytes |
| C107 | Model/Heap | well-founded induction along pointers; clones of endless paths by induction on depth |
| C108 | Model/Heap + Struct | frame property; a tree has no cycle |
| C109 | Model/PyServer | signature loop against an inductive grammar; same as the C++ one |
| C110 | Model/PyServer | sorted-map invariant over histories |
| C111 | Model/PyServer | cases of pre/call/post against inductive specifications; negations |
| C112 | Model/PyServer | names of the map after a history |
| C113 | Model/PyServer | calls need only calls of smaller depth, so the bound is never met; induction over the list |
| C114 | Model/PyWeb, over the models of the HTTP server and the Python registry | each turn answers one request (C73 for reading, marshalling theorems for the answer); induction over the requests |
| C115 | Model/PyWeb | what is refused gets one fault or HTTP error, for all requests and network schedules; the negations name the client or the result that breaks it |
| C116 | Model/PyProxy (the call of the Python module), over the models of HTTPClient_t, the connector and the marshallers | the request is the marshalling of what the objects mean (C93); the response is read by the client's reader and the Python builder; statement by the explicit state that results |
| C117 | Model/PyProxy | nothing has been written while at most one buffer is full, so the exception leaves no trace; the negations name the arguments and the servers that break it |
| C118 | Model/PyRemote (a Python proxy and a Python server process) | C116 for the client and the turn of C114 for the server, joined by the bytes; invariant between calls (connection empty on both sides); induction over the session |
| C119 | Model/PyDump (`dumpTree` with names, positions and a level; the text of doubles and the hash of names are parameters) | congruence over the tree for what is hidden; the printed text equals the text of the specification by induction |
| C120 | Model/PyWeb (`headTurn`) | the turn on a well-formed HEAD, by cases on what the head method gives; the header as a response without content by the theorem on answers (C114) |
| C121 | Model/PyDate over Model/DateTimeMake and Model/IsoDate | constructors against Spec/Zone (as C86); `mktime` without summer time as Spec/Zone `Standard`; comparing by arithmetic on instants; attributes by cases |
| C122 | Model/PyBool | cases on the object, against an independent definition of what the language takes for false |
| C123 | Model/Converters over Model/Heap; native data typed by the converter | induction on the converter and on the data, with objects of the heap; the wanted value as a relation (Spec/Converters) |
| C124 | Model/PyText: `dumps` as text, `loads` with detection, over Model/XmlMarshaller, Model/XmlUnmarshaller, Model/Python; any parser with Spec/PyText `Prompt` | the lemmas of C30 without `finish`, induction on objects (UTF-8 of the text, values of objects) |
| C125 | `Remote.remoteCall`/`session` of `Model/Remote.lean` with an arbitrary `Net`: what the server reads of a request that is cut anywhere (`Proofs/RequestCut.lean`), what the client reads of a response that is cut anywhere (`Proofs/HttpReply.lean`), and the invariant of the kept connection (`Joined`), by induction over the schedules and over the session (`Props/RemoteAny.lean`). |
| C126 | `clientHead`/`serverHead` of `Model/HttpOut.lean` with the user's fields, `Proxy.call` after any history: for fields without line ends the request is a `Spec.Web.Post` ending with the fields; otherwise a request within the request (`Props/HeaderFields.lean`). |
| C127 | The waits (`poll`) of the readers and senders of `Model/HttpIO.lean`, `Model/HttpOut.lean`, `Model/HttpServer.lean` are the events of the schedule; invariants `Going`/`Final` by induction over the loops (`Proofs/Waits.lean`): at most one wait per byte and one more, the first that does not bring bytes is the last. `Props/Waits.lean`. |
| C128 | Model/BinUnmarshaller, Model/TreeBuilder; Spec/Sizes; Proofs/Sizes (bytes read against calls made, by steps), Proofs/SizesTree (calls against what is held); Props/Sizes. Proved; `C128_tight` shows that no smaller bound holds. Values and their bytes are counted, not the memory of their representation; a value replaced by a member of the same name stays in the pool, and is covered by the bound on calls. |
| C129 | `PyRemote.remoteCall`/`session` of `Model/PyRemote.lean` with an arbitrary `Net`: everything the Python server's writer sends over any network is a beginning of what it sends over one that takes everything (`Follows`, `Proofs/PyCut.lean`), what it reads of a request, plain or chunked, that is cut anywhere (`Proofs/RequestCut.lean`), and the invariant of the kept connection and of the kept header fields (`PyJoined`), by induction over the schedules and over the session (`Props/PyRemoteAny.lean`). |
| C130 | `PyToCpp.remoteCall`/`session` of `Model/Mixed.lean`: the proxy of `Model/PyProxy.lean` against the server of `Model/Remote.lean`, with an arbitrary `Net`. A Python client writes the same requests as the C++ one (`pyAsClient`), the server hears them as in C125, and the builder of Python objects reads what the server's marshallers write; invariant of the kept connection (`Joined`) and induction over the session (`Props/PyToCpp.lean`). |
| C131 | `CppToPy.remoteCall`/`session` of `Model/Mixed.lean`: the proxy of `Model/Proxy.lean` against the server of `Model/PyRemote.lean`, with an arbitrary `Net`. As C129 with the C++ client's marshallers and builder in the place of the Python ones (`call_carried`, `answer_heard`), the same invariant (`PyJoined`), by induction over the session (`Props/CppToPy.lean`). |
| C132 | `Base64.process`/`processAll` of `Model/Base64.lean` on arbitrary texts: every text over the alphabet in fours is the encoding of something (`base64_onto`) and C23 applies; replacing foreign characters and the size by induction over text and pieces (`Props/Base64Any.lean`). False as stated: the decoder cannot refuse. |
| C133 | `Model/PyHeaders.lean`: the five header functions over histories of requests, responses and calls, with the reference counts of the tuples; induction over the history and the fields (`Props/PyHeaders.lean`). False as stated: exact spelling, UTF-8, the hook before the request, one leaked reference a field. |
| C134 | Props/LateFault.lean: `resetToFaultState` (Model/BinUnmarshaller.lean) on any object, then the fault's payload; with `unMarshallPartial` before it | the decoder steps of a fault's payload from any error number, determinism of the big-step run; `C134_between_members` shows why the place must not be inside a structure |
| C135 | Model/PyProxy.lean `methodName` (attributes of attributes) | Props/HeaderText.lean: induction over the chain; injectivity of joining parts without dots |
| C136 | Model/Netcat.lean: the loop of `netcat/fastrpc-netcat3` over the lines of a script or a terminal, with the outcomes of everything done outside as a parameter that may depend on the history | Props/Netcat.lean: order, stopping and success by induction over the inputs. Partial: `exit [RESULT]` and `timeout {MILLISECONDS}` do not do what the help says. |
| C137 | Model/Netcat.lean `address`, `fromArgs`, `connect`: the address built by the console (`netcat/fastrpc-netcat3:434-450,596-636`) | Props/NetcatAddress.lean: composed with the model of the URL parser (C56): the theorem speaks of the host, port and path the proxy connects to. |
| C138 | Model/XmlErrors.lean: the table and its bound, `unMarshall` with the number of the error | Props/XmlErrors.lean: refinement of the model of C81 outside the numbers behind the table; the table has no repetition. Partial: the bound is in bytes |
| C139 | Model/Elapsed.lean: the two readings and the subtraction with the casts | Props/Elapsed.lean: arithmetic over all readings |
| C140 | Model/PyErrors.lean: the members of an exception, the references it takes, errorRepr | Props/PyErrors.lean: acceptance, members as last written, text; references by the invariant “taken = held” over every history; violated for a wrong number of arguments, a second `__init__`, and a `method` that is no method |
| C141 | Model/DbConn.lean: the session, `begin`/`execute` calling one another, the database a parameter | Props/DbConn.lean: refinement of histories to transactions (off), to “all but the last” (on); failures at each point; violated for the last statement |
| C142 | Model/Web (`headTurn`, `serve`) | Props/Head.lean: the turn on a `HEAD` (reading as in C73), the header as a list of lines, the end of the loop; for any state of the server object |
| C143 | Model/HttpIO (`readHeader`), Model/HttpHeader | Props/HeaderSize.lean: each line takes from the connection at least what it adds (induction over the loops of `readLineOpt` and `readHeader`); negation: a header of any size for any limits |
| C144 | Model/HttpIO.lean (`readContent`, `readChunkSize`, `readLong`) | Props/Framing.lean: what a header of a message that is read must say (partial); a length beats chunks, the first length beats others, signs and text after numbers are ignored (violated) |
| C145 | Model/PyNew.lean: `newServer`, `newRegistry`, the argument formats of CPython | Props/PyNew.lean: when a server is made, what each option sets; callbacks under other names or not in a dictionary are ignored (negation proved). |
| C146 | Model/PyNew.lean: `ownRefs`, `refsAfter`: references of the registry to itself | Props/PyNew.lean: freed exactly when all four built-in methods were replaced, over histories of registrations (C110). |
| C147 | Model/PyWeb.lean: `answer`, `unfinished`, `write`, `failHttp` | Props/PyUnsaid.lean: while nothing was sent the error is the only answer (the buffer lemma `writes_small`); once the buffer is over, header and chunks precede it (`writes_big`, negation proved). |
| C148 | Model/NetcatPrint.lean: the printer, the texts of floats, binaries and dates as parameters | Props/NetcatPrint.lean: the printed text of plain results is a prefix code, by mutual induction over results, members and items; the sorted one determines what is at every path |
| C149 | Model/NetcatComplete.lean: the completer with its state and the list shared with the console | Props/NetcatComplete.lean: answers to any number of questions, by induction; the known names after any history |
| C150 | Model/Handlers.lean: the three handlers function by function; the frameworks (aiohttp, Flask/Werkzeug, Tornado, uWSGI), header parsing below them and logging are parameters or left out | Props/Handlers.lean: analysis of each handler; `Listed`/`Accepts`/`InFormat` are stated without the handlers' own splitting, the equivalence is by induction over the field |
| C151 | Model/Handlers.lean: `aiohttp`, `flask`, `tornado` on top of the model of `dumps` and `loads` | Props/Handlers.lean: the handlers composed with the round trips of C93 and C124; `C151_once` by cases for all requests |
| C152 | Model/Handlers.lean: `register`, `lookup`, `invoke`, `tornadoInvoke` | Props/Handlers.lean: induction over histories of registrations |
| C153 | Model/CStr.lean: `strlen`, the cast to `uint32_t`, the four overloads of the marshallers and the four of the builders; the builder is a parameter | Props/CStr.lean: induction over the memory and over the calls |
| C154 | Model/OwnMarshaller.lean: `feedValueImpl` for marshallers that have only the virtual methods; the marshaller is a parameter | Props/OwnMarshaller.lean: mutual induction over trees |
| C155 | Model/Subscript.lean: the virtual `operator[]` and chains of it, on top of Model/Array and Model/Struct | Props/Subscript.lean: induction over the chain; `At` and `Fails` are relations on trees without the library's search |
| C156 | Model/GatherFeed.lean: the pass as the code makes it, with the stack of segments pushed and popped (also by exceptions), for any marshaller | Props/GatherFeed.lean: mutual induction over trees; refinement of the separate models of calls (TreeFeeder, OwnMarshaller) and pointers (Secrets) |

## 4. Findings (English claims that are false of this commit)

Each is a machine-checked negation (`_violated`) unless marked *(text)*, which means read in the code and not modelled.

| claim | what goes wrong |
|---|---|
| C06 | protocol 1 changes negative integers and integers above 32 bits |
| C08 | sizes from 2^32 on are truncated when marshalled |
| C09 | years 2624..3647 come back wrong (signed char shift) |
| C10 | timestamps of magnitude 2^31..2^32-1 change sign at protocol 2 |
| C11, C71 | a response or fault cut short after its header is reported complete; the registry never calls `finish` |
| C30 | CR, control characters, some integers and some doubles do not survive XML; `flush` twice writes the closing tags twice; a protocol-1 document is taken as 2.1; `INT64_MIN` is undefined in the marshaller; a stale `errno` refuses `INT64_MAX` |
| C33, C34 | a trailing `%` reads past the end; `a` and `a[]` build one member twice |
| C35 | NaN breaks the order |
| C39 | cloning rewrites `unixTime` and `weekDay` while validation is on |
| C42, C43 | Content-Length is 32 bits; a body ended by the connection may exceed the limit by one buffer |
| C46, C67 | refused requests do not count against keep-alive; the body of a request refused for its type is executed as the next request |
| C48, C49, C70 | stream errors in a sub-call end the multicall; failing marshalling gives two heads or no callback |
| C52 | header fields added by a user of a cached proxy are sent for the next one |
| C53 | outer marks of nested secrets and marks below indexes 10, 20, ... are lost; 20-digit names overflow |
| C55 | `printValue` prints secrets; the dump of a `BinaryRef` lacks `b"` |
| C56, C58, C74, C75 | `]` in a path hides the port; `splitBySpace(1)`; an empty reason phrase is refused; Host through a proxy names the proxy; port 0 counts as a unix socket |
| C57 | the text `2.1` gives version 50.46, with which nothing can be called |
| C60 | bytes that are not UTF-8 are never refused: endless loop or reads out of bounds |
| C76, C78 | the default transfer mode never switches to the binary protocol with FastRPC's own server; unsolicited bytes are taken for the answer of the next call |
| C81 | `<boolean>true</boolean>` is false, `<int></int>` is 0, foreign documents are accepted silently, `TYPE_FAULT` refuses every fault |
| C82, C83 | multicalls without `params` read beyond the end in the logger; a server can make it throw; results that are no structs are not logged |
| C89–C92 | JavaScript: negative integers at version 3 are off by one; more than 255 arguments, unhinted fractions, small doubles and half seconds are changed; version 1 is not readable; subnormal doubles, times before 1970 and members `__proto__` are lost when read; a response cut off inside of its last text is accepted |
| C93–C96 | Python: keys are cut at a NUL; integers of 2^63..2^64-1 become negative; time stamps of -1 are recomputed; callables get 32-bit time stamps; a version above 3 terminates the interpreter, one from 256 on is cut; extra response values are dropped; fault codes are cut or raise `SystemError`; `datetime` is sent as UTC; a fault that is not UTF-8 crashes `loads`; cut messages are accepted |
| C98, C99 | what is posted with an unknown content type is not read but served as the next requests, so methods run; after a `HEAD` that was answered 405 or 503 the next refused request on another connection uses a header that is no more |
| C100–C102 | a `close` interrupted by a signal is called again on a descriptor that may be another thread's; `connectSocket` that could not make a new connection in place of one the peer closed leaves the unconnected descriptor, which the next call returns; an `HTTPClient_t` deletes its unmarshaller twice if a second response has an unknown type |
| C103 | unix paths of more than 107 bytes are cut; with an HTTP proxy at a unix socket the client connects to a path that is the target's URL; port 0 or a port that is no number means a unix socket |
| C104 | a pool with values that is move-assigned to, or that steals from itself, loses them: they are never deleted |
| C105 | values are stored by pointer: one value in two containers is seen through both when it changes |
| C107 | an array appended to itself makes marshalling and `clone` run until the stack is exhausted |
| C108 | `Pool_t::Struct(key, item, ...)` and `to_struct` keep the first of equal names and take names of more than 255 bytes, `append` keeps the last and refuses them |
| C109 | the last signature of a text may be unfinished (`i:s,`, `i`, empty text) |
| C110 | help texts must be `bytes` in Python 3; an object that is not callable given to `registerDefault` is undefined behaviour |
| C111 | Python 3.10+: a method that raises is not answered; unprintable exception of the preprocessor lets the call through; names that are not UTF-8 end the process when there is a postprocessor; arguments that cannot be decoded run the method without arguments |
| C112 | `system.listMethods` parses two arguments into three pointers and writes over the type `tuple`; `system.methodSignature` is said to return a string |
| C113 | results are not wrapped in arrays, so a result may look like a fault; names are cut at NUL |
| C114 | `serve` raises when a client closes a kept connection; every answer says `Connection: keep-alive` even if the connection is then closed; forms always call `RPC2`; names are cut at NUL |
| C115 | header fields added for a request whose result cannot be sent go to the next client; a client gone while a 405 is sent, or an XML request with `protocolVersion="9.1"`, ends the process |
| C117 | Python proxy: an object that cannot be sent, after 64512 bytes of the others, leaves half a chunked request on the connection, and the next call follows it; header fields set before a bad one go with the next call; a version above 3, also one that the server's XML response names, ends the process at the next call; a fault message that is not UTF-8 is undefined behaviour |
| C119 | `fastrpc.dumpTree`: a text that is cut within a character raises UnicodeDecodeError; integers above 64 bits raise SystemError; names given in a list or a set (not a dict) hide nothing |
| C120 | Python server: after a call that was answered in chunks (to anyone), a HEAD request is answered with a content, the end of the chunks |
| C121 | Python date-times: `UTCTime(t)` has the fields of local clocks and names another instant; the time stamp of `UTCTime()` is shifted by the zone; date-times of different zones are compared with the zone subtracted instead of added, so that equal instants differ and earlier ones are later; an attribute out of range is silently cut; `del d.year` and huge time stamps read a null pointer; a time stamp beyond 64 bits is a SystemError |
| C122 | `del b.value` of a fastrpc.Boolean reads a null pointer; `Boolean(str(b))` is always true |
| C123 | a wide string becomes the empty string outside of Windows (`wstring_cnvt`, `Pool_t::String(std::wstring)`), without an exception |
| C124 | a CR in a text comes back as LF; week days and time stamps are not carried; the least 64-bit integer is undefined behaviour in `dumps` |
| C124 | `loads` of a correct document whose version mark begins at byte 61 to 63 ends the interpreter (`std::out_of_range` is not handled); a document that was cut off is taken without an exception; `UnMarshaller_t::create` of one byte reads two |
| C126 | The values of header fields are written as they are (`frpchttpclient.cc:330`, `frpcserver.cc:470`), and after Content-Length. A value with two line ends and a packed call of the same length makes the server run that other call and the client take its result for its own; with chunks (Python client, server responses) there is no condition on lengths. The address given for X-Forwarded-For is usually received from another client (`C126_injection_violated`, `C126_chunked_violated`, `C126_response_violated`). |
| C127 | The timeouts are for each `poll`, not for the call: a server that sends a byte now and then (empty lines before the response are skipped without a limit) keeps a call going for any time, and the call is successful (`C127_timeout_violated`). |
| C72 | A method that returns null to a client of protocol 2.0: the remote call fails on a network that delivers everything, though the method was run and a local call gives null (`C72_violated`). |
| C97 | A protocol error thrown by a method that is no `HTTPError_t` leaves `serve`: nothing is sent, pipelined requests are not answered (`C97_violated`). |
| C118 | A function of the Python server that returns an integer of more than 64 bits is run, and the caller gets neither an object nor a fault (`C118_violated`). |
| C132 | The base64 decoder has no way to refuse: `T!Fu` is decoded to three bytes (also inside `<base64>` of an XML message), NUL is read as `A`, and `TQ=x` as `TQ==` (`frpcbase64.cc:5-79,99-141`; `C132_violated`, `C132_nul_violated`, `C132_padding_violated`). |
| C133 | `getInHeadersFor`/`getOutHeadersFor` compare the name byte by byte with the stored (recapitalised) one, so a field added as `X-ID` is not found as `X-ID`; one field that is not UTF-8 makes `getInHeaders` raise `MemoryError`; the preRead hook sees the header of the previous request, even of another connection; every tuple given has one reference too many (`python/pythonserver.cc:1223-1287,2158-2177`; `C133_name_violated`, `C133_text_violated`, `C133_stale_violated`, `C133_leak_violated`). |
| C86 | `isSaveLightDay` answers for the zone of the process, also of a date-time in UTC or another zone (`src/frpcdatetime.cc:244-248`; `C86_summer_violated`). |
| C59 | `unMarshallPartial` is documented to return the number of bytes successfully parsed. When the value of a structure's member is of an unknown type it returns the size of the whole piece, the rest of which it has put into its buffer unparsed; the caller cannot tell where the unknown type is (`C59_violated`; all results: `C59_count_partial`). |
| C86 | the constructor from a `struct tm` takes it for a local time but claims the zone UTC, so the date-time names another instant than its unix time wherever the zone is not UTC (`C86_tm_violated`). |
| C136 | The help of the console offers `exit [RESULT]`, but the line is compared with `exit` as a whole, so `exit 3` is handed to Python as an expression, which refuses it: a script leaves with 255 (`C136_exit_violated`); `timeout {MILLISECONDS}` is multiplied by 1000 (`C136_timeout_violated`). |
| C138 | the bound on the number of a parser error is the size of the table in bytes (`sizeof(error_mapping)`), so errors 102 to 815 (407 with pointers of four bytes), such as 201 for an element with an undeclared prefix, read a pointer from behind the table (`C138_violated`, `C138_behind`). |
| C140 | `Fault()` (any wrong number of arguments) takes away a reference of `None` that it never added, because `method` is set to a borrowed `None` before the arguments are parsed; a second `__init__` leaks the members of the first; `repr(Fault(1, "x", "name"))` takes the string for a `MethodObject` (`C140_violated`, `C140_print_violated`). |
| C141 | `execute` returns from inside its `try`, so the `else` with the commit is never reached: with autocommit on (the default) the last statement is lost when the console ends, and a transaction begun by the user is committed statement by statement (`C141_violated`). |
| C142 | The answer to `HEAD` is in the format, and in the transfer coding, of the last `POST`, of whatever client (`C142_violated`); it says that the connection is kept, which it is not. |
| C98 | A refused HTTP/1.0 client that accepts binary answers gets chunks (`C98_http10_violated`). |
| C34 | Malformed values are taken: `truth` is false, `nonsense` is null, and a string may end in an escaped quote (`C34_loose_violated`). |
| C75 | A URL with white space is accepted: with a space in its path the server answers 505, with a line end in it header fields of the caller's choice are sent (`C75_space_violated`, `C75_injection_violated`). |
| C143 | Header lines are read with the limit off, and their number is not limited: a header of any size is kept, whatever the limits (`C143_violated`). |
| C44 | A timeout within the request line, or within the trailer of a body in chunks, drops what has come of the line, and the reader goes on as if there were none (`C44_late_violated`). |
| C144 | A message with both a length and chunks, with two lengths, with a length such as `+5, 7` or a chunk size such as `-0 x` is read: the first length counts and what follows a number is ignored (`C144_both_violated`, `C144_twice_violated`, `C144_length_violated`, `C144_chunk_violated`). |
| C145 | Callbacks given to `fastrpc.Server` under a misspelt name, or not in a dictionary, are ignored without an error (`C145_ignored_violated`). |
| C146 | The four built-in methods hold references to the registry they are in, so it is never freed unless all four are replaced (`C146_violated`, `C146_released_partial`). |
| C147 | If a binary result is longer than the buffer of the Python server before the part that cannot be converted, the HTTP error 500 is sent in the middle of a chunked answer 200 (`C147_violated`). |
| C148 | The console prints strings and names without escapes: a string with a line end prints as several items, a name with spaces as another name with another value, binary data as the string `b'…'`; zones east of Greenwich are printed with two minus signs, in hundredfold seconds (`C148_violated`). |
| C150 | The aiohttp handler passes `fastrpc.NEVER` (the number 3) as `useBinary` of `dumps`, which takes any number but 0 for yes: clients that accept only XML always get a binary message labelled `text/xml` (`C150_never_violated`). |
| C150 | aiohttp and Flask handlers that allow XML only answer in binary a client that accepts both (`C150_allowed_violated`). |
| C150 | The Flask handler refuses every client that sends no `Accept`: the fallback to `Content-Type` is dead code, for `''.split(',')` is not empty (`C150_silent_violated`). |
| C150 | `*/*`, and types with parameters such as `text/xml; charset=utf-8`, are refused by all three handlers (`C150_any_violated`). |
| C150 | In Flask and Tornado `Content-Length` of an XML answer counts characters instead of bytes: with any character outside ASCII it is too small (`C150_length_violated`). |
| C151 | Faults and exceptions of methods do not arrive as faults through aiohttp and Flask (they become structs with status 500), and through Tornado a `Fault` always has the code −500 (`C151_fault_violated`). |
| C151 | A call of an unknown method leaves the Tornado handler as a `KeyError`: the client gets HTTP 500 and no message (`C151_unknown_violated`). |
| C151 | In Flask binary calls run only under uWSGI (`C151_uwsgi_violated`), and only the first chunk of a request is read, so that a call in more chunks runs with fewer arguments (`C151_chunk_violated`). |
| C152 | `system.methodHelp` of the Tornado handler is `None` for a method without documentation (`C152_none_violated`). |
| C153 | `strlen` is cast to `uint32_t`: texts of 4 GiB and more are cut without an exception, and a method name that long is cut to a short one instead of refused (`C153_long_violated`, `C153_build_long_violated`). |
| *(text)* | `Config_t::useChunks` is not used by `ServerProxy_t`; an https URL is sent in clear text to port 443; the late CRLF behind a chunked body can stay unread after a timeout; the keys of the proxy cache ignore TLS |
