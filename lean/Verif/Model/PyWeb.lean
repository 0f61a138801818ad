import Verif.Model.PyServer
import Verif.Model.Remote
/-!
# The Python server: `fastrpc.Server.serve` (`python/pythonserver.cc:711-1182`)

Reading differs from the C++ server in the first line and in what becomes of exceptions, sending in the writer. The unmarshallers are those of
`Model/Remote.lean` with the Python builder.
-/
namespace Frpc
namespace PyWeb
open HttpIO HttpOut HttpServer Remote
open PyServer (Reg World Exc Ret)
open Python (Py PB Exn)

/-- What a server is made with, and its surroundings: the builder's options and the C library (`opts`), the interpreter, the text checks of the
marshallers and the text of doubles, the XML and the form parsers; whether it speaks binary and keeps connections (`maxKeepalive` is 0 unless given,
`python/pythonserver.cc:2018-2024`); the header fields that user functions have added by `addOutHeader`
(`python/pythonserver.cc:2175-2187`), which the state of the user's functions holds until they are taken; texts of errors. -/
structure Conf (σ : Type) where
  opts : Python.Opts
  py : PyServer.Env
  strOk : Bytes → Bool
  dbl : BitVec 64 → Bytes
  xml : XmlUnMarshaller.Env
  parser : XmlUnMarshaller.Parser
  url : UrlForm.Env
  useBinary : Bool
  keepAlive : Bool
  maxKeepalive : Int
  added : σ → HttpHeader.Fields × σ
  client : Py
  streamText : Bytes
  reason : Nat → Bytes
  raisedText : Exn → Bytes

/-! ## Reading -/

/-- The XML unmarshaller after the pieces. -/
def xmlRead {σ} (S : Conf σ) (l : List Bytes) : XmlUnMarshaller.X × PB × Option Err :=
  XmlUnMarshaller.unMarshallAll S.xml S.parser (Python.builder S.opts) .call [] XmlUnMarshaller.init Python.init l

/-- The same and `finish`. -/
def xmlDone {σ} (S : Conf σ) (l : List Bytes) : XmlUnMarshaller.X × PB × Option Err :=
  XmlUnMarshaller.run S.xml S.parser (Python.builder S.opts) .call Python.init l

/-- The URL unmarshaller after the pieces and `finish`; it is made without a path (`python/pythonserver.cc:1048-1053`,
`src/frpcunmarshaller.h`). -/
def urlDone {σ} (S : Conf σ) (l : List Bytes) : PB × Option Err :=
  let q := UrlForm.run S.url [] l
  match BinUnMarshaller.applyEvents (Python.builder S.opts) Python.init q.1 with
  | (b, some e) => (b, some e)
  | (b, none) => (b, q.2)

/-- The base64 unmarshaller after the pieces. -/
def base64Read {σ} (S : Conf σ) (l : List Bytes) : Bytes × BinUnMarshaller.Obj × PB × Option Err :=
  Base64.unMarshallAll (Python.builder S.opts) .call [] BinUnMarshaller.init Python.init l

/-- The binary unmarshaller after the pieces. -/
def binRead {σ} (S : Conf σ) (l : List Bytes) : BinUnMarshaller.Obj × PB × Option Err :=
  BinUnMarshaller.unMarshallAll (Python.builder S.opts) .call BinUnMarshaller.init Python.init l

/-- `finish` of the binary unmarshaller. -/
def binEnd (o : BinUnMarshaller.Obj) : Option Err :=
  match BinUnMarshaller.finish o with
  | .ok _ => none
  | .error e => some e

/-- What the unmarshaller throws on the last of the pieces (`python/pythonserver.cc:1035-1071`). -/
def feed {σ} (S : Conf σ) : HttpServer.Kind → List Bytes → Option Err
  | .binary, l => (binRead S l).2.2
  | .xml, l => (xmlRead S l).2.2
  | .urlEncoded, _ => none
  | .base64, l => (base64Read S l).2.2.2

/-- What it throws at the end (`python/pythonserver.cc:1073`). -/
def finish {σ} (S : Conf σ) : HttpServer.Kind → List Bytes → Option Err
  | .binary, l => binEnd (binRead S l).1
  | .xml, l => (xmlDone S l).2.2
  | .urlEncoded, l => (urlDone S l).2
  | .base64, l => binEnd (base64Read S l).2.1

/-- The builder after that. -/
def built {σ} (S : Conf σ) : HttpServer.Kind → List Bytes → PB
  | .binary, l => (binRead S l).2.1
  | .xml, l => (xmlDone S l).2.1
  | .urlEncoded, l => (urlDone S l).1
  | .base64, l => (base64Read S l).2.2.1

/-- The version for the answer (`python/pythonserver.cc:1074-1079`): forms and base64 are always answered in 2.1. -/
def version {σ} (S : Conf σ) : HttpServer.Kind → List Bytes → Version
  | .binary, l => Registry.versionSeen l.flatten
  | .xml, l => (xmlDone S l).1.ver
  | .urlEncoded, _ => ⟨2, 1⟩
  | .base64, _ => ⟨2, 1⟩

/-- As the environment of `readBody`; the loop's settings in it are not used. -/
def env {σ} (S : Conf σ) : HttpServer.Env :=
  ⟨S.useBinary, S.keepAlive, 0, fun k _ l => feed S k l, fun k _ l => finish S k l, fun _ _ _ => true⟩

/-- The first lines (`python/pythonserver.cc:953-996`): empty ones are skipped. -/
def firstLine : Nat → Conn → Except ReqErr (Bytes × Bytes × Bool) × Conn
  | 0, s => (.error (.io .fuel), s)
  | f + 1, s =>
    match readLine (srvCfg (fun _ => none)) true s with
    | (.error e, s) => (.error (ofHErr e), s)
    | (.ok [], s) => firstLine f s
    | (.ok line, s) => (requestLine line, s)

/-- `readRequest` (`python/pythonserver.cc:931-1096`). -/
def readRequest {σ} (S : Conf σ) (srv : Srv) (s : Conn) : Except ReqErr (Option Request) × Srv × Conn :=
  let srv := { srv with close := false, head := false }
  let s := { s with out := [] }
  match firstLine (s.data.length + 1) s with
  | (.error e, s) => (.error e, srv, s)
  | (.ok l, s) =>
    match readHeader (srvCfg (fun _ => none)) false [] s with
    | (.error e, s) => (.error (ofHErr e), srv, s)
    | (.ok h, s) => readBody (env S) srv l h s

/-! ## Sending -/

/-- `BUFFER_SIZE` (`python/pythonserver.cc:709`). -/
def BUFFER : Nat := 65536

/-- The fields that `sendResponse` adds (`python/pythonserver.cc:1131-1171`), after those that user functions have added. -/
def ownFields {σ} (S : Conf σ) (srv : Srv) (total : Nat) : HttpHeader.Fields :=
  [(asc "Content-Type", match srv.outType with
      | .xml => asc "text/xml"
      | .binary => asc "application/x-frpc"
      | .json => asc "application/json"
      | .base64 => asc "application/x-base64-frpc"),
   (asc "Accept", asc "text/xml, application/x-www-form-urlencoded, application/x-base64-frpc" ++ (if S.useBinary then asc ", application/x-frpc" else [])),
   (asc "Connection", if S.keepAlive then asc "keep-alive" else asc "close"),
   if srv.chunks then (asc "Transfer-Encoding", asc "chunked") else (asc "Content-Length", dec total),
   (asc "Server", asc "Fast-RPC Server Linux")]

/-- The header (`python/pythonserver.cc:1127-1186`). -/
def head {σ} (S : Conf σ) (srv : Srv) (out : HttpHeader.Fields) (total : Nat) : Bytes :=
  asc "HTTP/1.1 200 OK\r\n" ++ (out ++ ownFields S srv total).flatMap headLine ++ asc "\r\n"

/-- Several calls of `sendData`. -/
def sendAll : List Bytes → Wire → Except SErr Unit × Wire
  | [], wire => (.ok (), wire)
  | d :: ds, wire =>
    match sendData false d wire with
    | (.error e, wire) => (.error e, wire)
    | (.ok _, wire) => sendAll ds wire

/-- The part of `sendResponse` before the content: the header, once (`python/pythonserver.cc:1126-1193`). -/
def sendHead (c : HttpOut.Conf) (w : Writer) : Except SErr Unit × Writer :=
  if w.headersSent then (.ok (), w)
  else
    match sendData false (c.head w.total) w.wire with
    | (.error e, wire) => (.error e, { w with wire := wire })
    | (.ok _, wire) => (.ok (), { w with headersSent := true, wire := wire })

/-- The content as `sendResponse` sends it (`python/pythonserver.cc:1195-1214`). -/
def content (c : HttpOut.Conf) (w : Writer) : List Bytes :=
  if c.chunks then [hex w.back.length ++ asc "\r\n", w.back, asc "\r\n"] else w.front ++ [w.back]

/-- `sendResponse` (`python/pythonserver.cc:1125-1215`), not for `HEAD`. -/
def sendResponse (c : HttpOut.Conf) (w : Writer) : Except SErr Unit × Writer :=
  match sendHead c w with
  | (.error e, w) => (.error e, w)
  | (.ok _, w) =>
    match sendAll (content c w) w.wire with
    | (.error e, wire) => (.error e, { w with wire := wire })
    | (.ok _, wire) => (.ok (), { w with front := [], back := [], wire := wire })

/-- `write` (`python/pythonserver.cc:1107-1123`); `contentLength` is an `unsigned long`. -/
def write (c : HttpOut.Conf) (d : Bytes) (w : Writer) : Except SErr Unit × Writer :=
  let w := { w with total := (w.total + d.length) % 2 ^ 64 }
  if d.length > (2 ^ 64 + BUFFER - w.back.length) % 2 ^ 64 then
    if c.chunks then
      match sendResponse c w with
      | (.error e, w) => (.error e, w)
      | (.ok _, w) => (.ok (), { w with back := w.back ++ d })
    else if d.length > BUFFER then (.ok (), { w with front := w.front ++ [w.back], back := d })
    else (.ok (), { w with back := w.back ++ d })
  else (.ok (), { w with back := w.back ++ d })

/-- A marshaller's writes. -/
def writes (c : HttpOut.Conf) : List Bytes → Writer → Except SErr Unit × Writer
  | [], w => (.ok (), w)
  | d :: ds, w =>
    match write c d w with
    | (.error e, w) => (.error e, w)
    | (.ok _, w) => writes c ds w

/-- `flush` (`python/pythonserver.cc:1098-1105`). -/
def flush (c : HttpOut.Conf) (w : Writer) : Except SErr Unit × Writer :=
  match sendResponse c w with
  | (.error e, w) => (.error e, w)
  | (.ok _, w) =>
    if c.chunks then
      match sendData false (asc "0\r\n\r\n") w.wire with
      | (.error e, wire) => (.error e, { w with wire := wire })
      | (.ok _, wire) => (.ok (), { w with wire := wire })
    else (.ok (), w)

/-- A message: the writes, then `flush`. -/
def message (c : HttpOut.Conf) (ds : List Bytes) (w : Writer) : Except SErr Unit × Writer :=
  match writes c ds w with
  | (.error e, w) => (.error e, w)
  | (.ok _, w) => flush c w

/-! ## Serving -/

/-- What stays between requests and connections: the user's state, the fields of `Server_t`: of the request, `headersOut`, `protocolVersion`. -/
structure Live (σ : Type) where
  world : World σ
  srv : Srv
  out : HttpHeader.Fields
  ver : Version

/-- How `serve` ended: it returned `None`, it raised an exception, a C++ exception left it, undefined behaviour, a bound of the model. -/
inductive End where
  | done | raised | terminate | crash | fuel
deriving DecidableEq, Repr

/-- What one turn of the loop leads to. -/
inductive Next where
  | again (counted : Bool)
  | stop (e : End)
deriving DecidableEq, Repr

/-- The server and its connection. -/
structure At (σ : Type) where
  live : Live σ
  conn : Conn
  wire : Wire

/-- The writer of the response. -/
def conf {σ} (S : Conf σ) (x : Live σ) : HttpOut.Conf := ⟨head S x.srv x.out, x.srv.chunks, false⟩

/-- After user functions have run: what they added is added to `headersOut`. -/
def take {σ} (S : Conf σ) (x : Live σ) (w : World σ) : Live σ :=
  { x with world := { w with user := (S.added w.user).2 }, out := (S.added w.user).1.foldl (fun h f => HttpHeader.add h f.1 f.2) x.out }

/-- What `sendHttpError` sends (`python/pythonserver.cc:1217-1232`). -/
def httpError (code : Nat) (reason : Bytes) : Bytes :=
  asc "HTTP/1.1 " ++ dec code ++ asc " " ++ reason ++
  asc "\r\nAccept: text/xml, application/x-www-form-urlencoded, application/x-base64-frpc, application/x-frpc\r\nServer: Fast-RPC  Server Linux\r\n\r\n"

/-- `sendHttpError` in a handler, and `break` (`python/pythonserver.cc:804-806,912-914`): what it throws leaves `serve`. -/
def failHttp {σ} (a : At σ) (code : Nat) (reason : Bytes) : At σ × Next :=
  match sendData false (httpError code reason) a.wire with
  | (.ok _, wire) => ({ a with wire := wire }, .stop .done)
  | (.error _, wire) => ({ a with wire := wire }, .stop .terminate)

/-- After the writer has been used: `headersOut` is cleared when the header has been sent (`python/pythonserver.cc:1190`). -/
def after {σ} (a : At σ) (w : Writer) : At σ :=
  { a with live := { a.live with out := if w.headersSent then [] else a.live.out }, wire := w.wire }

/-- A whole message; `bad` is what becomes of an exception while sending. -/
def respond {σ} (S : Conf σ) (a : At σ) (ws : List Bytes) (counted : Bool) (bad : End) : At σ × Next :=
  match message (conf S a.live) ws (.init a.wire) with
  | (.ok _, w) => (after a w, .again counted)
  | (.error _, w) => (after a w, .stop bad)

/-- The writes of a marshaller that is not finished, and whether they could be sent. -/
def unfinished {σ} (S : Conf σ) (a : At σ) (ws : List Bytes) : At σ × Bool :=
  match writes (conf S a.live) ws (.init a.wire) with
  | (.ok _, w) => (after a w, true)
  | (.error _, w) => (after a w, false)

/-- The handler of `StreamError_t` (`python/pythonserver.cc:795-803`): what is thrown in it leaves `serve`. The version is that of the request before. -/
def refuse {σ} (S : Conf σ) (a : At σ) : At σ × Next :=
  match Mar.new a.live.srv.outType a.live.ver with
  | none => (a, .stop .terminate)
  | some m =>
    match m.packAll S.strOk S.dbl [.packFault Registry.PARSE_ERROR (Registry.cstr S.streamText)] with
    | (ws, m, none) => respond S a (ws ++ m.ending) false .terminate
    | (ws, _, some _) => ((unfinished S a ws).1, .stop .terminate)

/-- A number that `PyInt_AsLong` takes. -/
def asLong : Py → Option Int
  | .int n => if -(2 : Int) ^ 63 ≤ n ∧ n < 2 ^ 63 then some n else none
  | .bool b => some (if b then 1 else 0)
  | _ => none

/-- `HEAD` (`python/pythonserver.cc:817-845`). `flush` ends the chunks of a content that is not sent; a `ProtocolError_t` is not caught there. -/
def headTurn {σ} (S : Conf σ) (r : Reg σ) (a : At σ) : At σ × Next :=
  match r.head with
  | none => failHttp a 405 (asc "Method Not Allowed")
  | some f =>
    let q := f a.live.world.user []
    let a := { a with live := take S a.live { a.live.world with user := q.2 } }
    match q.1 with
    | .error _ => failHttp a 500 (S.raisedText .raised)
    | .ok v =>
      match asLong v with
      | none => failHttp a 500 (S.raisedText .type)
      | some n =>
        if n ≠ 0 then failHttp a 503 (asc "Service Unavailable")
        else
          match sendAll ([(conf S a.live).head 0] ++ if a.live.srv.chunks then [asc "0\r\n\r\n"] else []) a.wire with
          | (.ok _, wire) => ({ a with live := { a.live with out := [] }, wire := wire }, .again true)
          | (.error _, wire) => ({ a with wire := wire }, .stop .terminate)

/-- The calls on the marshaller for a result (`python/pythonserver.cc:861-890`), and the exception raised in the end. -/
def script {σ} (S : Conf σ) : Py → List PackOp × Option Exn
  | .fault c m =>
    if -(2 : Int) ^ 63 ≤ c ∧ c < 2 ^ 63 then ([.packFault (i32 (u32 c)) (m.take (sz32 m.length))], none) else ([], some .overflow)
  | v => Python.andThen ([.packMethodResponse], none) (Python.feedValue S.opts.L v)

/-- Marshalling a result (`python/pythonserver.cc:861-911`). A `StreamError_t` is made a `RuntimeError`, without an answer; other exceptions of the
marshaller leave `serve`. -/
def answer {σ} (S : Conf σ) (a : At σ) (m : Mar) (v : Py) : At σ × Next :=
  match m.packAll S.strOk S.dbl (script S v).1 with
  | (ws, _, some e) =>
    match unfinished S a ws with
    | (a, false) => (a, .stop .raised)
    | (a, true) => (a, .stop (if e = .stream then .raised else .terminate))
  | (ws, m, none) =>
    match (script S v).2 with
    | none => respond S a (ws ++ m.ending) true .raised
    | some x =>
      match unfinished S a ws with
      | (a, false) => (a, .stop .raised)
      | (a, true) => failHttp a 500 (S.raisedText x)

/-- `retValue == Py_None`. -/
def isNone : Py → Bool
  | .none => true
  | _ => false

/-- What `getUnMarshaledData` gives (`python/pythonbuilder.h:207-212`). -/
def params {σ} (S : Conf σ) (pb : PB) : Except Exc Py :=
  match pb.error with
  | some e => .error (S.py.raise e)
  | none =>
    match Python.toTuple (Python.seen pb) with
    | .ok p => .ok p
    | .error e => .error (S.py.raise e)

/-- A call (`python/pythonserver.cc:846-911`). A null pointer for the result, and none for the name, are undefined behaviour. -/
def callTurn {σ} (S : Conf σ) (r : Reg σ) (a : At σ) (q : Request) : At σ × Next :=
  match Mar.new a.live.srv.outType a.live.ver with
  | none => (a, .stop .terminate)
  | some m =>
    let pb := built S q.kind q.body
    if pb.error.isNone && isNone (Python.seen pb) then failHttp a 400 (asc "Demarshaller failed")
    else
      match pb.methodName with
      | none => (a, .stop .crash)
      | some name =>
        match PyServer.dispatch S.py r a.live.world (PyServer.cstr name) S.client (params S pb) with
        | (.obj v, w) =>
          answer S { a with live := take S a.live w } m v
        | (.fuel, w) => ({ a with live := { a.live with world := w } }, .stop .fuel)
        | (_, w) => ({ a with live := { a.live with world := w } }, .stop .crash)

/-- One turn of the loop after `preRead` (`python/pythonserver.cc:793-917`). -/
def readTurn {σ} (S : Conf σ) (r : Reg σ) (a : At σ) : At σ × Next :=
  match readRequest S a.live.srv a.conn with
  | (.ok q, srv, s) =>
    match q with
    | none => headTurn S r { a with live := { a.live with srv := srv }, conn := s }
    | some q => callTurn S r { a with live := { a.live with srv := srv, ver := version S q.kind q.body }, conn := s } q
  | (.error e, srv, s) =>
    let a := { a with live := { a.live with srv := srv }, conn := s }
    match e with
    | .stream => refuse S a
    | .http code => failHttp a code (S.reason code)
    | .other .ub => (a, .stop .crash)
    | .other _ => (a, .stop .terminate)
    | _ => (a, .stop .raised)

/-- One turn (`python/pythonserver.cc:765-917`). -/
def turn {σ} (S : Conf σ) (r : Reg σ) (a : At σ) : At σ × Next :=
  match r.preRead with
  | none => readTurn S r a
  | some f =>
    let q := f a.live.world.user []
    let a := { a with live := take S a.live { a.live.world with user := q.2 } }
    match q.1 with
    | .error _ => (a, .stop .raised)
    | .ok _ => readTurn S r a

/-- The condition (`python/pythonserver.cc:919-921`). -/
def stop {σ} (S : Conf σ) (srv : Srv) (count : Nat) : Bool := srv.close || !S.keepAlive || decide ((count : Int) ≥ S.maxKeepalive)

/-- The loop. -/
def serveLoop {σ} (S : Conf σ) (r : Reg σ) : Nat → Nat → At σ → At σ × End
  | 0, _, a => (a, .fuel)
  | f + 1, count, a =>
    match turn S r a with
    | (a, .stop e) => (a, e)
    | (a, .again counted) =>
      let count := if counted then count + 1 else count
      if stop S a.live.srv count then (a, .done) else serveLoop S r f count a

/-- `serve` (`python/pythonserver.cc:738-924`). -/
def serve {σ} (S : Conf σ) (r : Reg σ) (x : Live σ) (s : Conn) (wire : Wire) : At σ × End :=
  serveLoop S r (s.data.length + 2) 0 ⟨{ x with srv := { x.srv with close := false, head := false } }, s, wire⟩

/-- A new server (`python/pythonserver.cc:459-468`); `ProtocolVersion_t()` is 2.1 (`src/frpc.h:105-113`). -/
def new {σ} (st : σ) : Live σ := ⟨⟨st, false⟩, ⟨.xml, false, true, false⟩, [], ⟨2, 1⟩⟩

end PyWeb
end Frpc
