import Verif.Model.PyWeb
/-!
# The Python client: `fastrpc.ServerProxy` (`python/fastrpcmodule.cc:1264-2230`)

It has the HTTP client, the connector and the marshallers of the C++ proxy (`Model/Proxy.lean`), its own feeder and builder (`Model/Python.lean`), and hooks.
The difference that matters: it may send in chunks, that is, before everything is marshalled.
-/
namespace Frpc
namespace PyProxy
open HttpIO HttpOut HttpServer Remote
open Python (Py PB Exn)
open PyWeb (binEnd)

/-- What the user gets as an exception: `TypeError`, `fastrpc.ProtocolError` with its number, `fastrpc.ResponseError`, `RuntimeError`, `fastrpc.Fault`. -/
inductive Raised where
  | type | protocol (code : Option Int) | response | runtime | fault (code : Int) (msg : Bytes)
deriving DecidableEq, Repr

/-- What a call comes to; `terminate`: a C++ exception leaves the extension; `crash`: what the code does is undefined. -/
inductive Outcome where
  | value (v : Py) | raised (e : Raised) | terminate | crash

/-- What a proxy is made with, and its surroundings: the options of the builder and the C library, the text checks of the marshallers and the text of doubles, the XML parser,
`useChunks`, the hooks. A hook's exception is ignored (`python/fastrpcmodule.cc:2081-2088,2191-2210`), so that `pre` may give nothing. The second hook gets the name, the
arguments, what the first has given, and how the call ended. -/
structure Conf (σ : Type) where
  opts : Python.Opts
  strOk : Bytes → Bool
  dbl : BitVec 64 → Bytes
  xml : XmlUnMarshaller.Env
  parser : XmlUnMarshaller.Parser
  chunks : Bool
  pre : Option (σ → Bytes → List Py → Option Py × σ)
  post : Option (σ → Bytes → List Py → Option Py → Option Raised → σ)

/-- `Proxy_t` (`python/fastrpcmodule.cc:1340-1370`): what the C++ proxy has too, `lastCall`, and the state that the user's functions act on. -/
structure State (σ : Type) where
  px : Proxy.Proxy
  last : Bytes
  user : σ

/-- The constructor (`python/fastrpcmodule.cc:1272-1290,1829-1866`): versions are at least 1.0 and are cut to a byte each. -/
def new {σ} (url : Url.Url) (cfg : Proxy.Config) (major minor : Int) (st : σ) : State σ :=
  let ver := Python.versionOf (if major < 1 then 1 else major) (if minor < 0 then 0 else minor)
  ⟨Proxy.new url { cfg with version := ver }, [], st⟩

/-! ## Reading the response -/

/-- The binary unmarshaller after the pieces. -/
def binRead {σ} (S : Conf σ) (l : List Bytes) : BinUnMarshaller.Obj × PB × Option Err :=
  BinUnMarshaller.unMarshallAll (Python.builder S.opts) .response BinUnMarshaller.init Python.init l

/-- The XML unmarshaller after the pieces. -/
def xmlRead {σ} (S : Conf σ) (l : List Bytes) : XmlUnMarshaller.X × PB × Option Err :=
  XmlUnMarshaller.unMarshallAll S.xml S.parser (Python.builder S.opts) .response [] XmlUnMarshaller.init Python.init l

/-- The same and `finish`. -/
def xmlDone {σ} (S : Conf σ) (l : List Bytes) : XmlUnMarshaller.X × PB × Option Err :=
  XmlUnMarshaller.run S.xml S.parser (Python.builder S.opts) .response Python.init l

/-- What the unmarshaller throws on the last of the pieces (`src/frpchttpclient.h:60-81`, `src/frpchttpclient.cc:237-248`); there are two kinds only. -/
def feed {σ} (S : Conf σ) : HttpServer.Kind → List Bytes → Option Err
  | .xml, l => (xmlRead S l).2.2
  | _, l => (binRead S l).2.2

/-- What it throws at the end (`src/frpchttpclient.cc:250`). -/
def finish {σ} (S : Conf σ) : HttpServer.Kind → List Bytes → Option Err
  | .xml, l => (xmlDone S l).2.2
  | _, l => binEnd (binRead S l).1

/-- The builder after that. -/
def built {σ} (S : Conf σ) : HttpServer.Kind → List Bytes → PB
  | .xml, l => (xmlDone S l).2.1
  | _, l => (binRead S l).2.1

/-- The version of the response (`src/frpchttpclient.cc:251`). -/
def version {σ} (S : Conf σ) : HttpServer.Kind → List Bytes → Version
  | .xml, l => (xmlDone S l).1.ver
  | _, l => Registry.versionSeen l.flatten

/-- As the surroundings of the C++ proxy. -/
def env {σ} (S : Conf σ) : Proxy.Env := ⟨S.strOk, S.dbl, ⟨feed S, finish S, version S⟩⟩

/-! ## A call -/

/-- The client (`python/fastrpcmodule.cc:2017,2029-2072`, `src/frpchttpclient.h:101-119`): chunks are for the binary protocol and HTTP/1.1 only. -/
def clientOf {σ} (S : Conf σ) (p : Proxy.Proxy) : ClientCfg :=
  clientFor p.url p.cfg.http10 (Proxy.chooseBinary p) p.cfg.keepAlive (S.chunks && Proxy.chooseBinary p && !p.cfg.http10) (p.permanent ++ p.once)

/-- What the marshaller is told (`python/fastrpcmodule.cc:2092-2094`): the calls, and the exception of the feeder. The name is a C string. -/
def script {σ} (S : Conf σ) (name : Bytes) (args : List Py) : List PackOp × Option Exn :=
  Python.andThen ([.packMethodCall (Registry.cstr name)], .none) (Python.feedItems S.opts.L (Python.argc args.length).toNat args)

/-- A C++ exception as the user's (`python/fastrpcmodule.cc:2106-2150`). -/
def ofErr : Err → Outcome
  | .type | .len => .raised .type
  | .stream => .raised .response
  | .ub | .fuel => .crash
  | _ => .raised .runtime

/-- What becomes of an exception while sending: all are `ProtocolError_t`, except `ResponseError_t`, which never comes here (`src/frpchttpio.cc:316-382`). -/
def ofSErr : SErr → Outcome
  | .fuel => .crash
  | _ => .raised (.protocol none)

/-- The same while reading (`src/frpchttpio.cc`, `src/frpchttpclient.cc:168-276`). -/
def ofRespErr : RespErr → Outcome
  | .io .fuel => .crash
  | .io _ => .raised (.protocol none)
  | .http status _ => .raised (.protocol (some status))
  | .stream => .raised .response
  | .other e => ofErr e

/-- What was read (`python/fastrpcmodule.cc:2154-2185`): the object, unless it is a fault. An error of the builder has left no object. -/
def ofBuilder (pb : PB) : Outcome :=
  match pb.error with
  | some _ => .raised .runtime
  | none =>
    match pb.methodName with
    | some _ =>
      match Python.toTuple (Python.seen pb) with
      | .ok v => .value v
      | .error _ => .raised .runtime
    | none =>
      match Python.seen pb with
      | .fault code msg => .raised (.fault code msg)
      | v => .value v

/-- After what was to be sent has been sent, or part of it (`python/fastrpcmodule.cc:2095-2103`): as in `Proxy.exchange`. `failed` is the exception of the marshaller or of the
feeder; it has come before the rest was sent, and nothing closes the connection then. -/
def afterSend {σ} (S : Conf σ) (p : Proxy.Proxy) (s : Proxy.Sock) (m : Except SErr Unit × Writer) (failed : Option Outcome) (t : Proxy.Turn) :
    Outcome × Proxy.Proxy × Proxy.Sent :=
  let sent := m.2.wire.sent
  let read (early : Bool) : Outcome × Proxy.Proxy × Proxy.Sent :=
    match readResponse (-1, -1) (feed S) (finish S) p.cfg.keepAlive ⟨s.unread ++ t.reply sent, t.back, []⟩ with
    | (.error e, _) => (ofRespErr e, { p with sock := none }, some (s.id, sent))
    | (.ok r, conn) =>
      (ofBuilder (built S r.kind r.body),
       { p with sock := if r.close || early then none else some ⟨s.id, conn.data⟩, supports := r.accepts.getD (true, false), version := version S r.kind r.body },
       some (s.id, sent))
  match m.1 with
  | .ok _ =>
    match failed with
    | some o => (o, { p with sock := some s }, some (s.id, sent))
    | none => read false
  | .error .response => read true
  | .error e => (ofSErr e, { p with sock := none }, some (s.id, sent))

/-- The marshaller's writes and, if it and the feeder have not failed, its `flush`; the connection is made before the first byte is sent. In chunks that may be before
everything is marshalled, else it is in `flush`. -/
def exchange {σ} (S : Conf σ) (p : Proxy.Proxy) (c : ClientCfg) (ws : List Bytes) (failed : Option Outcome) (t : Proxy.Turn) : Outcome × Proxy.Proxy × Proxy.Sent :=
  let m := if failed.isSome then writes (clientConf c) ws (.init ⟨t.up, []⟩) else message (clientConf c) ws (.init ⟨t.up, []⟩)
  match failed, m.2.headersSent with
  | some o, false => (o, p, none)
  | _, _ =>
    match Proxy.connectSocket p t with
    | (none, made) => (.raised (.protocol none), { p with sock := none, made := made }, none)
    | (some s, made) => afterSend S { p with made := made } s m failed t

/-- How a call ended, for the second hook. -/
def Outcome.exn : Outcome → Option Raised
  | .raised e => some e
  | _ => none

/-- The first hook (`python/fastrpcmodule.cc:2079-2088`). -/
def runPre {σ} (S : Conf σ) (st : σ) (name : Bytes) (args : List Py) : Option Py × σ :=
  match S.pre with
  | none => (none, st)
  | some f => f st (Registry.cstr name) args

/-- The second (`python/fastrpcmodule.cc:2187-2210`). -/
def runPost {σ} (S : Conf σ) (st : σ) (name : Bytes) (args : List Py) (data : Option Py) (o : Outcome) : σ :=
  match S.post with
  | none => st
  | some f => f st (Registry.cstr name) args data o.exn

/-- The exception of the marshaller, or else of the feeder (`python/fastrpcmodule.cc:2106-2150`). -/
def failure (e : Option Err) (x : Option Exn) : Option Outcome :=
  match e, x with
  | some e, _ => some (ofErr e)
  | none, some _ => some (.raised .runtime)
  | none, none => none

/-- The format of requests. -/
def format (binary : Bool) : OutType := if binary then .binary else .xml

/-- `Proxy_t::operator()` (`python/fastrpcmodule.cc:2012-2230`). The marshaller is made outside the `try` block. What `flush` of the XML marshaller writes comes last. -/
def call {σ} (S : Conf σ) (x : State σ) (name : Bytes) (args : List Py) (t : Proxy.Turn) : Outcome × State σ × Proxy.Sent :=
  let c := clientOf S x.px
  let p := { x.px with once := [] }
  match Mar.new (format (Proxy.chooseBinary x.px)) x.px.version with
  | none => (.terminate, ⟨p, name, x.user⟩, none)
  | some m =>
    let d := runPre S x.user name args
    let q := script S name args
    let k := m.packAll S.strOk S.dbl q.1
    let failed := failure k.2.2 q.2
    let r := exchange S p c (if failed.isSome then k.1 else k.1 ++ k.2.1.ending) failed t
    (r.1, ⟨r.2.1, name, runPost S d.2 name args d.1 r.1⟩, r.2.2)

/-! ## What else is done with a proxy -/

/-- A header as the user gives it (`python/fastrpcmodule.cc:1540-1598`): a pair of texts, or something else, which is refused. -/
inductive Given where
  | pair (f : Bytes × Bytes) | bad

/-- `feed_headers` (`python/fastrpcmodule.cc:1602-1630`): those before a bad one are kept. Are all good? -/
def feedHeaders : List Given → List (Bytes × Bytes) → Bool × List (Bytes × Bytes)
  | [], hs => (true, hs)
  | .pair f :: gs, hs => feedHeaders gs (hs ++ [f])
  | .bad :: _, hs => (false, hs)

/-- What a user does: calls, with header fields for the call; closes the connection. -/
inductive Op where
  | call (name : Bytes) (args : List Py) (headers : List Given) (t : Proxy.Turn)
  | close

/-- One step (`Method_call`, `python/fastrpcmodule.cc:1634-1660`; `ServerProxy_call`, `python/fastrpcmodule.cc:1905-1944`, `closeConnection`,
`python/fastrpcmodule.cc:1316-1325`). -/
def step {σ} (S : Conf σ) (x : State σ) : Op → Option (Outcome × Proxy.Sent) × State σ
  | .call name args headers t =>
    let h := feedHeaders headers x.px.once
    let y := { x with px := { x.px with once := h.2 } }
    if h.1 then
      let r := call S y name args t
      (some (r.1, r.2.2), r.2.1)
    else (some (.raised .type, none), y)
  | .close => (none, { x with px := { x.px with sock := none } })

/-- The state after some steps. -/
def after {σ} (S : Conf σ) (x : State σ) : List Op → State σ
  | [] => x
  | o :: os => after S (step S x o).2 os

/-- The name of a method object: attributes of attributes (`Method_getattr`, `ServerProxy_getattr`, `python/fastrpcmodule.cc:1511-1537,1946-2010`). Names that begin with two
underscores are refused; so are, if `hideAttributes` is false, the proxy's own attributes, which are no methods. -/
def methodName (hide : Bool) : List Bytes → Option Bytes
  | [] => none
  | a :: as =>
    if (asc "__").isPrefixOf a then none
    else if hide = false ∧ a ∈ [asc "host", asc "path", asc "port", asc "url", asc "last_call"] then none
    else as.foldl (fun acc b => acc.bind fun n => if (asc "__").isPrefixOf b then none else some (n ++ asc "." ++ b)) (some a)

end PyProxy
end Frpc
