import Verif.Model.HttpBinary
import Verif.Model.Proxy
import Verif.Model.Registry
import Verif.Model.XmlUnmarshaller
import Verif.Model.Base64
import Verif.Model.JsonMarshaller
import Verif.Model.UrlForm
import Verif.Model.Rpc
/-!
# A proxy and a server, all protocols (`ServerProxyImpl_t::call` against `Server_t::serve`)

`Rpc.lean` has one call in the binary protocol; here is the proxy with its modes, its kept connection and its negotiated protocol and
version, against the loop of the server with its limit of requests on a connection, with the four kinds of requests and the four of answers.
The XML parser, `strtod` and the text of doubles are parameters, as in the models of the XML classes.
-/
namespace Frpc
namespace Remote
open HttpIO HttpOut HttpServer Registry

/-- What one side decodes with: the configuration of its tree builder, the surroundings of its XML unmarshaller, the XML parser, the
surroundings of its URL unmarshaller. -/
structure Side where
  cfg : TreeBuilder.Cfg
  xml : XmlUnMarshaller.Env
  parser : XmlUnMarshaller.Parser
  url : UrlForm.Env

/-- The XML unmarshaller after the pieces. -/
def xmlRead (s : Side) (req : BinUnMarshaller.Req) (l : List Bytes) : XmlUnMarshaller.X × TreeBuilder.TB × Option Err :=
  XmlUnMarshaller.unMarshallAll s.xml s.parser (TreeBuilder.builder s.cfg) req [] XmlUnMarshaller.init TreeBuilder.init l

/-- The XML unmarshaller after the pieces and `finish`. -/
def xmlDone (s : Side) (req : BinUnMarshaller.Req) (l : List Bytes) : XmlUnMarshaller.X × TreeBuilder.TB × Option Err :=
  XmlUnMarshaller.run s.xml s.parser (TreeBuilder.builder s.cfg) req TreeBuilder.init l

/-- The URL unmarshaller after the pieces and `finish` (`src/frpcurlunmarshaller.cc:352-377`), for a server, which expects method calls: the
calls it makes to the builder, until one throws. -/
def urlDone (s : Side) (path : Bytes) (l : List Bytes) : TreeBuilder.TB × Option Err :=
  let q := UrlForm.run s.url path l
  match BinUnMarshaller.applyEvents (TreeBuilder.builder s.cfg) TreeBuilder.init q.1 with
  | (b, some e) => (b, some e)
  | (b, none) => (b, q.2)

/-- The base64 unmarshaller after the pieces. -/
def base64Read (s : Side) (req : BinUnMarshaller.Req) (l : List Bytes) : Bytes × BinUnMarshaller.Obj × TreeBuilder.TB × Option Err :=
  Base64.unMarshallAll (TreeBuilder.builder s.cfg) req [] BinUnMarshaller.init TreeBuilder.init l

/-- What the unmarshaller throws on the last of the pieces (`src/frpchttpclient.h:60-81`, `src/frpcserver.cc:292-324`); `path` is that of the
request. The URL unmarshaller only collects (`src/frpcurlunmarshaller.cc:359-366`). -/
def feed (s : Side) (req : BinUnMarshaller.Req) (_path : Bytes) : HttpServer.Kind → List Bytes → Option Err
  | .binary, l => binFeed s.cfg req l
  | .xml, l => (xmlRead s req l).2.2
  | .urlEncoded, _ => none
  | .base64, l => (base64Read s req l).2.2.2

/-- What it throws at the end (`src/frpcbinunmarshaller.cc`, of which the base64 unmarshaller inherits it, and the like). -/
def finish (s : Side) (req : BinUnMarshaller.Req) (path : Bytes) : HttpServer.Kind → List Bytes → Option Err
  | .binary, l => binFinish s.cfg req l
  | .xml, l => (xmlDone s req l).2.2
  | .urlEncoded, l => (urlDone s path l).2
  | .base64, l =>
    match BinUnMarshaller.finish (base64Read s req l).2.1 with
    | .ok _ => none
    | .error e => some e

/-- The builder at the end. -/
def built (s : Side) (req : BinUnMarshaller.Req) (path : Bytes) : HttpServer.Kind → List Bytes → TreeBuilder.TB
  | .binary, l => (BinUnMarshaller.unMarshallAll (TreeBuilder.builder s.cfg) req BinUnMarshaller.init TreeBuilder.init l).2.1
  | .xml, l => (xmlDone s req l).2.1
  | .urlEncoded, l => (urlDone s path l).1
  | .base64, l => (base64Read s req l).2.2.1

/-- `getProtocolVersion` of the unmarshaller (`src/frpcbinunmarshaller.h:63-65`, `src/frpcxmlunmarshaller.h:67`,
`src/frpcunmarshaller.h:126-128`). -/
def version (s : Side) (req : BinUnMarshaller.Req) : HttpServer.Kind → List Bytes → Version
  | .binary, l => versionSeen l.flatten
  | .xml, l => (xmlDone s req l).1.ver
  | .urlEncoded, _ => ⟨2, 1⟩
  | .base64, l => versionSeen (Base64.processAll [] l).1

/-! ## The server -/

/-- A marshaller of one of the four protocols; for base64 with the state of its writer (`src/frpcb64marshaller.h:43-53`). -/
inductive Mar where
  | bin (ver : Version)
  | xml (m : XmlMarshaller.M)
  | json (ctx : JsonMarshaller.Ctx)
  | b64 (ver : Version) (w : Base64.W)

/-- `Marshaller_t::create` (`src/frpcmarshaller.cc:49-79`) with `chooseType` (`src/frpcserver.cc:56-68`); the constructors refuse
unknown versions, except that JSON has none. -/
def Mar.new (out : OutType) (ver : Version) : Option Mar :=
  match out with
  | .binary => if BinMarshaller.accepts ver then some (.bin ver) else none
  | .xml => if XmlMarshaller.accepts ver then some (.xml (XmlMarshaller.new ver)) else none
  | .json => some (.json [])
  | .base64 => if BinMarshaller.accepts ver then some (.b64 ver .init) else none

/-- Calls of the marshaller until one throws: the writes, the marshaller after them, the exception. -/
def Mar.packAll (strOk : Bytes → Bool) (dbl : BitVec 64 → Bytes) (ops : List PackOp) : Mar → List Bytes × Mar × Option Err
  | .bin ver => let q := BinMarshaller.run strOk ver ops; (q.1, .bin ver, q.2)
  | .xml m => let q := XmlMarshaller.packAll dbl m ops; (q.1, .xml q.2.1, q.2.2)
  | .json ctx => let q := JsonMarshaller.packAll dbl ctx ops; (q.1, .json q.2.1, q.2.2)
  | .b64 ver w => let q := BinMarshaller.run strOk ver ops; let t := w.writes q.1; (t.1, .b64 ver t.2, q.2)

/-- What `flush` writes before it flushes the writer (`src/frpcbinmarshaller.cc:436-438`, `src/frpcxmlmarshaller.cc:433-455`,
`src/frpcjsonmarshaller.cc:132-135`, `src/frpcb64writer.cc:100-119`). -/
def Mar.ending : Mar → List Bytes
  | .bin _ => []
  | .xml m => (XmlMarshaller.flush m).1
  | .json ctx => JsonMarshaller.flush ctx
  | .b64 _ w => w.flush.1

/-- The settings of a server. `custom` is the header that the application adds to the response. -/
structure Server where
  side : Side
  txt : ErrText
  dbl : BitVec 64 → Bytes
  http : HttpServer.Env
  custom : HttpHeader.Fields

/-- `readRequest` with the unmarshallers of the protocols. -/
def Server.env (S : Server) : HttpServer.Env :=
  { S.http with feed := fun k p l => feed S.side .call p k l, finish := fun k p l => finish S.side .call p k l }

/-- The exception handlers of `processCall` to a writer (`src/frpcmethodregistry.cc:172-212`), as `Registry.answerExn`, on the same
marshaller that has made the writes `ws`. -/
def answerExn {σ : Type} (S : Server) (callbacks : Bool) (name : Bytes) (params : List Value) (ws : List Bytes) (m : Mar) (st : σ) (cbs : List Cb) (e : Exn) :
    Answer σ :=
  match answerFault e with
  | none => ⟨ws, some e, st, cbs⟩
  | some (code, msg) =>
    let cbs := cbs ++ if callbacks then [.postFault name params code msg] else []
    match m.packAll S.side.cfg.strOk S.dbl [.packFault code (Registry.cstr msg)] with
    | (ws', m, none) => ⟨ws ++ ws' ++ m.ending, none, st, cbs⟩
    | (ws', _, some e) => ⟨ws ++ ws', some (ofErr S.txt e), st, cbs⟩

/-- `processCall` to a writer (`src/frpcmethodregistry.cc:148-215`), as `Registry.processCallOut`, for any protocol. -/
def answerCall {σ : Type} (S : Server) (r : Reg σ) (m : Mar) (st : σ) (name : Bytes) (params : List Value) : Answer σ :=
  match processCall r st name params with
  | (.error e, st, cbs) => answerExn S r.callbacks name params [] m st cbs e
  | (.ok v, st, cbs) =>
    match m.packAll S.side.cfg.strOk S.dbl (.packMethodResponse :: Frpc.feed v) with
    | (ws, m, none) => ⟨ws ++ m.ending, none, st, cbs⟩
    | (ws, m, some e) => answerExn S r.callbacks name params ws m st cbs (ofErr S.txt e)

/-- What the server knows: the state of the methods, its fields, the last connection it was given, and the requests it has served on
it; `none`: it has closed it. -/
structure State (σ : Type) where
  st : σ
  srv : Srv
  last : Option (Nat × Option Nat)

/-- How many requests it has served on the connection; `none`: it has closed it. -/
def State.served {σ : Type} (x : State σ) (id : Nat) : Option Nat :=
  match x.last with
  | some (i, c) => if i = id then c else some 0
  | none => some 0

/-- `sendHttpError` (`src/frpcserver.cc:378-396`); the reason is not kept by the model. -/
def httpError (S : Server) (code : Nat) (reason : Bytes) : Bytes :=
  asc "HTTP/1.1 " ++ dec code ++ asc " " ++ reason ++ asc "\r\nAccept: text/xml" ++ (if S.http.useBinary then asc ", application/x-frpc" else []) ++
  asc ", application/x-www-form-urlencoded\r\nServer: Fast-RPC  Server Linux\r\n\r\n"

/-- A message of the server: what the network took of it, and the state, with `count` requests served. An exception while sending ends
`serve`. -/
def send {σ : Type} (S : Server) (st : σ) (srv : Srv) (id count : Nat) (custom : HttpHeader.Fields) (ws : List Bytes) (down : List SEv) : Bytes × State σ :=
  match HttpOut.message (serverConf ⟨srv.outType, S.http.useBinary, S.http.keepAlive, srv.chunks, custom⟩) ws (.init ⟨down, []⟩) with
  | (.ok _, w) => (w.wire.sent, ⟨st, srv, some (id, if stop S.http srv count then none else some count)⟩)
  | (.error _, w) => (w.wire.sent, ⟨st, srv, some (id, none)⟩)

/-- One turn of the loop of `serve` (`src/frpcserver.cc:116-180`) on the bytes of a request that came on connection `id`: the bytes it
sends, and the state. Nothing is sent on a closed connection; what
was sent of an answer before an exception left `processCall` is not kept. `HEAD` requests, which a proxy does not make, get nothing here. -/
def turn {σ : Type} (S : Server) (r : Reg σ) (x : State σ) (id : Nat) (got : Bytes) (arrive : List Ev) (down : List SEv) : Bytes × State σ :=
  match x.served id with
  | none => ([], x)
  | some n =>
    match readRequest S.env x.srv ⟨got, arrive, []⟩ with
    | (.ok (some q), srv, _) =>
      match TreeBuilder.getData (built S.side .call q.path q.kind q.body) with
      | .ok (.array params) =>
        match Mar.new srv.outType (version S.side .call q.kind q.body) with
        | none => ([], ⟨x.st, srv, some (id, none)⟩)
        | some m =>
          let a := answerCall S r m x.st (built S.side .call q.path q.kind q.body).methodName params
          match a.thrown with
          | some _ => ([], ⟨a.state, srv, some (id, none)⟩)
          | none => send S a.state srv id (n + 1) S.custom a.writes down
      | _ => (httpError S 400 (asc "Demarshaller failed"), ⟨x.st, srv, some (id, none)⟩)
    | (.error .stream, srv, _) =>
      match Mar.new srv.outType ⟨2, 1⟩ with
      | none => ([], ⟨x.st, srv, some (id, none)⟩)
      | some m =>
        let f := m.packAll S.side.cfg.strOk S.dbl [.packFault PARSE_ERROR (Registry.cstr (S.txt .stream))]
        match f.2.2 with
        | some _ => ([], ⟨x.st, srv, some (id, none)⟩)
        | none => send S x.st srv id n [] (f.1 ++ f.2.1.ending) down
    | (.error (.http code), srv, _) => (httpError S code [], ⟨x.st, srv, some (id, none)⟩)
    | (_, srv, _) => ([], ⟨x.st, srv, some (id, none)⟩)

/-! ## The proxy -/

/-- The settings of the client's process. -/
structure Client where
  side : Side
  dbl : BitVec 64 → Bytes

/-- The surroundings of its proxies. -/
def Client.env (C : Client) : Proxy.Env :=
  ⟨C.side.cfg.strOk, C.dbl, ⟨feed C.side .response [], finish C.side .response [], version C.side .response⟩⟩

/-- How the network behaves during one call. `lost`: the kept connection was lost since the last call, and the proxy sees it; `broken`:
`poll` fails on it; `late`: when the server has closed it, the proxy does not see it yet; the rest as in `Rpc.Net`. -/
structure Net where
  lost : Bool
  broken : Bool
  late : Bool
  up : List SEv
  arrive : List Ev
  down : List SEv
  back : List Ev

/-- Has the server closed the connection that the proxy keeps? -/
def goneBy {σ : Type} (p : Proxy.Proxy) (x : State σ) : Bool :=
  match p.sock with
  | some s => (x.served s.id).isNone
  | none => false

/-- What happens on the connection, with a given answer of the peer. -/
def turnWith {σ : Type} (p : Proxy.Proxy) (x : State σ) (net : Net) (reply : Bytes → Bytes) : Proxy.Turn :=
  ⟨[], net.lost || (!net.late && goneBy p x), net.broken, true, net.up, reply, net.back⟩

/-- The number of the connection that the call will use; it does not depend on the answer. -/
def connection {σ : Type} (p : Proxy.Proxy) (x : State σ) (net : Net) : Nat :=
  match Proxy.connectSocket p (turnWith p x net (fun b => b)) with
  | (some s, _) => s.id
  | (none, _) => 0

/-- What the caller gets (`src/frpcserverproxy.cc:540-546`). -/
def outcome (C : Client) : Proxy.Result → Rpc.Outcome
  | .response q =>
    match TreeBuilder.getData (built C.side .response [] q.kind q.body) with
    | .ok v => .value v
    | .error (.fault c m) => .fault c m
    | .error _ => .failed
  | _ => .failed

/-- `ServerProxyImpl_t::call` (`src/frpcserverproxy.cc:515-546`) against such a server. -/
def remoteCall {σ : Type} (C : Client) (S : Server) (r : Reg σ) (p : Proxy.Proxy) (x : State σ) (name : Bytes) (args : List Value) (net : Net) :
    Rpc.Outcome × Proxy.Proxy × State σ :=
  let id := connection p x net
  let q := Proxy.call C.env p name args (turnWith p x net (fun b => (turn S r x id b net.arrive net.down).1))
  (outcome C q.1, q.2.1, match q.2.2 with
    | some (_, b) => (turn S r x id b net.arrive net.down).2
    | none => x)

/-- What the user of the proxy does: calls, or anything else that is done with a proxy. -/
inductive Step where
  | call (name : Bytes) (args : List Value) (net : Net)
  | addOnce (f : Bytes × Bytes)
  | addPermanent (f : Bytes × Bytes)
  | deleteHeaders

/-- Steps one after another through one proxy: the outcomes of the calls, the proxy and the server after them. -/
def session {σ : Type} (C : Client) (S : Server) (r : Reg σ) : Proxy.Proxy → State σ → List Step → List Rpc.Outcome × Proxy.Proxy × State σ
  | p, x, [] => ([], p, x)
  | p, x, .call name args net :: cs =>
    let y := remoteCall C S r p x name args net
    let q := session C S r y.2.1 y.2.2 cs
    (y.1 :: q.1, q.2)
  | p, x, .addOnce f :: cs => session C S r (Proxy.step C.env p (.addOnce f)).2 x cs
  | p, x, .addPermanent f :: cs => session C S r (Proxy.step C.env p (.addPermanent f)).2 x cs
  | p, x, .deleteHeaders :: cs => session C S r (Proxy.step C.env p .deleteHeaders).2 x cs

end Remote
end Frpc
