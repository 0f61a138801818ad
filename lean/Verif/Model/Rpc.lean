import Verif.Model.HttpBinary
import Verif.Model.Registry
/-!
# A call over HTTP, both sides (`ServerProxyImpl_t::call`, `Server_t::serve`)

The pieces of the other model files put together: the proxy marshals the call into the HTTP client,
the server reads it, the registry answers into the server, the client reads the answer. Binary
protocol both ways, one request on the connection at a time.
-/
namespace Frpc
namespace Rpc
open HttpIO HttpOut HttpServer Registry
variable {σ : Type}

/-- How the network behaves during one call: what it takes of the client's and of the server's bytes at
a time, and what it delivers of them. -/
structure Net where
  up : List SEv
  arrive : List Ev
  down : List SEv
  back : List Ev

/-- What the caller gets: a value, a `Fault_t`, or another exception. -/
inductive Outcome where
  | value (v : Value)
  | fault (code : Int) (m : Bytes)
  | failed

/-- The settings of the two sides: validation (`client`, `server`), texts of the library's own
exceptions, the server's settings and its custom header, the limits of the client, the client's
configuration (`ClientCfg`). -/
structure Setup where
  client : TreeBuilder.Cfg
  server : TreeBuilder.Cfg
  txt : ErrText
  env : Env
  custom : HttpHeader.Fields
  limits : Int × Int
  http : ClientCfg

/-- What the client makes of the answer (`src/frpchttpclient.cc:168-276`,
`src/frpcserverproxy.cc:540-546`); the last is the version for the next call. -/
def answer (s : Setup) (sent : Bytes) (back : List Ev) (ver : Version) : Outcome × Version :=
  match readResponse s.limits (fun k l => if k = .binary then binFeed s.client .response l else some .other)
      (fun k l => if k = .binary then binFinish s.client .response l else some .other) s.http.keepAlive ⟨sent, back, []⟩ with
  | (.ok p, _) =>
    match TreeBuilder.getData (BinUnMarshaller.unMarshallAll (TreeBuilder.builder s.client) .response BinUnMarshaller.init TreeBuilder.init p.body).2.1 with
    | .ok v => (.value v, versionSeen p.body.flatten)
    | .error (.fault c m) => (.fault c m, versionSeen p.body.flatten)
    | .error _ => (.failed, versionSeen p.body.flatten)
  | _ => (.failed, ver)

/-- What the server does with the bytes of one request (`src/frpcserver.cc:116-170`): the bytes it sends,
if all went well, and the state. Answers in other protocols than the binary are not modelled here. -/
def serverTurn (s : Setup) (r : Reg σ) (st : σ) (srv : Srv) (got : Bytes) (arrive : List Ev) (down : List SEv) : Option Bytes × σ × Srv :=
  match readRequest (binEnv s.server s.env) srv ⟨got, arrive, []⟩ with
  | (.ok (some q), srv, _) =>
    let u := BinUnMarshaller.unMarshallAll (TreeBuilder.builder s.server) .call BinUnMarshaller.init TreeBuilder.init q.body
    match TreeBuilder.getData u.2.1, srv.outType with
    | .ok (.array params), .binary =>
      let a := processCallOut r s.server.strOk (versionSeen q.body.flatten) s.txt st u.2.1.methodName params
      match a.thrown with
      | some _ => (none, a.state, srv)
      | none =>
        match message (serverConf ⟨.binary, s.env.useBinary, s.env.keepAlive, srv.chunks, s.custom⟩) a.writes (.init ⟨down, []⟩) with
        | (.ok _, w) => (some w.wire.sent, a.state, srv)
        | (.error _, _) => (none, a.state, srv)
    | _, _ => (none, st, srv)
  | (_, srv, _) => (none, st, srv)

/-- `ServerProxyImpl_t::call` (`src/frpcserverproxy.cc:515-546`) against such a server. -/
def remoteCall (s : Setup) (r : Reg σ) (st : σ) (srv : Srv) (ver : Version) (name : Bytes) (args : List Value) (net : Net) : Outcome × σ × Srv × Version :=
  match BinMarshaller.run s.client.strOk ver (.packMethodCall name :: feedItems args) with
  | (_, some _) => (.failed, st, srv, ver)
  | (ws, none) =>
    match message (clientConf s.http) ws (.init ⟨net.up, []⟩) with
    | (.error _, _) => (.failed, st, srv, ver)
    | (.ok _, w) =>
      match serverTurn s r st srv w.wire.sent net.arrive net.down with
      | (none, st, srv) => (.failed, st, srv, ver)
      | (some b, st, srv) => ((answer s b net.back ver).1, st, srv, (answer s b net.back ver).2)

/-- Calls one after another through the same proxy. -/
def session (s : Setup) (r : Reg σ) : σ → Srv → Version → List (Bytes × List Value × Net) → List Outcome × σ
  | st, _, _, [] => ([], st)
  | st, srv, ver, (name, args, net) :: cs =>
    let x := remoteCall s r st srv ver name args net
    let q := session s r x.2.1 x.2.2.1 x.2.2.2 cs
    (x.1 :: q.1, q.2)

end Rpc
end Frpc
