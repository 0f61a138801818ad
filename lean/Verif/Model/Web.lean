import Verif.Model.Remote
/-!
# The whole server: connections, requests of four kinds, answers in four formats (`Server_t::serve`)

`HttpServer.serveLoop` tells what the server does turn by turn; here are the bytes that it sends, with the registry, the four unmarshallers, the
four marshallers, and the pointer to the application's response header, which outlives a call of `serve`.
-/
namespace Frpc
namespace Web
open HttpIO HttpOut HttpServer Registry Remote

/-- The settings of a server: what it decodes with, the texts of exceptions and of doubles, its configuration; what the application does besides the methods:
the header fields that it has put into `headerOut` when the methods are in that state, the result of `headCall`
(`src/frpcmethodregistry.cc:367-382`), and which of the protocol errors that its methods throw are `HTTPError_t`
(`src/frpchttperror.h:46`); and the reasons of HTTP errors found while reading, which the model of `readRequest` does not keep. -/
structure Conf (σ : Type) where
  side : Side
  txt : ErrText
  dbl : BitVec 64 → Bytes
  http : HttpServer.Env
  custom : σ → HttpHeader.Fields
  headCall : Int
  isHttp : Exn → Bool
  reason : Nat → Bytes

/-- The settings as `Remote` has them. -/
def Conf.base {σ : Type} (S : Conf σ) : Remote.Server := ⟨S.side, S.txt, S.dbl, S.http, []⟩

/-- `Server_t::headerOut` (`src/frpcserver.h:220`): null, the header of this call of `serve`, a header that is no more. -/
inductive Hdr where
  | null | here | gone
deriving DecidableEq, Repr

/-- What stays between requests and connections: the state of the methods, the fields of `Server_t`. -/
structure Live (σ : Type) where
  st : σ
  srv : Srv
  hdr : Hdr

/-- How `serve` ended: it returned; an exception left it; it used a header that is no more; a loop bound of the model. -/
inductive End where
  | done | thrown | bad | fuel
deriving DecidableEq, Repr

/-- What one turn of the loop leads to: the condition of the loop, with the request counted or not (`continue`), or the end. -/
inductive Next where
  | again (counted : Bool)
  | stop (e : End)
deriving DecidableEq, Repr

/-- The server and its connection. -/
structure At (σ : Type) where
  live : Live σ
  conn : Conn
  wire : Wire

/-- The custom fields that `sendResponse` writes (`src/frpcserver.cc:468-473`). -/
def fields {σ : Type} (S : Conf σ) (x : Live σ) : HttpHeader.Fields :=
  match x.hdr with
  | .here => S.custom x.st
  | _ => []

/-- The writer of the response. -/
def conf {σ : Type} (S : Conf σ) (x : Live σ) : HttpOut.Conf :=
  serverConf ⟨x.srv.outType, S.http.useBinary, S.http.keepAlive, x.srv.chunks, fields S x⟩

/-- `sendHttpError` and `break` (`src/frpcserver.cc:129-131,170-173,378-396`). -/
def failHttp {σ : Type} (S : Conf σ) (a : At σ) (code : Nat) (reason : Bytes) : At σ × Next :=
  match sendData false (httpError S.base code reason) a.wire with
  | (.ok _, wire) => ({ a with wire := wire }, .stop .done)
  | (.error _, wire) => ({ a with wire := wire }, .stop .thrown)

/-- The writes and `flush` of a marshaller that does not throw. The pointer is reset when the header is made
(`src/frpcserver.cc:468-473`). -/
def respond {σ : Type} (S : Conf σ) (a : At σ) (ws : List Bytes) (counted : Bool) : At σ × Next :=
  match HttpOut.message (conf S a.live) ws (.init a.wire) with
  | (.ok _, w) => ({ a with live := { a.live with hdr := .null }, wire := w.wire }, .again counted)
  | (.error _, w) => ({ a with live := { a.live with hdr := .null }, wire := w.wire }, .stop .thrown)

/-- The same of one that throws before `flush`: what the writer has sent, and the pointer. -/
def unfinished {σ : Type} (S : Conf σ) (a : At σ) (ws : List Bytes) : At σ × Bool :=
  let q := HttpOut.writes (conf S a.live) ws (.init a.wire)
  ({ a with live := { a.live with hdr := if q.2.headersSent then .null else a.live.hdr }, wire := q.2.wire },
    match q.1 with
    | .ok _ => true
    | .error _ => false)

/-- The handler of `StreamError_t` (`src/frpcserver.cc:122-134`). -/
def refuse {σ : Type} (S : Conf σ) (a : At σ) : At σ × Next :=
  if a.live.hdr = .gone then (a, .stop .bad)
  else
    match Mar.new a.live.srv.outType ⟨2, 1⟩ with
    | none => (a, .stop .thrown)
    | some m =>
      match m.packAll S.side.cfg.strOk S.dbl [.packFault PARSE_ERROR (Registry.cstr (S.txt .stream))] with
      | (ws, m, none) => respond S a (ws ++ m.ending) false
      | (ws, _, some _) => ((unfinished S a ws).1, .stop .thrown)

/-- A `HEAD` request (`src/frpcserver.cc:150-159`), with `sendResponse` (`src/frpcserver.cc:482-489`); `outType` and `useChunks` are those of the last
`POST` request. -/
def headTurn {σ : Type} (S : Conf σ) (a : At σ) : At σ × Next :=
  if S.headCall = 0 then
    match sendData false ((conf S a.live).head 0) a.wire with
    | (.ok _, wire) => ({ a with live := { a.live with hdr := .null }, wire := wire }, .again true)
    | (.error _, wire) => ({ a with live := { a.live with hdr := .null }, wire := wire }, .stop .thrown)
  else if S.headCall < 0 then failHttp S a 405 (asc "Method Not Allowed")
  else failHttp S a 503 (asc "Service Unavailable")

/-- `processCall` of a request that was read (`src/frpcserver.cc:160-173`); `Array(…)` of a value that is no array throws `TypeError_t`. -/
def callTurn {σ : Type} (S : Conf σ) (r : Reg σ) (a : At σ) (q : Request) : At σ × Next :=
  match TreeBuilder.data (built S.side .call q.path q.kind q.body) with
  | none => failHttp S a 400 (asc "Demarshaller failed")
  | some (.array params) =>
    match Mar.new a.live.srv.outType (version S.side .call q.kind q.body) with
    | none => (a, .stop .thrown)
    | some m =>
      let p := answerCall S.base r m a.live.st (built S.side .call q.path q.kind q.body).methodName params
      let a := { a with live := { a.live with st := p.state } }
      match p.thrown with
      | none => respond S a p.writes true
      | some e =>
        let u := unfinished S a p.writes
        if u.2 = true ∧ S.isHttp e = true then
          match e with
          | .protocol code m => failHttp S u.1 code.toNat m
          | _ => (u.1, .stop .thrown)
        else (u.1, .stop .thrown)
  | some _ => (a, .stop .thrown)

/-- One turn of the loop of `serve` (`src/frpcserver.cc:116-174`). -/
def turn {σ : Type} (S : Conf σ) (r : Reg σ) (a : At σ) : At σ × Next :=
  match readRequest S.base.env a.live.srv a.conn with
  | (.ok q, srv, s) =>
    let a := { a with live := { a.live with srv := srv, hdr := .here }, conn := s }
    match q with
    | none => headTurn S a
    | some q => callTurn S r a q
  | (.error e, srv, s) =>
    let a := { a with live := { a.live with srv := srv }, conn := s }
    match e with
    | .stream => refuse S a
    | .http code => failHttp S a code (S.reason code)
    | .noRequest => (a, .stop .done)
    | _ => (a, .stop .thrown)

/-- The loop of `serve` (`src/frpcserver.cc:115-179`). -/
def serveLoop {σ : Type} (S : Conf σ) (r : Reg σ) : Nat → Nat → At σ → At σ × End
  | 0, _, a => (a, .fuel)
  | f + 1, count, a =>
    match turn S r a with
    | (a, .stop e) => (a, e)
    | (a, .again counted) =>
      let count := if counted then count + 1 else count
      if HttpServer.stop S.http a.live.srv count then (a, .done) else serveLoop S r f count a

/-- `serve` with a connection (`src/frpcserver.cc:74-180`); the header is local to it (`src/frpcserver.cc:75-77`). What `serve` sends is added to the wire. -/
def serve {σ : Type} (S : Conf σ) (r : Reg σ) (x : Live σ) (s : Conn) (wire : Wire) : At σ × End :=
  let q := serveLoop S r (s.data.length + 2) 0 ⟨{ x with srv := { x.srv with close := false, head := false } }, s, wire⟩
  ({ q.1 with live := { q.1.live with hdr := if q.1.live.hdr = .here then .gone else q.1.live.hdr } }, q.2)

/-- A new server (`src/frpcserver.h:149-157`). -/
def new {σ : Type} (st : σ) : Live σ := ⟨st, ⟨.xml, false, true, false⟩, .null⟩

/-- Connections one after another on the same server object: what was sent on each and how it ended, and the server after them. It ends where the behaviour is undefined. -/
def serveAll {σ : Type} (S : Conf σ) (r : Reg σ) : Live σ → List (Conn × List SEv) → List (Bytes × End) × Live σ
  | x, [] => ([], x)
  | x, (s, down) :: cs =>
    let q := serve S r x s ⟨down, []⟩
    if q.2 = .bad then ([(q.1.wire.sent, q.2)], q.1.live)
    else
      let t := serveAll S r q.1.live cs
      ((q.1.wire.sent, q.2) :: t.1, t.2)

end Web
end Frpc
