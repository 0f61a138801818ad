import Verif.Model.HttpOut
/-!
# Reading requests and responses; the server's loop

`src/frpcserver.cc:100-350`, `src/frpchttpclient.cc:163-276`. The unmarshaller, which is chosen by
the content type, is a parameter here: what it throws, if anything, when it is given the last of
some pieces of the body (`feed`), and at the end of the body (`finish`). So are the method registry
(`call`, `headCall`) and whether the builder got a root value (`built`).
-/
namespace Frpc
namespace HttpServer
open HttpIO HttpOut

/-- Unmarshaller of a request body (`src/frpcserver.cc:293-324`). -/
inductive Kind where
  | binary | xml | urlEncoded | base64
deriving DecidableEq, Repr

/-- `s.find(pat) != npos`. -/
def hasSub (pat : Bytes) : Bytes → Bool
  | [] => pat.isEmpty
  | c :: s => pat.isPrefixOf (c :: s) || hasSub pat s

/-- `connection == "CLOSE"` etc. after `toupper` (`src/frpcserver.cc:334-345`,
`src/frpchttpclient.cc:256-265`): whether the connection is to be closed. -/
def mustClose (http11 : Bool) (connection : Bytes) : Bool :=
  if http11 then decide (connection.map toUpper = asc "CLOSE") else !decide (connection.map toUpper = asc "KEEP-ALIVE")

/-- `get` into an empty string. -/
def getOr (h : HttpHeader.Fields) (name : Bytes) : Bytes := (HttpHeader.get h name 0).getD []

/-- What `readRequest` may throw: an error of the HTTP layer, `HTTPError_t`, `StreamError_t`, another
exception of the unmarshaller, "no request received". -/
inductive ReqErr where
  | io (e : HErr) | http (code : Nat) | stream | other (e : Err) | noRequest
deriving DecidableEq, Repr

/-- An exception on the way through `readContent`. -/
def ofHErr : HErr → ReqErr
  | .sink .stream => .stream
  | .sink e => .other e
  | e => .io e

/-- The same of an unmarshaller. -/
def ofErr : Err → ReqErr
  | .stream => .stream
  | e => .other e

/-- The environment of the server. -/
structure Env where
  useBinary : Bool
  keepAlive : Bool
  maxKeepalive : Nat
  feed : Kind → Bytes → List Bytes → Option Err
  finish : Kind → Bytes → List Bytes → Option Err
  built : Kind → Bytes → List Bytes → Bool

/-- Fields of `Server_t` that a request sets. -/
structure Srv where
  outType : OutType
  chunks : Bool
  close : Bool
  head : Bool
deriving DecidableEq, Repr

/-- A request that has been read. -/
structure Request where
  kind : Kind
  path : Bytes
  body : List Bytes
deriving DecidableEq, Repr

/-- The request line (`src/frpcserver.cc:207-245`): method, path, is it HTTP/1.1. -/
def requestLine (line : Bytes) : Except ReqErr (Bytes × Bytes × Bool) :=
  match splitBySpace line 3 with
  | .error e => .error (.other e)
  | .ok [m, p, v] =>
    if v = asc "HTTP/1.1" then .ok (m, p, true)
    else if v = asc "HTTP/1.0" then .ok (m, p, false)
    else .error (.http 505)
  | .ok _ => .error (.http 400)

/-- The type of the response (`src/frpcserver.cc:271-290`). -/
def chooseOut (useBinary : Bool) (accept : Option Bytes) : OutType × Bool :=
  match accept with
  | none => (.xml, false)
  | some a =>
    if hasSub (asc "application/x-frpc") a then (if useBinary then (.binary, true) else (.xml, false))
    else if hasSub (asc "application/json") a then (.json, false)
    else if hasSub (asc "application/x-base64-frpc") a then (.base64, false)
    else (.xml, false)

/-- The unmarshaller for a content type (`src/frpcserver.cc:292-324`). -/
def chooseKind (contentType : Bytes) : Option Kind :=
  if hasSub (asc "application/x-frpc") contentType then some .binary
  else if hasSub (asc "text/xml") contentType then some .xml
  else if hasSub (asc "application/x-www-form-urlencoded") contentType then some .urlEncoded
  else if hasSub (asc "application/x-base64-frpc") contentType then some .base64
  else none

/-- The server reads without limits (`src/frpcserver.h:149-157`). -/
def srvCfg (sink : List Bytes → Option Err) : Cfg := ⟨-1, -1, sink⟩

/-- `readRequest` after the header (`src/frpcserver.cc:248-345`). `none` is a `HEAD` request. -/
def readBody (env : Env) (srv : Srv) (line : Bytes × Bytes × Bool) (h : HttpHeader.Fields) (s : Conn) :
    Except ReqErr (Option Request) × Srv × Conn :=
  if line.1 ≠ asc "POST" then
    if line.1 = asc "HEAD" then (.ok none, { srv with head := true, close := true }, s)
    else (.error (.http 405), srv, s)
  else
    let out := chooseOut env.useBinary (HttpHeader.get h (asc "Accept") 0)
    let srv := { srv with outType := out.1, chunks := out.2 }
    match chooseKind (getOr h (asc "Content-Type")) with
    | none => (.error .stream, srv, s)
    | some kind =>
      match readContent (srvCfg (env.feed kind line.2.1)) true h s with
      | (.error e, s) => (.error (ofHErr e), srv, s)
      | (.ok h, s) =>
        match env.finish kind line.2.1 s.out with
        | some e => (.error (ofErr e), srv, s)
        | none =>
          (.ok (some ⟨kind, line.2.1, s.out⟩),
            { srv with close := mustClose line.2.2 (getOr h (asc "Connection")), chunks := srv.chunks && line.2.2 }, s)

/-- `readRequest` (`src/frpcserver.cc:187-350`). -/
def readRequest (env : Env) (srv : Srv) (s : Conn) : Except ReqErr (Option Request) × Srv × Conn :=
  let srv := { srv with close := false, head := false }
  let s := { s with out := [] }
  match readLineOpt (srvCfg (fun _ => none)) true true s with
  | (.error e, s) => (.error (ofHErr e), srv, s)
  | (.ok [], s) => (.error .noRequest, srv, s)
  | (.ok line, s) =>
    match requestLine line with
    | .error e => (.error e, srv, s)
    | .ok l =>
      match readHeader (srvCfg (fun _ => none)) false [] s with
      | (.error e, s) => (.error (ofHErr e), srv, s)
      | (.ok h, s) => readBody env srv l h s

/-- What the server does for one turn of the loop. -/
inductive Served where
  | fault (outType : OutType)
  | head
  | call (r : Request) (outType : OutType) (close : Bool)
  | httpError (code : Nat)
deriving DecidableEq, Repr

/-- The registry: `headCall` and `processCall`; a call ends normally, or with an `HTTPError_t`, or
with an exception that leaves `serve`. -/
inductive Handled where
  | ok | http (code : Nat) | thrown
deriving DecidableEq, Repr

/-- The rest of the environment of `serve`. -/
structure Registry where
  headCall : Int
  call : Request → Handled

/-- The result of `serve`: what it did, and the exception that ended it, if any. -/
abbrev Trace := List Served × Option ReqErr

/-- Loop condition (`src/frpcserver.cc:175-179`). -/
def stop (env : Env) (srv : Srv) (count : Nat) : Bool := srv.close || !env.keepAlive || decide (count ≥ env.maxKeepalive)

/-- One `processCall` or `headCall` (`src/frpcserver.cc:146-173`): what was served, and whether the
loop goes on to its condition. -/
def handle (env : Env) (reg : Registry) (srv : Srv) : Option Request → List Served × Option (Option ReqErr)
  | none =>
    if reg.headCall = 0 then ([.head], none)
    else if reg.headCall < 0 then ([.httpError 405], some none)
    else ([.httpError 503], some none)
  | some r =>
    if env.built r.kind r.path r.body = false then ([.httpError 400], some none)
    else match reg.call r with
      | .ok => ([.call r srv.outType srv.close], none)
      | .http code => ([.call r srv.outType srv.close, .httpError code], some none)
      | .thrown => ([.call r srv.outType srv.close], some (some (.other .other)))

/-- The loop of `serve` (`src/frpcserver.cc:116-179`). `continue` goes to the condition of the
`do … while` without counting the request. Errors of sending are not modelled here. -/
def serveLoop (env : Env) (reg : Registry) : Nat → Nat → Srv → Conn → Trace
  | 0, _, _, _ => ([], some (.io .fuel))
  | f + 1, count, srv, s =>
    match readRequest env srv s with
    | (.error .stream, srv, s) =>
      if stop env srv count then ([.fault srv.outType], none)
      else
        let r := serveLoop env reg f count srv s
        (.fault srv.outType :: r.1, r.2)
    | (.error (.http code), _, _) => ([.httpError code], none)
    | (.error .noRequest, _, _) => ([], none)
    | (.error e, _, _) => ([], some e)
    | (.ok q, srv, s) =>
      match handle env reg srv q with
      | (done, some e) => (done, e)
      | (done, none) =>
        if stop env srv (count + 1) then (done, none)
        else
          let r := serveLoop env reg f (count + 1) srv s
          (done ++ r.1, r.2)

/-- `serve` (`src/frpcserver.cc:100-180`). -/
def serve (env : Env) (reg : Registry) (srv : Srv) (s : Conn) : Trace :=
  serveLoop env reg (s.data.length + 2) 0 { srv with close := false, head := false } s

/-! ## The client -/

/-- What `readResponse` may throw. -/
inductive RespErr where
  | io (e : HErr) | http (status : Int) (message : Bytes) | stream | other (e : Err)
deriving DecidableEq, Repr

/-- An exception on the way through `readContent`. -/
def respErr : HErr → RespErr
  | .sink .stream => .stream
  | .sink e => .other e
  | e => .io e

/-- `istringstream(s) >> status` for `int`: 0 when there is no number, the nearest bound when it is
out of range. -/
def readInt (s : Bytes) : Int :=
  let t := takeSign (s.dropWhile isSpace)
  let r := readDigits 10 0 0 t.2
  let v : Int := if t.1 then -r.1 else r.1
  if r.2 = 0 then 0 else if v > 2 ^ 31 - 1 then 2 ^ 31 - 1 else if v < -2 ^ 31 then -2 ^ 31 else v

/-- The status line (`src/frpchttpclient.cc:176-215`): the loop skips empty lines; the result says
whether the answer is HTTP/1.1. -/
def statusLine (cfg : Cfg) : Nat → Conn → Except RespErr Bool × Conn
  | 0, s => (.error (.io .fuel), s)
  | f + 1, s =>
    match readLine cfg true s with
    | (.error e, s) => (.error (respErr e), s)
    | (.ok [], s) => statusLine cfg f s
    | (.ok line, s) =>
      match splitBySpace line 3 with
      | .error e => (.error (.other e), s)
      | .ok [v, status, msg] =>
        if v ≠ asc "HTTP/1.0" ∧ v ≠ asc "HTTP/1.1" then (.error (.http 0 []), s)
        else if readInt status ≠ 200 then (.error (.http (readInt status) msg), s)
        else (.ok (decide (v = asc "HTTP/1.1")), s)
      | .ok _ => (.error (.http 0 []), s)

/-- A response that has been read: its body, in pieces, which unmarshaller got it, the protocols
the server accepts (`None` when it does not say), and whether the connection is closed. -/
structure Response where
  kind : Kind
  body : List Bytes
  accepts : Option (Bool × Bool)
  close : Bool
deriving DecidableEq, Repr

/-- `readResponse` after the status line (`src/frpchttpclient.cc:217-269`); `limits` are those of the
connection, `feed` and `finish` the unmarshaller, `keepAlive` the connector's. -/
def readAnswer (limits : Int × Int) (feed finish : Kind → List Bytes → Option Err) (keepAlive http11 : Bool) (h : HttpHeader.Fields) (s : Conn) :
    Except RespErr Response × Conn :=
  let accepts := (HttpHeader.get h (asc "Accept") 0).map (fun a => (hasSub (asc "text/xml") a, hasSub (asc "application/x-frpc") a))
  let ct := getOr h (asc "Content-Type")
  let kind := if hasSub (asc "text/xml") ct then some Kind.xml else if hasSub (asc "application/x-frpc") ct then some .binary else none
  match kind with
  | none => (.error .stream, s)
  | some kind =>
    match readContent ⟨limits.1, limits.2, feed kind⟩ false h s with
    | (.error e, s) => (.error (respErr e), s)
    | (.ok h, s) =>
      match finish kind s.out with
      | some e => (.error (.other e), s)
      | none => (.ok ⟨kind, s.out, accepts, !keepAlive || mustClose http11 (getOr h (asc "Connection"))⟩, s)

/-- `readResponse` (`src/frpchttpclient.cc:168-276`). -/
def readResponse (limits : Int × Int) (feed finish : Kind → List Bytes → Option Err) (keepAlive : Bool) (s : Conn) : Except RespErr Response × Conn :=
  let s := { s with out := [] }
  let cfg : Cfg := ⟨limits.1, limits.2, fun _ => none⟩
  match statusLine cfg (s.data.length + 1) s with
  | (.error e, s) => (.error e, s)
  | (.ok http11, s) =>
    match readHeader cfg false [] s with
    | (.error e, s) => (.error (respErr e), s)
    | (.ok h, s) => readAnswer limits feed finish keepAlive http11 h s

end HttpServer
end Frpc
