import Verif.Model.HttpServer
import Verif.Model.BinMarshaller
import Verif.Model.XmlMarshaller
import Verif.Model.TreeFeeder
import Verif.Model.ProxyCache
/-!
# `ServerProxy_t` (`src/frpcserverproxy.cc`) and the connectors (`src/frpcconnector.cc`)

A proxy as its users see it: settings, header fields, the connection it keeps. Every connection that is made has a number. What
happens on a connection during a call is a parameter of the call (`Turn`).
-/
namespace Frpc
namespace Proxy
open HttpIO HttpOut HttpServer

/-- `Config_t` (`src/frpcserverproxy.h:74-163`) without `proxyUrl`, which goes into the URL, and `useChunks`, which is used nowhere. -/
structure Config where
  connectTimeout : Nat
  readTimeout : Nat
  writeTimeout : Nat
  keepAlive : Bool
  mode : Nat
  http10 : Bool
  version : Version
deriving DecidableEq, Repr

/-- `ON_SUPPORT_ON_KEEP_ALIVE` and the others (`src/frpcserverproxy.h:76`). -/
def onSupportOnKeepAlive : Nat := 0
@[inherit_doc onSupportOnKeepAlive] def onSupport : Nat := 1
@[inherit_doc onSupportOnKeepAlive] def always : Nat := 2
@[inherit_doc onSupportOnKeepAlive] def never : Nat := 3

/-- An open connection: its number and the bytes that have arrived and not been read. -/
structure Sock where
  id : Nat
  unread : Bytes
deriving DecidableEq, Repr

/-- `ServerProxyImpl_t` (`src/frpcserverproxy.cc:190-198`). `supports` is `serverSupportedProtocols`: XML, binary. `keepAlive` and
`connectTimeout` are in the connector, the other timeouts in the `HTTPIO_t`. `made` counts the connections made so far. -/
structure Proxy where
  url : Url.Url
  cfg : Config
  supports : Bool × Bool
  version : Version
  sock : Option Sock
  once : List (Bytes × Bytes)
  permanent : List (Bytes × Bytes)
  made : Nat
deriving DecidableEq, Repr

/-- The constructor (`src/frpcserverproxy.cc:120-130`). -/
def new (url : Url.Url) (cfg : Config) : Proxy := ⟨url, cfg, (true, false), cfg.version, none, [], [], 0⟩

/-- The settings a cached proxy is given by `lookup` (`src/frpcserverproxy.cc:423-428`). -/
def adopt (cfg : Config) (p : Proxy) : Proxy :=
  { p with cfg := { p.cfg with readTimeout := cfg.readTimeout, writeTimeout := cfg.writeTimeout, mode := cfg.mode, http10 := cfg.http10,
                               version := cfg.version, connectTimeout := cfg.connectTimeout }, version := cfg.version }

/-- `createMarshaller` (`src/frpcserverproxy.cc:201-260`): is it binary? -/
def chooseBinary (p : Proxy) : Bool :=
  if p.cfg.mode = onSupport then p.supports.2
  else if p.cfg.mode = never then false
  else if p.cfg.mode = always then true
  else !(p.supports.1 || !p.cfg.keepAlive || p.sock.isSome)

/-- What happens on the connection in one call: what has arrived on the kept connection since the last call, whether the peer has
closed it, whether `poll` fails on it, whether a new one can be made, how sending goes, what the peer sends in reply to what was sent,
and how that arrives. -/
structure Turn where
  arrived : Bytes
  closed : Bool
  broken : Bool
  connect : Bool
  up : List SEv
  reply : Bytes → Bytes
  back : List Ev

/-- `connectSocket` (`src/frpcconnector.cc:252-323`, the same in `364-426` and `438-500`) with `closeSocketIfPeerClosed`
(`src/frpcconnector.cc:184-219`): a kept connection is used again unless the peer has closed it and everything was read. On an exception
the socket is closed, there or in `sendRequest`. -/
def connectSocket (p : Proxy) (t : Turn) : Option Sock × Nat :=
  let fresh : Option Sock × Nat := if t.connect then (some ⟨p.made, []⟩, p.made + 1) else (none, p.made)
  match p.sock with
  | none => fresh
  | some s =>
    if p.cfg.keepAlive = false then fresh
    else if t.broken then fresh
    else if s.unread ++ t.arrived = [] ∧ t.closed = true then fresh
    else (some ⟨s.id, s.unread ++ t.arrived⟩, p.made)

/-- What the unmarshallers make of a response: do they throw, on a piece or at the end, and its protocol version. -/
structure Codec where
  feed : HttpServer.Kind → List Bytes → Option Err
  finish : HttpServer.Kind → List Bytes → Option Err
  version : HttpServer.Kind → List Bytes → Version

/-- The marshalling of a call (`src/frpcserverproxy.cc:489-511`): the pieces written, and the exception. The constructors refuse
versions they do not know (`src/frpcbinmarshaller.cc:130-136`, in `XmlMarshaller.run` for XML). -/
def packCall (strOk : Bytes → Bool) (dbl : BitVec 64 → Bytes) (binary : Bool) (ver : Version) (name : Bytes) (args : List Value) : List Bytes × Option Err :=
  if binary then
    if BinMarshaller.accepts ver then BinMarshaller.run strOk ver (.packMethodCall name :: feedItems args) else ([], some .other)
  else XmlMarshaller.run dbl ver (.packMethodCall name :: feedItems args)

/-- The surroundings of a proxy. -/
structure Env where
  strOk : Bytes → Bool
  dbl : BitVec 64 → Bytes
  codec : Codec

/-- What a call comes to: the response that was read, or an exception of the marshaller, of the connector, while sending, while
reading. -/
inductive Result where
  | response (r : Response)
  | packing (e : Err)
  | notConnected
  | sending (e : SErr)
  | reading (e : RespErr)

/-- What was sent in a call: the number of the connection and the bytes. -/
abbrev Sent := Option (Nat × Bytes)

/-- The header of the request of the proxy. -/
def clientOf (p : Proxy) : ClientCfg := clientFor p.url p.cfg.http10 (chooseBinary p) p.cfg.keepAlive false (p.permanent ++ p.once)

/-- The rest of a call after connecting: sending, reading (`src/frpchttpclient.cc:349-395,168-276`, `src/frpcserverproxy.cc:500-514`).
A `ResponseError_t` while sending is swallowed, and the connection is closed after the response. -/
def exchange (env : Env) (p : Proxy) (s : Sock) (ws : List Bytes) (c : ClientCfg) (t : Turn) : Result × Proxy × Sent :=
  let m := message (clientConf c) ws (.init ⟨t.up, []⟩)
  let sent := m.2.wire.sent
  let early := decide (m.1 = .error .response)
  match m.1 with
  | .error .timeout => (.sending .timeout, { p with sock := none }, some (s.id, sent))
  | .error .syscall => (.sending .syscall, { p with sock := none }, some (s.id, sent))
  | .error .fuel => (.sending .fuel, { p with sock := none }, some (s.id, sent))
  | _ =>
    match readResponse (-1, -1) env.codec.feed env.codec.finish p.cfg.keepAlive ⟨s.unread ++ t.reply sent, t.back, []⟩ with
    | (.error e, _) => (.reading e, { p with sock := none }, some (s.id, sent))
    | (.ok r, conn) =>
      (.response r,
       { p with sock := if r.close || early then none else some ⟨s.id, conn.data⟩,
                supports := r.accepts.getD (true, false), version := env.codec.version r.kind r.body },
       some (s.id, sent))

/-- `ServerProxyImpl_t::call` (`src/frpcserverproxy.cc:483-546`). The HTTP client is constructed without chunks
(`src/frpchttpclient.cc:107-116`), so nothing is sent before everything is marshalled. -/
def call (env : Env) (p : Proxy) (name : Bytes) (args : List Value) (t : Turn) : Result × Proxy × Sent :=
  let c := clientOf p
  let p1 := { p with once := [] }
  match packCall env.strOk env.dbl (chooseBinary p) p.version name args with
  | (_, some e) => (.packing e, p1, none)
  | (ws, none) =>
    match connectSocket p t with
    | (none, made) => (.notConnected, { p1 with sock := none, made := made }, none)
    | (some s, made) => exchange env { p1 with made := made } s ws c t

/-- What a user does with a proxy. -/
inductive Op where
  | call (name : Bytes) (args : List Value) (t : Turn)
  | addOnce (f : Bytes × Bytes)
  | addPermanent (f : Bytes × Bytes)
  | deleteHeaders
  | forwardedFor (addr : Bytes)
  | setTimeouts (connect read write : Nat)

/-- One step (`src/frpcserverproxy.cc:548-575,690-727`); a call gives its result and what it sent. -/
def step (env : Env) (p : Proxy) : Op → Option (Result × Sent) × Proxy
  | .call name args t => let r := call env p name args t; (some (r.1, r.2.2), r.2.1)
  | .addOnce f => (none, { p with once := p.once ++ [f] })
  | .addPermanent f => (none, { p with permanent := p.permanent ++ [f] })
  | .deleteHeaders => (none, { p with once := [], permanent := [] })
  | .forwardedFor a => (none, { p with once := p.once ++ [(asc "X-Forwarded-For", a)] })
  | .setTimeouts c r w => (none, { p with cfg := { p.cfg with connectTimeout := c, readTimeout := r, writeTimeout := w } })

/-- The state after some steps. -/
def after (env : Env) (p : Proxy) : List Op → Proxy
  | [] => p
  | o :: os => after env (step env p o).2 os

/-- The results of the calls in a history. -/
def results (env : Env) (p : Proxy) : List Op → List (Result × Sent)
  | [] => []
  | o :: os => (step env p o).1.toList ++ results env (step env p o).2 os

/-! ## Through the cache -/

/-- `createImpl` (`src/frpcserverproxy.cc:455-466`). -/
def create (timeout : Int) (now pick : Nat) (url : Url.Url) (cfg : Config) (c : ProxyCache.Cache Proxy) : Proxy × ProxyCache.Cache Proxy :=
  if cfg.keepAlive then
    match ProxyCache.lookup timeout now pick url c with
    | (some p, c) => (adopt cfg p, c)
    | (none, c) => (new url cfg, c)
  else (new url cfg, c)

/-- The destructor of `ServerProxy_t` (`src/frpcserverproxy.cc:476-481`). -/
def destroy (timeout : Int) (now now' : Nat) (p : Proxy) (c : ProxyCache.Cache Proxy) : ProxyCache.Cache Proxy :=
  if p.cfg.keepAlive then ProxyCache.moveInto timeout now now' p.url p c else c

/-- A process: the proxies its users hold, each under a name, and the cache. -/
structure World where
  live : Nat → Option Proxy
  cache : ProxyCache.Cache Proxy

/-- Nothing has happened yet. -/
def World.start : World := ⟨fun _ => none, ProxyCache.empty⟩

/-- What the users of a process do: they create proxies, use them and destroy them. -/
inductive Act where
  | create (name now pick : Nat) (url : Url.Url) (cfg : Config)
  | use (name : Nat) (o : Op)
  | destroy (name now now' : Nat)

/-- One act. A name that is in use is not given to another proxy; acts on names not in use do nothing. -/
def act (env : Env) (timeout : Int) (w : World) : Act → World
  | .create name now pick url cfg =>
    match w.live name with
    | some _ => w
    | none =>
      let r := create timeout now pick url cfg w.cache
      ⟨fun n => if n = name then some r.1 else w.live n, r.2⟩
  | .use name o =>
    match w.live name with
    | some p => ⟨fun n => if n = name then some (step env p o).2 else w.live n, w.cache⟩
    | none => w
  | .destroy name now now' =>
    match w.live name with
    | some p => ⟨fun n => if n = name then none else w.live n, destroy timeout now now' p w.cache⟩
    | none => w

/-- The process after some acts. -/
def run (env : Env) (timeout : Int) (as : List Act) : World := as.foldl (act env timeout) World.start

end Proxy
end Frpc
