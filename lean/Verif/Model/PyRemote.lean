import Verif.Model.PyProxy
/-!
# The Python client and the Python server together

`fastrpc.ServerProxy` (`Model/PyProxy.lean`) against a process that accepts connections and gives them to `fastrpc.Server.serve` (`Model/PyWeb.lean`),
one after another; what `serve` raises is caught there.
-/
namespace Frpc
namespace PyRemote
open HttpIO HttpOut HttpServer
open PyServer (Reg)
open Python (Py)
open PyProxy (Outcome)

/-- What the server knows: what stays between requests; the last connection it was given, and the requests it has served on it (`none`: it has closed it); whether the process has
ended. -/
structure State (σ : Type) where
  live : PyWeb.Live σ
  last : Option (Nat × Option Nat)
  dead : Bool

/-- How many requests it has served on the connection; `none`: it has closed it. -/
def State.served {σ} (x : State σ) (id : Nat) : Option Nat :=
  match x.last with
  | some (i, c) => if i = id then c else some 0
  | none => some 0

/-- The client has closed a connection on which `serve` waits for a request: a turn of the loop that reads nothing (`python/pythonserver.cc:765-813`). -/
def hangUp {σ} (S : PyWeb.Conf σ) (r : Reg σ) (x : PyWeb.Live σ) : PyWeb.Live σ := (PyWeb.turn S r ⟨x, ⟨[], [], []⟩, ⟨[], []⟩⟩).1.live

/-- Before the first request on a connection: `serve` on the one before ends, and starts again (`python/pythonserver.cc:738-750`). -/
def ready {σ} (S : PyWeb.Conf σ) (r : Reg σ) (x : State σ) (id : Nat) : PyWeb.Live σ :=
  match x.last with
  | some (i, c) =>
    if i = id then x.live
    else
      let l := if c.isSome then hangUp S r x.live else x.live
      { l with srv := { l.srv with close := false, head := false } }
  | none => { x.live with srv := { x.live.srv with close := false, head := false } }

/-- What becomes of the connection and the process after a turn (`python/pythonserver.cc:919-924`). -/
def afterTurn {σ} (S : PyWeb.Conf σ) (id n : Nat) : PyWeb.At σ × PyWeb.Next → Bytes × State σ
  | (a, .again counted) =>
    (a.wire.sent, ⟨a.live, some (id, if PyWeb.stop S a.live.srv (if counted then n + 1 else n) then none else some (if counted then n + 1 else n)), false⟩)
  | (a, .stop e) => (a.wire.sent, ⟨a.live, some (id, none), decide (e = .terminate ∨ e = .crash)⟩)

/-- One turn of the loop of `serve` (`python/pythonserver.cc:765-921`) on the bytes that came on connection `id`. Nothing is sent on a closed connection. -/
def turn {σ} (S : PyWeb.Conf σ) (r : Reg σ) (x : State σ) (id : Nat) (got : Bytes) (arrive : List Ev) (down : List SEv) : Bytes × State σ :=
  match x.served id with
  | none => ([], x)
  | some n => afterTurn S id n (PyWeb.turn S r ⟨ready S r x id, ⟨got, arrive, []⟩, ⟨down, []⟩⟩)

/-- Has the server closed the connection that the proxy keeps? -/
def goneBy {σ} (p : Proxy.Proxy) (x : State σ) : Bool :=
  match p.sock with
  | some s => (x.served s.id).isNone
  | none => false

/-- What happens on the connection, with a given answer of the peer; `net` as in `Model/Remote.lean`. -/
def turnWith {σ} (p : Proxy.Proxy) (x : State σ) (net : Remote.Net) (reply : Bytes → Bytes) : Proxy.Turn :=
  ⟨[], net.lost || (!net.late && goneBy p x), net.broken, !x.dead, net.up, reply, net.back⟩

/-- The number of the connection that the call will use; it does not depend on the answer. -/
def connection {σ} (p : Proxy.Proxy) (x : State σ) (net : Remote.Net) : Nat :=
  match Proxy.connectSocket p (turnWith p x net (fun b => b)) with
  | (some s, _) => s.id
  | (none, _) => 0

/-- What the user of the proxy does: a call, with header fields for it; closing the connection. -/
inductive Step where
  | call (name : Bytes) (args : List Py) (headers : List PyProxy.Given) (net : Remote.Net)
  | close

/-- `Proxy_t::operator()` (`python/fastrpcmodule.cc:2012-2230`) against such a server. -/
def remoteCall {τ σ} (C : PyProxy.Conf τ) (S : PyWeb.Conf σ) (r : Reg σ) (p : PyProxy.State τ) (x : State σ) (name : Bytes) (args : List Py) (net : Remote.Net) :
    Outcome × PyProxy.State τ × State σ :=
  let id := connection p.px x net
  let q := PyProxy.call C p name args (turnWith p.px x net (fun b => (turn S r x id b net.arrive net.down).1))
  (q.1, q.2.1, match q.2.2 with
    | some (_, b) => (turn S r x id b net.arrive net.down).2
    | none => x)

/-- One step of the user, as in `PyProxy.step` (`python/fastrpcmodule.cc:1316-1325,1602-1660`). -/
def step {τ σ} (C : PyProxy.Conf τ) (S : PyWeb.Conf σ) (r : Reg σ) (p : PyProxy.State τ) (x : State σ) : Step → List Outcome × PyProxy.State τ × State σ
  | .call name args headers net =>
    let h := PyProxy.feedHeaders headers p.px.once
    let y := { p with px := { p.px with once := h.2 } }
    if h.1 then
      let q := remoteCall C S r y x name args net
      ([q.1], q.2)
    else ([.raised .type], y, x)
  | .close => ([], { p with px := { p.px with sock := none } }, x)

/-- A session: what the calls come to. -/
def session {τ σ} (C : PyProxy.Conf τ) (S : PyWeb.Conf σ) (r : Reg σ) (p : PyProxy.State τ) (x : State σ) : List Step → List Outcome × PyProxy.State τ × State σ
  | [] => ([], p, x)
  | s :: ss =>
    let q := step C S r p x s
    let t := session C S r q.2.1 q.2.2 ss
    (q.1 ++ t.1, t.2)

end PyRemote
end Frpc
