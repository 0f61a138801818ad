import Verif.Model.Remote
import Verif.Model.PyRemote
/-!
# The two languages together

`fastrpc.ServerProxy` (`Model/PyProxy.lean`) against the C++ server (`Model/Remote.lean`), and the C++ proxy against a process that gives its connections to
`fastrpc.Server.serve` (`Model/PyRemote.lean`). Both sides are those of the other models; the network is as there.
-/
namespace Frpc
open HttpIO HttpOut HttpServer

namespace PyToCpp
open Python (Py)
open PyProxy (Outcome)

/-- `Proxy_t::operator()` (`python/fastrpcmodule.cc:2012-2230`) against `Server_t::serve` (`src/frpcserver.cc:97-180`). -/
def remoteCall {τ σ} (C : PyProxy.Conf τ) (S : Remote.Server) (r : Registry.Reg σ) (p : PyProxy.State τ) (x : Remote.State σ) (name : Bytes) (args : List Py) (net : Remote.Net) :
    Outcome × PyProxy.State τ × Remote.State σ :=
  let id := Remote.connection p.px x net
  let q := PyProxy.call C p name args (Remote.turnWith p.px x net (fun b => (Remote.turn S r x id b net.arrive net.down).1))
  (q.1, q.2.1, match q.2.2 with
    | some (_, b) => (Remote.turn S r x id b net.arrive net.down).2
    | none => x)

/-- One step of the user of the proxy, as in `PyRemote.step` (`python/fastrpcmodule.cc:1316-1325,1602-1660`). -/
def step {τ σ} (C : PyProxy.Conf τ) (S : Remote.Server) (r : Registry.Reg σ) (p : PyProxy.State τ) (x : Remote.State σ) : PyRemote.Step → List Outcome × PyProxy.State τ × Remote.State σ
  | .call name args headers net =>
    let h := PyProxy.feedHeaders headers p.px.once
    let y := { p with px := { p.px with once := h.2 } }
    if h.1 then
      let q := remoteCall C S r y x name args net
      ([q.1], q.2)
    else ([.raised .type], y, x)
  | .close => ([], { p with px := { p.px with sock := none } }, x)

/-- A session: what the calls come to. -/
def session {τ σ} (C : PyProxy.Conf τ) (S : Remote.Server) (r : Registry.Reg σ) (p : PyProxy.State τ) (x : Remote.State σ) :
    List PyRemote.Step → List Outcome × PyProxy.State τ × Remote.State σ
  | [] => ([], p, x)
  | s :: ss =>
    let q := step C S r p x s
    let t := session C S r q.2.1 q.2.2 ss
    (q.1 ++ t.1, t.2)

end PyToCpp

namespace CppToPy

/-- `ServerProxyImpl_t::call` (`src/frpcserverproxy.cc:515-546`) against `serve` of the Python server (`python/pythonserver.cc:738-924`). -/
def remoteCall {σ} (C : Remote.Client) (S : PyWeb.Conf σ) (r : PyServer.Reg σ) (p : Proxy.Proxy) (x : PyRemote.State σ) (name : Bytes) (args : List Value) (net : Remote.Net) :
    Rpc.Outcome × Proxy.Proxy × PyRemote.State σ :=
  let id := PyRemote.connection p x net
  let q := Proxy.call C.env p name args (PyRemote.turnWith p x net (fun b => (PyRemote.turn S r x id b net.arrive net.down).1))
  (Remote.outcome C q.1, q.2.1, match q.2.2 with
    | some (_, b) => (PyRemote.turn S r x id b net.arrive net.down).2
    | none => x)

/-- Steps one after another through one proxy, as in `Remote.session`. -/
def session {σ} (C : Remote.Client) (S : PyWeb.Conf σ) (r : PyServer.Reg σ) : Proxy.Proxy → PyRemote.State σ → List Remote.Step → List Rpc.Outcome × Proxy.Proxy × PyRemote.State σ
  | p, x, [] => ([], p, x)
  | p, x, .call name args net :: cs =>
    let y := remoteCall C S r p x name args net
    let q := session C S r y.2.1 y.2.2 cs
    (y.1 :: q.1, q.2)
  | p, x, .addOnce f :: cs => session C S r (Proxy.step C.env p (.addOnce f)).2 x cs
  | p, x, .addPermanent f :: cs => session C S r (Proxy.step C.env p (.addPermanent f)).2 x cs
  | p, x, .deleteHeaders :: cs => session C S r (Proxy.step C.env p .deleteHeaders).2 x cs

end CppToPy
end Frpc
