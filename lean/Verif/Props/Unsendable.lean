import Verif.Props.Rpc
import Verif.Props.Web
import Verif.Props.PyRemote
/-!
# Results that cannot be sent: C72, C97 and C118 as stated are false
-/
namespace Frpc
open HttpIO HttpOut HttpServer Registry

/-- A registry with a method that returns null and counts its calls, and one that throws a protocol error. -/
def nullOps : List (Registry.Op Nat) :=
  [.method (asc "f") ⟨.user (fun st _ => (.ok .null, st + 1)), [], []⟩, .method (asc "add") ⟨.user (fun st _ => (.error (.protocol 404 (asc "gone")), st + 1)), [], []⟩]

/-- The caller of the first at protocol 2.0. -/
def nullCall : Rpc.Outcome × Nat × Srv × Version :=
  Rpc.remoteCall exampleSetup (Registry.built false false nullOps) 0 ⟨.binary, true, false, false⟩ ⟨2, 0⟩ (asc "f") [] ⟨[], [], [], []⟩

/-- Is it the failure? -/
def Rpc.Outcome.isFailed : Rpc.Outcome → Bool
  | .failed => true
  | _ => false

/-- **C72, as stated, is false.** A method returns null to a client of protocol 2.0: the local call gives null, and the remote one runs the method and fails, on a network
that delivers everything: the answer has the beginning of a response and then a whole fault in it (`C49_violated`). -/
theorem C72_violated :
    dispatch (Registry.built false false nullOps) 0 (asc "f") [] = (.ok .null, 1) ∧ nullCall.1 = .failed ∧ nullCall.2.1 = 1 ∧
      ¬ Spec.Registry.Local (Registry.built false false nullOps) 0 (asc "f") [] nullCall.1 nullCall.2.1 := by
  have h : nullCall.1 = .failed := by
    have : nullCall.1.isFailed = true := by decide +kernel
    revert this
    generalize nullCall.1 = o
    cases o <;> simp [Rpc.Outcome.isFailed]
  refine ⟨rfl, h, by decide +kernel, ?_⟩
  rw [h]
  intro hl
  cases hl

/-- **C97, as stated, is false.** A method throws a protocol error that is no `HTTPError_t`: nothing is sent, the exception leaves `serve`, and the request that the client
has sent after it on the same connection is not answered. The method has been run. -/
theorem C97_violated :
    webBinary.Ok webConf ∧ webForm.Ok webConf ∧
    let q := Web.serve webConf (Registry.built false true nullOps) ⟨0, ⟨.binary, true, false, false⟩, .null⟩ ⟨webBinary.post.text ++ webForm.post.text, [], []⟩ ⟨[], []⟩
    q.2 = .thrown ∧ q.1.wire.sent = [] ∧ q.1.live.st = 1 ∧ q.1.conn.data = webForm.post.text :=
  ⟨webBinary_ok, webForm_ok, by decide +kernel, by decide +kernel, by decide +kernel, by decide +kernel⟩

/-- The Python registry of the examples with a method that returns an integer of 70 bits. -/
def pyWideReg : PyServer.Reg Nat :=
  PyServer.built (PyServer.new Nat none none none true) [.method { name := .str (asc "f"), method := some (fun st _ => (.ok (.int (2 ^ 70)), st + 1)) }]

/-- What the caller of it gets. -/
def pyWideCall : PyProxy.Outcome × PyProxy.State Nat × PyRemote.State Nat :=
  PyRemote.remoteCall pyProxyConf pyWebConf pyWideReg ⟨Proxy.new exampleUrl exampleRemoteCfg, [], 0⟩ ⟨PyWeb.new 0, none, false⟩ (asc "f") [.int 1] quickNet

/-- Is it an object or a fault? -/
def PyProxy.Outcome.answered : PyProxy.Outcome → Bool
  | .value _ => true
  | .raised (.fault _ _) => true
  | _ => false

/-- **C118, as stated, is false.** A function returns an integer that the protocol cannot carry: the function is run, and on a network that delivers everything the caller gets neither
an object nor a fault. -/
theorem C118_violated :
    PyServer.dispatch pyWebConf.py pyWideReg ⟨0, false⟩ (asc "f") pyWebConf.client (.ok (.tuple [.int 1])) = (.obj (.int (2 ^ 70)), ⟨1, false⟩) ∧ pyWideCall.1.answered = false ∧ pyWideCall.2.2.live.world.user = 1 :=
  ⟨rfl, by decide +kernel, by decide +kernel⟩

end Frpc
