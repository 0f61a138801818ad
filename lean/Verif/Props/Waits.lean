import Verif.Proofs.Waits
import Verif.Props.Proxy
import Verif.Props.HttpPeer
/-!
# Timeouts: C127
-/
namespace Frpc
open HttpIO HttpOut HttpServer Spec Spec.Http Spec.Proxy

/-- The time that some waits take together, if the `i`-th one takes `cost i`. -/
def waitTime (cost : Nat → Nat) : Nat → Nat
  | 0 => 0
  | n + 1 => waitTime cost n + cost n

namespace Waits

theorem waitTime_le (cost : Nat → Nat) (T : Nat) (h : ∀ i, cost i ≤ T) : ∀ n, waitTime cost n ≤ n * T
  | 0 => by simp [waitTime]
  | n + 1 => by
    have := waitTime_le cost T h n
    have := h n
    rw [waitTime, Nat.succ_mul]; omega

theorem waitTime_one : ∀ n, waitTime (fun _ => 1) n = n
  | 0 => rfl
  | n + 1 => by rw [waitTime, waitTime_one n]

theorem reading {s s' : Conn} (h : Final s s') :
    ∃ used, s.sched = used ++ s'.sched ∧ used.length ≤ (s.data.length - s'.data.length) + 1 ∧ (∀ e ∈ used.dropLast, ∃ k, e = .bytes k) ∧
      ∀ (T : Nat) (cost : Nat → Nat), (∀ i, cost i ≤ T) → waitTime cost used.length ≤ ((s.data.length - s'.data.length) + 1) * T := by
  obtain ⟨u, h1, h2, h3, -⟩ := h
  refine ⟨u, h1, by omega, h3, fun T cost hc => Nat.le_trans (waitTime_le cost T hc _) (Nat.mul_le_mul_right _ (by omega))⟩

end Waits

/-- **C127 (reading).** Whatever the peer sends and however it arrives: the client waits for a response at most once more than it gets bytes, each wait but the last one brings some bytes, so the
first wait that times out or fails is the last one; if a wait takes at most the timeout, the call takes at most the timeout for each byte and once more. The same for a server reading a request.
Missing: a bound by the timeout itself, see `C127_timeout_violated`. -/
theorem C127_reading_partial (s : Conn) :
    (∀ (limits : Int × Int) (feed finish : HttpServer.Kind → List Bytes → Option Err) (keepAlive : Bool) (r : Except RespErr Response) (s' : Conn),
      readResponse limits feed finish keepAlive s = (r, s') →
      ∃ used, s.sched = used ++ s'.sched ∧ used.length ≤ (s.data.length - s'.data.length) + 1 ∧ (∀ e ∈ used.dropLast, ∃ k, e = .bytes k) ∧
        ∀ (T : Nat) (cost : Nat → Nat), (∀ i, cost i ≤ T) → waitTime cost used.length ≤ ((s.data.length - s'.data.length) + 1) * T) ∧
    (∀ (env : HttpServer.Env) (srv : Srv) (r : Except ReqErr (Option Request)) (srv' : Srv) (s' : Conn),
      readRequest env srv s = (r, srv', s') →
      ∃ used, s.sched = used ++ s'.sched ∧ used.length ≤ (s.data.length - s'.data.length) + 1 ∧ (∀ e ∈ used.dropLast, ∃ k, e = .bytes k) ∧
        ∀ (T : Nat) (cost : Nat → Nat), (∀ i, cost i ≤ T) → waitTime cost used.length ≤ ((s.data.length - s'.data.length) + 1) * T) := by
  constructor
  · intro limits feed finish keepAlive r s' h
    have := Waits.readResponse limits feed finish keepAlive s
    rw [h] at this
    exact Waits.reading this
  · intro env srv r srv' s' h
    have := Waits.readRequest env srv s
    rw [h] at this
    exact Waits.reading this

/-- **C127 (sending).** However the network takes the bytes of a message of the client or of the server: each wait but the last one sends some bytes, or finds that none can be sent; so the first
one that times out or fails is the last one, and there are not more waits than bytes sent, empty sends and one. -/
theorem C127_sending_partial (c : HttpOut.Conf) (ds : List Bytes) (sched : List SEv) (r : Except SErr Unit) (w' : Writer) (h : message c ds (.init ⟨sched, []⟩) = (r, w')) :
    ∃ used, sched = used ++ w'.wire.sched ∧ used.length ≤ w'.wire.sent.length + used.countP (fun e => e.act = .zero) + 1 ∧
      (∀ e ∈ used.dropLast, e.act = .zero ∨ ∃ k, e.act = .sent k) ∧
      ((∀ e ∈ used, e.act ≠ .zero) → ∀ (T : Nat) (cost : Nat → Nat), (∀ i, cost i ≤ T) → waitTime cost used.length ≤ (w'.wire.sent.length + 1) * T) := by
  have := Waits.message c ds (.init ⟨sched, []⟩)
  rw [h] at this
  obtain ⟨u, h1, h2, h3⟩ := this
  simp only [Writer.init, List.length_nil, Nat.add_zero] at h1 h2 h3
  refine ⟨u, h1, h2, h3, fun h4 T cost hc => ?_⟩
  have : u.countP (fun e => e.act = .zero) = 0 := by
    rw [List.countP_eq_zero]
    intro e he
    simpa using h4 e he
  exact Nat.le_trans (Waits.waitTime_le cost T hc _) (Nat.mul_le_mul_right _ (by omega))

namespace Waits

/-- A response that arrives byte by byte. -/
theorem trickle (limits : Int × Int) (feed finish : HttpServer.Kind → List Bytes → Option Err) (keepAlive : Bool) (d : Reply) (hd : d.Ok) (h200 : d.status = 200)
    (hline : limits.1 < 0 ∨ (d.reason.length + 15 : Int) ≤ limits.1) (hfit : limits.2 < 0 ∨ (d.data.length : Int) ≤ limits.2 ∧ limits.2 < 2 ^ 31)
    (kind : HttpServer.Kind) (hkind : ResponseIn ((field (asc "Content-Type") d.fields).getD []) kind)
    (hfeed : ∀ l : List Bytes, (∀ p ∈ l, p ≠ []) → l.flatten <+: d.data → feed kind l = none)
    (hfinish : ∀ l : List Bytes, (∀ p ∈ l, p ≠ []) → l.flatten = d.data → finish kind l = none) (n : Nat) (hn : n ≤ d.text.length) :
    ∃ r s', HttpServer.readResponse limits feed finish keepAlive ⟨d.text, List.replicate n (.bytes 0), []⟩ = (.ok r, s') ∧ r.kind = kind ∧ r.body.flatten = d.data ∧ s'.sched = [] := by
  obtain ⟨r, s', g1, g2, g3, gne, g4, -⟩ := C74_any_response limits feed finish keepAlive d.blank d.http11 d.reason hd.reason.1 hd.reason.2.1 hd.reason.2.2 d.lines hd.lines d.fields hd.fields
    d.data d.body [] hd.framed hd.length hline hfit ⟨d.text, List.replicate n (.bytes 0), []⟩ (fun e he => ⟨0, List.eq_of_mem_replicate he⟩)
    (by show d.text = _; unfold Reply.text; rw [h200]; simp) kind hkind hfeed hfinish
  refine ⟨r, s', g1, g2, g3, ?_⟩
  have := Waits.readResponse limits feed finish keepAlive ⟨d.text, List.replicate n (.bytes 0), []⟩
  rw [g1] at this
  obtain ⟨u, h1, h2, h3, h4⟩ := this
  simp only at h1 h2 h4
  by_cases c : s'.sched = []
  · exact c
  · exfalso
    have hu : ∀ e ∈ u, e = .bytes 0 := fun e he => List.eq_of_mem_replicate (by rw [h1]; exact List.mem_append_left _ he)
    have h5 := h4 hu c
    rw [g4] at h5
    have h6 := congrArg List.length h1
    rw [List.length_replicate, List.length_append] at h6
    have : 0 < s'.sched.length := List.length_pos_iff.2 c
    simp at h5
    omega

end Waits

/-- **C127 is violated: timeouts do not bound a call.** Take any response that the client accepts. Whatever bound is set on the time of a call, the server can send this response, after some empty
lines, so that the client waits longer than that though each single wait brings a byte after one unit of time, and the call is successful. -/
theorem C127_timeout_violated (limits : Int × Int) (feed finish : HttpServer.Kind → List Bytes → Option Err) (keepAlive : Bool) (d : Reply) (hd : d.Ok) (h200 : d.status = 200)
    (hline : limits.1 < 0 ∨ (d.reason.length + 15 : Int) ≤ limits.1) (hfit : limits.2 < 0 ∨ (d.data.length : Int) ≤ limits.2 ∧ limits.2 < 2 ^ 31)
    (kind : HttpServer.Kind) (hkind : ResponseIn ((field (asc "Content-Type") d.fields).getD []) kind)
    (hfeed : ∀ l : List Bytes, (∀ p ∈ l, p ≠ []) → l.flatten <+: d.data → feed kind l = none)
    (hfinish : ∀ l : List Bytes, (∀ p ∈ l, p ≠ []) → l.flatten = d.data → finish kind l = none) (bound : Nat) :
    ∃ (blank : Nat) (used : List Ev) (r : Response) (s' : Conn), (∀ e ∈ used, e = .bytes 0) ∧ bound < waitTime (fun _ => 1) used.length ∧
      readResponse limits feed finish keepAlive ⟨({ d with blank := blank } : Reply).text, used, []⟩ = (.ok r, s') ∧ s'.sched = [] ∧ r.kind = kind ∧ r.body.flatten = d.data := by
  have hlen : bound + 1 ≤ ({ d with blank := bound + 1 } : Reply).text.length := by
    have : ∀ n, (List.replicate n crlf).flatten.length = 2 * n := by
      intro n
      rw [List.length_flatten]
      simp [crlf]; omega
    have := this (bound + 1)
    simp only [Reply.text, responseText, List.length_append] at *
    omega
  obtain ⟨r, s', h1, h2, h3, h4⟩ := Waits.trickle limits feed finish keepAlive { d with blank := bound + 1 } ⟨hd.status, hd.reason, hd.lines, hd.fields, hd.framed, hd.length⟩ h200 hline hfit
    kind hkind hfeed hfinish (bound + 1) hlen
  exact ⟨bound + 1, List.replicate (bound + 1) (.bytes 0), r, s', fun e he => List.eq_of_mem_replicate he, by rw [List.length_replicate, Waits.waitTime_one]; omega, h1, h4, h2, h3⟩

/-! ## Witnesses -/

/-- Three waits, the last one timing out: the reader has waited three times, and there it ends. -/
example : (readResponse (-1, -1) (fun _ _ => none) (fun _ _ => none) true ⟨asc "HTTP/1.1 200 OK", [.bytes 3, .bytes 20, .timeout, .bytes 5], []⟩).1 = .error (.io .timeout) ∧
    (readResponse (-1, -1) (fun _ _ => none) (fun _ _ => none) true ⟨asc "HTTP/1.1 200 OK", [.bytes 3, .bytes 20, .timeout, .bytes 5], []⟩).2.sched = [.bytes 5] := by decide +kernel

/-- A response after two empty lines, in six waits. -/
example : ((readResponse (-1, -1) (fun _ _ => none) (fun _ _ => none) true
      ⟨asc "\r\n\r\nHTTP/1.1 200 OK\r\nContent-Type: text/xml\r\nContent-Length: 3\r\n\r\nabc", List.replicate 6 (.bytes 0), []⟩).1.toOption.map (·.body.flatten)) = some (asc "abc") ∧
    (readResponse (-1, -1) (fun _ _ => none) (fun _ _ => none) true
      ⟨asc "\r\n\r\nHTTP/1.1 200 OK\r\nContent-Type: text/xml\r\nContent-Length: 3\r\n\r\nabc", List.replicate 6 (.bytes 0), []⟩).2.sched = [] := by decide +kernel

end Frpc
