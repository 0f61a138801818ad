import Verif.Props.HttpInput
/-!
# Lines that come late: C44
-/
namespace Frpc
open Spec HttpIO

/-- **C44 is violated for lines that may be missing** (the request line that the server waits for, and the trailer of a body in chunks): when the peer pauses for the timeout within such a line, what has come of
it is consumed and dropped, and the reader says that there was no line. The rest of the line is then read as something else. -/
theorem C44_late_violated (cfg : Cfg) (before rest : Bytes) (hne : before ≠ []) (h10 : (10 : UInt8) ∉ before) (hlen : before.length ≤ BUFF) (check : Bool)
    (hfit : check = true → cfg.lineLimit < 0 ∨ (before.length : Int) ≤ cfg.lineLimit) (sc : List Ev) (out : List Bytes) :
    readLineOpt cfg check true ⟨before ++ rest, .bytes (before.length - 1) :: .timeout :: sc, out⟩ = (.ok [], ⟨rest, sc, out⟩) := by
  have hl : before.length ≠ 0 := fun h => hne (List.length_eq_zero_iff.1 h)
  have hk : min (before.length - 1 + 1) BUFF = before.length := by omega
  have htake : (before ++ rest).take before.length = before := by simp
  have hfind : before.findIdx? (· == 10) = none := by
    rw [List.findIdx?_eq_none_iff]
    intro x hx
    have : x ≠ 10 := fun e => h10 (e ▸ hx)
    simpa using this
  have hov : (check && over cfg.lineLimit (([] : Bytes).length + before.length)) = false := by
    cases check with
    | false => rfl
    | true =>
      unfold over
      rcases hfit rfl with h | h
      · have : ¬ 0 ≤ cfg.lineLimit := by omega
        simp [this]
      · simp only [List.length_nil, Nat.zero_add, Bool.true_and, Bool.and_eq_false_iff, decide_eq_false_iff_not]
        right
        omega
  have hdata : (before ++ rest).length + 1 = ((before ++ rest).length - 1 + 1) + 1 := by
    have : 0 < (before ++ rest).length := by rw [List.length_append]; omega
    omega
  unfold readLineOpt
  show readLineLoop cfg check true ((before ++ rest).length + 1) true [] _ = _
  rw [hdata, readLineLoop]
  simp only [poll, hk, htake, hne, if_false, hfind, hov, Bool.false_eq_true]
  rw [readLineLoop]
  simp [poll]

/-- So a body in chunks whose trailer is cut is a whole body; the rest of the trailer stays on the connection. -/
example : (fun q => (q.1.toOption, q.2.out.flatten, q.2.data)) (readChunkedContent ⟨-1, -1, fun _ => none⟩ [] ⟨asc "2\r\nab\r\n0\r\nX-Sum: 12\r\n\r\n", [.bytes 9, .bytes 9, .bytes 9, .bytes 9, .bytes 4, .timeout], []⟩) =
    (some [], asc "ab", asc ": 12\r\n\r\n") := by decide +kernel

end Frpc
