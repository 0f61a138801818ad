import Verif.Props.HttpMessages
/-!
# How much of a header is kept: C143
-/
namespace Frpc
open Spec HttpIO HttpOut HttpServer

/-- The bytes of the names and values of the fields kept. -/
def kept : HttpHeader.Fields → Nat
  | [] => 0
  | f :: fs => f.1.length + f.2.length + kept fs

namespace HttpIO

theorem kept_append (a b : HttpHeader.Fields) : kept (a ++ b) = kept a + kept b := by
  induction a with
  | nil => simp [kept]
  | cons f a ih => simp only [List.cons_append, kept, ih]; omega

theorem polishLoop_length (s : Bytes) : ∀ p, (HttpHeader.polishLoop p s).length = s.length := by
  induction s with
  | nil => intro p; rfl
  | cons c s ih => intro p; simp [HttpHeader.polishLoop, ih]

theorem stripCR_le (s : Bytes) : (stripCR s).length ≤ s.length := by
  unfold stripCR
  have := (List.dropWhile_suffix (l := s.reverse) (· == 13)).length_le
  simpa using this

theorem readLineLoop_le (cfg : Cfg) (check opt : Bool) : ∀ (f : Nat) (nb : Bool) (line : Bytes) (s : Conn) (l : Bytes) (s' : Conn),
    readLineLoop cfg check opt f nb line s = (.ok l, s') → l.length + s'.data.length ≤ line.length + s.data.length ∧ (l ≠ [] → l.length + s'.data.length + 1 ≤ line.length + s.data.length) := by
  intro f
  induction f with
  | zero => intro nb line s l s' h; simp [readLineLoop] at h
  | succ f ih =>
    intro nb line s l s' h
    unfold readLineLoop at h
    rcases poll_cases s with ⟨a, sc, h1, -, -⟩ | ⟨sc, h1, -⟩ | ⟨sc, h1, -⟩
    · rw [h1] at h
      simp only at h
      split at h
      · split at h
        · simp only [Prod.mk.injEq, Except.ok.injEq] at h
          obtain ⟨rfl, rfl⟩ := h
          simp
        · simp at h
      · split at h
        · next i hi =>
          split at h
          · simp at h
          · simp only [Prod.mk.injEq, Except.ok.injEq] at h
            obtain ⟨rfl, rfl⟩ := h
            rw [List.findIdx?_eq_some_iff_getElem] at hi
            obtain ⟨hl, -, -⟩ := hi
            have h2 := stripCR_le (line ++ (s.data.take (min a BUFF)).take i)
            simp only [List.length_append, List.length_take, List.length_drop] at h2 hl ⊢
            have : (stripCR (line ++ (s.data.take (min a BUFF)).take i)).length + (s.data.length - (i + 1)) + 1 ≤ line.length + s.data.length := by omega
            exact ⟨by omega, fun _ => this⟩
        · split at h
          · simp at h
          · have := ih _ _ _ _ _ h
            simp only [List.length_append, List.length_drop, List.length_take] at this
            constructor
            · omega
            · intro hne
              have := this.2 hne
              omega
    · rw [h1] at h
      simp only at h
      split at h
      · simp only [Prod.mk.injEq, Except.ok.injEq] at h
        obtain ⟨rfl, rfl⟩ := h
        simp
      · simp at h
    · rw [h1] at h
      simp at h

theorem dropWhile_le (p : UInt8 → Bool) (s : Bytes) : (s.dropWhile p).length ≤ s.length := (List.dropWhile_suffix p).length_le

theorem getHeaderValue_le {line name value : Bytes} (h : getHeaderValue line = some (name, value)) : name.length + value.length ≤ line.length := by
  cases line with
  | nil => simp [getHeaderValue] at h
  | cons c line =>
    unfold getHeaderValue at h
    by_cases hc : isSpace c = true
    · simp only [hc, if_true, Option.some.injEq, Prod.mk.injEq] at h
      obtain ⟨rfl, rfl⟩ := h
      have := dropWhile_le isSpace line
      simp only [List.dropWhile_cons, hc, if_true, List.length_append, List.length_cons, List.length_nil]
      omega
    · simp only [hc, Bool.false_eq_true, if_false] at h
      cases hi : (c :: line).findIdx? (· == 58) with
      | none => rw [hi] at h; simp at h
      | some idx =>
        rw [hi] at h
        rw [List.findIdx?_eq_some_iff_getElem] at hi
        obtain ⟨hl, -, -⟩ := hi
        simp only at h
        split at h
        · simp only [Option.some.injEq, Prod.mk.injEq] at h
          obtain ⟨rfl, rfl⟩ := h
          simp only [List.length_take, List.length_nil]
          omega
        · simp only [Option.some.injEq, Prod.mk.injEq] at h
          obtain ⟨rfl, rfl⟩ := h
          have h1 := dropWhile_le isSpace ((c :: line).drop (idx + 1))
          have h2 := dropWhile_le isSpace (((c :: line).drop (idx + 1)).dropWhile isSpace).reverse
          simp only [List.length_reverse, List.length_take, List.length_drop] at h1 h2 ⊢
          omega

theorem appendValue_kept {h h' : HttpHeader.Fields} {v : Bytes} (e : HttpHeader.appendValue h v = .ok h') : kept h' = kept h + v.length := by
  unfold HttpHeader.appendValue at e
  cases hl : h.getLast? with
  | none => rw [hl] at e; cases e
  | some p =>
    obtain ⟨n, w⟩ := p
    rw [hl] at e
    cases e
    have hd : h = h.dropLast ++ [(n, w)] := by
      rw [List.getLast?_eq_some_iff] at hl
      obtain ⟨ys, rfl⟩ := hl
      simp
    rw [kept_append]
    conv => rhs; rw [hd, kept_append]
    simp only [kept, List.length_append]
    omega

theorem readHeaderLoop_kept (cfg : Cfg) (opt : Bool) : ∀ (f : Nat) (nl : Bool) (h h' : HttpHeader.Fields) (s s' : Conn), readHeaderLoop cfg opt f nl h s = (.ok h', s') →
    kept h' + h'.length + s'.data.length ≤ kept h + h.length + s.data.length := by
  intro f
  induction f with
  | zero => intro nl h h' s s' e; simp [readHeaderLoop] at e
  | succ f ih =>
    intro nl h h' s s' e
    unfold readHeaderLoop at e
    cases hr : readLineOpt cfg false (nl && opt) s with
    | mk r s1 =>
      rw [hr] at e
      cases r with
      | error x => simp at e
      | ok line =>
        have hle := readLineLoop_le cfg false (nl && opt) _ _ _ _ _ _ hr
        simp only [List.length_nil, Nat.zero_add] at hle
        cases line with
        | nil =>
          simp only [Prod.mk.injEq, Except.ok.injEq] at e
          obtain ⟨rfl, rfl⟩ := e
          have := hle.1
          simp at this
          omega
        | cons c line =>
          have h2 := hle.2 (by simp)
          simp only at e
          cases hg : getHeaderValue (c :: line) with
          | none => rw [hg] at e; simp at e
          | some p =>
            obtain ⟨name, value⟩ := p
            rw [hg] at e
            have h3 := getHeaderValue_le hg
            simp only at e
            by_cases hn : name = []
            · rw [if_pos hn] at e
              cases ha : HttpHeader.appendValue h value with
              | error x => rw [ha] at e; simp at e
              | ok h1 =>
                rw [ha] at e
                have h4 := ih _ _ _ _ _ e
                have h5 := appendValue_kept ha
                have h6 : h1.length = h.length := by
                  unfold HttpHeader.appendValue at ha
                  cases hl : h.getLast? with
                  | none => rw [hl] at ha; cases ha
                  | some q =>
                    rw [hl] at ha
                    cases ha
                    rw [List.getLast?_eq_some_iff] at hl
                    obtain ⟨ys, rfl⟩ := hl
                    simp
                omega
            · rw [if_neg hn] at e
              have h4 := ih _ _ _ _ _ e
              have h5 : kept (HttpHeader.add h name value) = kept h + name.length + value.length := by
                unfold HttpHeader.add HttpHeader.polishName
                rw [kept_append]
                simp only [kept, polishLoop_length]
                omega
              have h6 : (HttpHeader.add h name value).length = h.length + 1 := by simp [HttpHeader.add]
              omega

end HttpIO

/-- **C143 (no more than was sent).** Whatever the peer sends, however it is split and whichever waits time out: a header that is read makes the reader keep no more bytes of names and values, together with
the number of fields, than the header took on the connection. -/
theorem C143_kept_partial (cfg : Cfg) (optional : Bool) (s s' : Conn) (h : HttpHeader.Fields) (e : readHeader cfg optional [] s = (.ok h, s')) :
    kept h + h.length + s'.data.length ≤ s.data.length := by
  have := readHeaderLoop_kept cfg optional _ _ _ _ _ _ e
  simpa [kept] using this

/-- **C143 is violated: there is no limit.** Whatever limits are set, a header with any number of fields, or with a field of any size, is accepted and kept, however the network splits it. -/
theorem C143_violated (cfg : Cfg) (n : Nat) :
    (∃ text : Bytes, ∀ s : Conn, Calm s.sched → s.data = text → ∃ h s', readHeader cfg false [] s = (.ok h, s') ∧ HttpHeader.get h (asc "X") 0 = some (List.replicate (n + 1) 97)) ∧
    ∃ text : Bytes, ∀ s : Conn, Calm s.sched → s.data = text → ∃ h s', readHeader cfg false [] s = (.ok h, s') ∧ HttpHeader.get h (asc "X") n = some (asc "a") := by
  have h97 : isSpace 97 = false := by decide
  have htrim : ∀ k, trim (List.replicate (k + 1) (97 : UInt8)) = List.replicate (k + 1) 97 := by
    intro k
    unfold trim
    have e : (List.replicate (k + 1) (97 : UInt8)).dropWhile isSpace = List.replicate (k + 1) 97 := by
      rw [List.replicate_succ, List.dropWhile_cons]; simp [h97]
    rw [e, List.reverse_replicate, e, List.reverse_replicate]
  constructor
  · refine ⟨blockText ([(asc "X", List.replicate (n + 1) (97 : UInt8))].map asLine) ++ [], fun s hc hd => ?_⟩
    obtain ⟨h, sc, -, h2, h3⟩ := readHeader_fields cfg [(asc "X", List.replicate (n + 1) (97 : UInt8))] (by
      intro f hf
      simp only [List.mem_cons, List.not_mem_nil, or_false] at hf
      subst hf
      refine ⟨by show asc "X" ≠ []; decide, by show ∀ c ∈ asc "X", isSpace c = false ∧ c ≠ 58; decide, ?_, ?_⟩
      · intro hm
        have := List.eq_of_mem_replicate hm
        revert this; decide
      · intro hm
        have := List.eq_of_mem_replicate (List.mem_of_getLast? hm)
        revert this; decide) s [] hc hd
    refine ⟨h, _, h2, ?_⟩
    rw [h3]
    simp only [List.map_cons, List.map_nil, htrim]
    rfl
  · refine ⟨blockText ((List.replicate (n + 1) (asc "X", asc "a")).map asLine) ++ [], fun s hc hd => ?_⟩
    obtain ⟨h, sc, -, h2, h3⟩ := readHeader_fields cfg (List.replicate (n + 1) (asc "X", asc "a")) (by
      intro f hf
      rw [List.eq_of_mem_replicate hf]
      unfold FieldOk
      decide) s [] hc hd
    refine ⟨h, _, h2, ?_⟩
    rw [h3]
    have e : ∀ k, fieldValues (asc "X") ((List.replicate k (asc "X", asc "a")).map (fun f => (f.1, trim f.2))) = List.replicate k (asc "a") := by
      intro k
      induction k with
      | zero => rfl
      | succ k ih =>
        rw [List.replicate_succ, List.map_cons, List.replicate_succ, ← ih]
        rfl
    rw [e]
    simp

example : (fun q => (q.1.toOption, q.2.data)) (readHeader ⟨4, 4, fun _ => none⟩ false [] ⟨asc "Name: a longer value\r\n more\r\n\r\nrest", [.bytes 2], []⟩) =
    (some [(asc "Name", asc "a longer value more")], asc "rest") := by decide +kernel

end Frpc
