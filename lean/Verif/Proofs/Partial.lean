import Verif.Proofs.Trace
/-! # `unMarshallKnown` -/
namespace Frpc
namespace BinUnMarshaller
variable {β : Type} {B : Builder β} {req : Req} {stop : Bool}

/-- Type codes a value may start with. -/
def knownTag (b : UInt8) : Bool :=
  b.toNat >>> 3 ∈ [T_BOOL, T_NULL, T_INT, T_INTN8, T_INTP8, T_DOUBLE, T_DATETIME, T_STRING, T_BINARY, T_ARRAY, T_STRUCT]

theorem valueTag_stop (c : Core) (b : UInt8) :
    valueTag true c b = if knownTag b then valueTag false c b else .ok none := by
  unfold knownTag valueTag
  by_cases h1 : b.toNat >>> 3 = T_BOOL
  · simp [h1]
  by_cases h2 : b.toNat >>> 3 = T_NULL
  · simp [h2]
  by_cases h3 : b.toNat >>> 3 = T_INT
  · simp [h3]
  by_cases h4 : b.toNat >>> 3 = T_INTN8
  · simp [h4]
  by_cases h5 : b.toNat >>> 3 = T_INTP8
  · simp [h5]
  by_cases h6 : b.toNat >>> 3 = T_DOUBLE
  · simp [h6]
  by_cases h7 : b.toNat >>> 3 = T_DATETIME
  · simp [h7]
  by_cases h8 : b.toNat >>> 3 = T_STRING
  · simp [h8]
  by_cases h9 : b.toNat >>> 3 = T_BINARY
  · simp [h9]
  by_cases h10 : b.toNat >>> 3 = T_ARRAY
  · simp [h10]
  by_cases h11 : b.toNat >>> 3 = T_STRUCT
  · simp [h11]
  simp [h1, h2, h3, h4, h5, h6, h7, h8, h9, h10, h11]

theorem step_stop {c : Core} {d : Bytes} {r} (h : step req true c d = .ok (some r)) :
    step req false c d = .ok (some r) := by
  unfold step at h ⊢
  cases hst : c.st with
  | valueType =>
    rw [hst] at h
    cases hr : rd d 0 with
    | error x => rw [hr] at h; simp [bind, Except.bind] at h
    | ok b =>
      simp only [hr, bind, Except.bind] at h ⊢
      split
      · rename_i hi; rw [if_pos hi] at h; exact h
      · rename_i hi; rw [if_neg hi, valueTag_stop] at h
        split at h
        · exact h
        · cases h
  | realValueType =>
    rw [hst] at h
    cases hr : rd d 0 with
    | error x => rw [hr] at h; simp [bind, Except.bind] at h
    | ok b =>
      simp only [hr, bind, Except.bind] at h ⊢
      rw [valueTag_stop] at h
      split at h
      · exact h
      · cases h
  | _ => rw [hst] at h; exact h

theorem step_none_tag {c : Core} {p : Bytes} (hok : Ok c) (hw : c.wanted ≤ p.length)
    (h : step req true c (p.take c.wanted) = .ok none) : ∃ b q, p = b :: q ∧ knownTag b = false := by
  have h1 := (step_none h).2
  have hw1 : c.wanted = 1 := by
    have := hok.wanted
    rcases h1 with h1 | h1
    · rw [h1.1] at this; exact this
    · rw [h1] at this; exact this
  rw [hw1] at h hw
  match p, hw with
  | b :: q, _ =>
    refine ⟨b, q, rfl, ?_⟩
    unfold step at h
    rcases h1 with ⟨h1, h2⟩ | h1
    · rw [h1] at h
      simp only [List.take_succ_cons, List.take_zero, rd, List.getElem?_cons_zero, bind, Except.bind, h2] at h
      simp only [Bool.false_eq_true, if_false] at h
      rw [valueTag_stop] at h
      split at h
      · exact absurd h valueTag_not_none
      · rename_i hk; simpa using hk
    · rw [h1] at h
      simp only [List.take_succ_cons, List.take_zero, rd, List.getElem?_cons_zero, bind, Except.bind] at h
      rw [valueTag_stop] at h
      split at h
      · exact absurd h valueTag_not_none
      · rename_i hk; simpa using hk

theorem Steps.unstop {c p es c' p'} (h : Steps req true c p es c' p') : Steps req false c p es c' p' := by
  induction h with
  | refl => exact .refl
  | cons h hs hr ih => exact .cons h (step_stop hs) ih

/-- The bytes consumed suffice. -/
theorem Steps.prefix {c p es c' p'} (h : Steps req stop c p es c' p') :
    ∃ pre, p = pre ++ p' ∧ ∀ q, Steps req stop c (pre ++ q) es c' q := by
  induction h with
  | refl => exact ⟨[], rfl, fun _ => .refl⟩
  | @cons c p c1 es1 es2 c2 p2 h hs hr ih =>
    obtain ⟨pre, hp, hq⟩ := ih
    refine ⟨p.take c.wanted ++ pre, ?_, fun q => ?_⟩
    · rw [List.append_assoc, ← hp, List.take_append_drop]
    · refine .cons (c1 := c1) (es1 := es1) (es2 := es2) (by simp; omega) ?_ ?_
      · rw [List.append_assoc, List.take_left' (by simp; omega)]; exact hs
      · rw [List.append_assoc, List.drop_left' (by simp; omega)]; exact hq q

/-- More input after the end only matters from where the steps stopped. -/
theorem Steps.append {c p es c' p'} (h : Steps req stop c p es c' p') (q : Bytes) :
    Steps req stop c (p ++ q) es c' (p' ++ q) := by
  obtain ⟨pre, rfl, hq⟩ := h.prefix
  rw [List.append_assoc]; exact hq _

theorem loop_buf (fuel : Nat) (o : Obj) (inp : Bytes) (b : β) (k : Nat) :
    (loop B req stop fuel o inp b k).obj.buf = [] ∨ (loop B req stop fuel o inp b k).obj = o := by
  induction fuel generalizing o inp b k with
  | zero => exact .inr rfl
  | succ fuel ih =>
    unfold loop
    split
    · simp only
      split
      · exact .inr rfl
      · exact .inr rfl
      · split
        · exact .inr rfl
        · rename_i c' _ _ _ b' _
          rcases ih ⟨c', []⟩ (if o.buf = [] then inp.drop o.core.wanted else inp) b' (k + 1) with h | h
          · exact .inl h
          · rw [h]; exact .inl rfl
    · exact .inr rfl

theorem topUp_core (o : Obj) (inp : Bytes) : (topUp o inp).1.core = o.core := by
  unfold topUp; split <;> rfl

theorem known_eval {o : Obj} {b : β} {data : Bytes} (hr : Rest o) :
    ∃ c' p' b' x n, Eval B req true o.core (o.buf ++ data) b c' p' b' x n ∧
      unMarshallKnown B req o b data = match x with
        | .threw e => (⟨c', p'⟩, b', .error e)
        | .noFuel => (⟨c', p'⟩, b', .error .fuel)
        | _ => if c'.st = .valueType then (⟨c', []⟩, b', .ok (data.length - p'.length))
               else (⟨c', p'⟩, b', .ok data.length) := by
  have hl := loop_topUp (B := B) (req := req) (stop := true) (2 * (o.buf.length + data.length) + 2) o data b hr
  simp only at hl
  obtain ⟨c', p', b', x, n, h1, h2⟩ := loop_eval (B := B) (req := req) (stop := true)
    (2 * (o.buf.length + data.length) + 3) o.core (o.buf ++ data) b 0 hr.ok
    (by unfold pot; simp; split <;> omega)
  refine ⟨c', p', b', x, n, h2, ?_⟩
  unfold unMarshallKnown
  simp only [budget]
  rw [hl.1]
  obtain ⟨-, h3, h4, h5, h6, -, -⟩ := hl
  rw [h1] at h3 h4 h5 h6
  rw [show 2 * (o.buf.length + data.length) + 2 + 1 = 2 * (o.buf.length + data.length) + 3 from rfl] at h3 h4 h5 h6
  have hb := loop_buf (B := B) (req := req) (stop := true) (2 * (o.buf.length + data.length) + 3) (topUp o data).1 (topUp o data).2 b 0
  have htc := topUp_core o data
  generalize loop B req true (2 * (o.buf.length + data.length) + 3) (topUp o data).1 (topUp o data).2 b 0 = r at h3 h4 h5 h6 hb ⊢
  obtain ⟨⟨rc, rb⟩, ri, rbl, rx, rn⟩ := r
  simp only at h4 h5 h6 hb h3
  subst h4 h5 h6
  have hbuf : rc.st = .valueType → (rb = [] ∧ ri = p') := by
    intro hst
    have hb0 : rb = [] := by
      rcases hb with hb | hb
      · exact hb
      · -- no step was made: the object is `o` topped up, in a state wanting one byte
        have hc : rc = o.core := by rw [← htc, ← hb]
        have hw := hr.ok.wanted
        rw [← hc, hst] at hw
        have hs := hr.short
        simp only [WantedOk] at hw
        rw [← hc, hw] at hs
        have hob : o.buf = [] := List.eq_nil_of_length_eq_zero (by omega)
        have : rb = (topUp o data).1.buf := by rw [← hb]
        rw [this, topUp, if_pos hob, hob]
    subst hb0
    simp [park] at h3
    exact ⟨rfl, h3⟩
  simp only [park, List.nil_append, Obj.mk.injEq, true_and] at h3
  unfold knownTail
  cases rx with
  | threw e => simp only [park, h3]
  | noFuel => simp only [park, h3]
  | more =>
    by_cases hst : rc.st = .valueType
    · obtain ⟨rfl, rfl⟩ := hbuf hst
      simp [hst]
    · simp [hst, park, h3]
  | stopped =>
    by_cases hst : rc.st = .valueType
    · obtain ⟨rfl, rfl⟩ := hbuf hst
      simp [hst]
    · simp [hst, park, h3]

end BinUnMarshaller
end Frpc
