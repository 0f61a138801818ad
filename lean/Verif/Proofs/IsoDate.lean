import Verif.Model.IsoDate
import Verif.Spec.IsoDate
/-! # The position-based parser is the list reader -/
namespace Frpc
namespace IsoDate
open Spec

theorem rd_lt {d : Bytes} {i : Nat} {c : UInt8} {s : Bytes} (h : d.drop i = c :: s) : rd d i = .ok c ∧ i ≠ d.length ∧ d.drop (i + 1) = s := by
  have hlt : i < d.length := by
    rcases Nat.lt_or_ge i d.length with h1 | h1
    · exact h1
    · rw [List.drop_eq_nil_of_le h1] at h; cases h
  rw [List.drop_eq_getElem_cons hlt] at h
  cases h
  refine ⟨?_, by omega, rfl⟩
  unfold rd; simp [hlt]

/-- Position and rest of the text. -/
def At (d : Bytes) (i : Nat) (s : Bytes) : Prop := i ≤ d.length ∧ d.drop i = s

theorem At.nil {d i} (h : At d i []) : i = d.length := by
  have := List.drop_eq_nil_iff.1 h.2; have := h.1; omega

theorem At.cons {d i c s} (h : At d i (c :: s)) : rd d i = .ok c ∧ i ≠ d.length ∧ At d (i + 1) s := by
  obtain ⟨h1, h2, h3⟩ := rd_lt h.2
  exact ⟨h1, h2, by have := h.1; omega, h3⟩

theorem skipWhile_eq (p : UInt8 → Bool) (d : Bytes) : ∀ (s : Bytes) (f i : Nat), At d i s → s.length < f →
    ∃ j, skipWhile p d f i = .ok j ∧ At d j (s.dropWhile p) := by
  intro s
  induction s with
  | nil =>
    intro f i h hf
    obtain ⟨f, rfl⟩ : ∃ g, f = g + 1 := ⟨f - 1, by omega⟩
    exact ⟨i, by simp [skipWhile, h.nil], h⟩
  | cons c s ih =>
    intro f i h hf
    obtain ⟨f, rfl⟩ : ∃ g, f = g + 1 := ⟨f - 1, by omega⟩
    obtain ⟨h1, h2, h3⟩ := h.cons
    simp only [skipWhile, h2, if_false, h1, bind, Except.bind]
    by_cases hp : p c = true
    · simp only [hp, if_true, List.dropWhile_cons]
      exact ih f (i + 1) h3 (by simp at hf; omega)
    · simp only [hp, List.dropWhile_cons]
      exact ⟨i, rfl, h⟩

theorem digits_eq (d : Bytes) : ∀ (n : Nat) (s : Bytes) (i : Nat) (tmp : Bytes), At d i s →
    ∃ j, digits d n i tmp = .ok (tmp ++ (numeral n s).1, j) ∧ At d j (numeral n s).2 := by
  intro n
  induction n with
  | zero => intro s i tmp h; exact ⟨i, by simp [digits, numeral], by simpa [numeral] using h⟩
  | succ n ih =>
    intro s i tmp h
    cases s with
    | nil => exact ⟨i, by simp [digits, numeral, h.nil], by simpa [numeral] using h⟩
    | cons c s =>
      obtain ⟨h1, h2, h3⟩ := h.cons
      simp only [digits, h2, if_false, h1, bind, Except.bind]
      by_cases hp : isDigit c = true
      · obtain ⟨j, e, a⟩ := ih s (i + 1) (tmp ++ [c]) h3
        refine ⟨j, ?_, ?_⟩
        · simp only [hp, if_true, e]; simp [numeral, hp]
        · simpa [numeral, hp] using a
      · refine ⟨i, ?_, ?_⟩
        · simp [hp, numeral]
        · simpa [numeral, hp] using h

theorem skipOpt_eq (d : Bytes) (ch : UInt8) (s : Bytes) (i : Nat) (h : At d i s) :
    ∃ j, skipOpt d ch i = .ok j ∧ At d j (Spec.optional ch s) := by
  cases s with
  | nil => exact ⟨i, by simp [skipOpt, h.nil], h⟩
  | cons c s =>
    obtain ⟨h1, h2, h3⟩ := h.cons
    simp only [skipOpt, h2, if_false, h1, bind, Except.bind, pure, Except.pure]
    by_cases hc : c = ch
    · exact ⟨i + 1, by simp [hc], by simpa [Spec.optional, hc] using h3⟩
    · exact ⟨i, by simp [hc], by simpa [Spec.optional, hc] using h⟩

theorem At.len {d i s} (h : At d i s) : s.length < d.length + 1 := by
  rw [← h.2, List.length_drop]; omega

theorem finish_eq (d : Bytes) (s : Bytes) (i : Nat) (h : At d i s) (sign : UInt8) (hh m : Nat) :
    (do
      let i ← skipWhile isSpace d (d.length + 1) i
      if i ≠ d.length then return 0
      return ((hh * 60 + m : Nat) : Int) * (if sign = 43 then -60 else 60) : Except Err Int) =
    .ok (if s.dropWhile isSpace ≠ [] then 0 else ((hh * 60 + m : Nat) : Int) * (if sign = 43 then -60 else 60)) := by
  obtain ⟨j, e, a⟩ := skipWhile_eq isSpace d s (d.length + 1) i h h.len
  simp only [e, bind, Except.bind, pure, Except.pure]
  cases hs : s.dropWhile isSpace with
  | nil => rw [hs] at a; simp [a.nil]
  | cons x xs =>
    rw [hs] at a
    obtain ⟨_, a2, _⟩ := a.cons
    simp [a2]

theorem parseZone_eq (d : Bytes) (s : Bytes) (i : Nat) (h : At d i s) : parseZone d i = .ok (isoZone s) := by
  unfold parseZone
  cases s with
  | nil =>
    have hi := h.nil
    simp only [hi, if_true, pure_bind, isoZone]
    rw [if_neg (by decide), if_neg (by decide)]
    rw [finish_eq d [] d.length (hi ▸ h)]
    simp
  | cons c s =>
    obtain ⟨h1, h2, h3⟩ := h.cons
    simp only [h2, if_false, h1, isoZone]
    simp only [bind, Except.bind, pure, Except.pure]
    by_cases hz : c = 90 ∨ c = 122
    · have hn : ¬ (c = 43 ∨ c = 45) := by rcases hz with rfl | rfl <;> decide
      simp only [hz, if_true, hn, if_false]
      have := finish_eq d s (i + 1) h3 c 0 0
      simp only [bind, Except.bind, pure, Except.pure] at this
      rw [this]
      simp
    · simp only [hz, if_false]
      by_cases hs : c = 43 ∨ c = 45
      · simp only [hs, if_true]
        obtain ⟨j1, e1, a1⟩ := digits_eq d 2 s (i + 1) [] h3
        simp only [e1, List.nil_append]
        by_cases hh : (numeral 2 s).1 = []
        · simp [hh]
        · simp only [hh, if_false, false_or]
          obtain ⟨j2, e2, a2⟩ := skipOpt_eq d 58 _ j1 a1
          simp only [e2]
          obtain ⟨j3, e3, a3⟩ := digits_eq d 2 _ j2 [] a2
          simp only [e3, List.nil_append]
          by_cases hm : (numeral 2 (Spec.optional 58 (numeral 2 s).2)).1 = []
          · simp [hm]
          · simp only [hm, if_false, false_or]
            have := finish_eq d _ j3 a3 c (atoi (numeral 2 s).1) (atoi (numeral 2 (Spec.optional 58 (numeral 2 s).2)).1)
            simp only [bind, Except.bind, pure, Except.pure] at this
            rw [this]
      · simp only [hs, if_false]
        have := finish_eq d s (i + 1) h3 c 0 0
        simp only [bind, Except.bind, pure, Except.pure] at this
        rw [this]
        simp

theorem fraction_eq (d : Bytes) (s : Bytes) (i : Nat) (h : At d i s) :
    ∃ j, skipFraction d i = .ok j ∧ At d j (isoFraction s) := by
  unfold skipFraction
  cases s with
  | nil => exact ⟨i, by simp [h.nil], h⟩
  | cons c s =>
    obtain ⟨h1, h2, h3⟩ := h.cons
    simp only [h2, if_false, h1, bind, Except.bind]
    by_cases hc : c = 46
    · subst hc
      simp only [if_true]
      exact skipWhile_eq isDigit d s _ _ h3 h3.len
    · simp only [hc, if_false]
      refine ⟨i, rfl, ?_⟩
      have : isoFraction (c :: s) = c :: s := by
        unfold isoFraction
        split
        · next heq => cases heq; exact absurd rfl hc
        · rfl
      rw [this]; exact h

theorem parseTime_eq (d : Bytes) (s : Bytes) (i : Nat) (h : At d i s) : parseTime d i = .ok (isoTime s) := by
  unfold parseTime
  cases s with
  | nil => simp [h.nil, isoTime, pure, Except.pure]
  | cons c s =>
    obtain ⟨h1, h2, h3⟩ := h.cons
    simp only [h2, if_false, h1, isoTime, bind, Except.bind, pure, Except.pure]
    by_cases hc : c = 84 ∨ c = 116 ∨ c = 32
    · simp only [hc, not_true, if_false, if_true]
      obtain ⟨j1, e1, a1⟩ := digits_eq d 2 s (i + 1) [] h3
      simp only [e1, List.nil_append]
      by_cases hh : (numeral 2 s).1 = []
      · simp [hh]
      · simp only [hh, if_false]
        obtain ⟨j2, e2, a2⟩ := skipOpt_eq d 58 _ j1 a1
        simp only [e2]
        obtain ⟨j3, e3, a3⟩ := digits_eq d 2 _ j2 [] a2
        simp only [e3, List.nil_append]
        by_cases hm : (numeral 2 (Spec.optional 58 (numeral 2 s).2)).1 = []
        · simp [hm]
        · simp only [hm, if_false]
          obtain ⟨j4, e4, a4⟩ := skipOpt_eq d 58 _ j3 a3
          simp only [e4]
          obtain ⟨j5, e5, a5⟩ := digits_eq d 2 _ j4 [] a4
          simp only [e5, List.nil_append]
          by_cases hs : (numeral 2 (Spec.optional 58 (numeral 2 (Spec.optional 58 (numeral 2 s).2)).2)).1 = []
          · simp [hs]
          · simp only [hs, if_false]
            obtain ⟨j6, e6, a6⟩ := fraction_eq d _ j5 a5
            simp only [e6, parseZone_eq d _ j6 a6]
    · simp [hc]

theorem parse_eq (d : Bytes) : parse d = match isoDay d with
    | none => .error .stream
    | some (y, m, dd, s) =>
      let t := isoTime s
      .ok ⟨i16 (atoi y), i8 (atoi m), i8 (atoi dd), i8 t.1, i8 t.2.1, i8 t.2.2.1, t.2.2.2⟩ := by
  unfold parse isoDay
  have h0 : At d 0 d := ⟨by omega, rfl⟩
  obtain ⟨j0, e0, a0⟩ := skipWhile_eq isSpace d d (d.length + 1) 0 h0 h0.len
  simp only [e0, bind, Except.bind, throw, throwThe, MonadExceptOf.throw, pure, Except.pure]
  obtain ⟨j1, e1, a1⟩ := digits_eq d 4 _ j0 [] a0
  simp only [e1, List.nil_append]
  by_cases hy : (numeral 4 (d.dropWhile isSpace)).1 = []
  · simp [hy]
  · simp only [hy, if_false, false_or]
    obtain ⟨j2, e2, a2⟩ := skipOpt_eq d 45 _ j1 a1
    simp only [e2]
    obtain ⟨j3, e3, a3⟩ := digits_eq d 2 _ j2 [] a2
    simp only [e3, List.nil_append]
    by_cases hm : (numeral 2 (Spec.optional 45 (numeral 4 (d.dropWhile isSpace)).2)).1 = []
    · simp [hm]
    · simp only [hm, if_false, false_or]
      obtain ⟨j4, e4, a4⟩ := skipOpt_eq d 45 _ j3 a3
      simp only [e4]
      obtain ⟨j5, e5, a5⟩ := digits_eq d 2 _ j4 [] a4
      simp only [e5, List.nil_append]
      by_cases hd : (numeral 2 (Spec.optional 45 (numeral 2 (Spec.optional 45 (numeral 4 (d.dropWhile isSpace)).2)).2)).1 = []
      · simp [hd]
      · simp only [hd, if_false, parseTime_eq d _ j5 a5]

/-! ## Reading back what was written -/

theorem numeral_exact {n : Nat} {a b : Bytes} (ha : ∀ c ∈ a, isDigit c = true) (hl : a.length = n) : numeral n (a ++ b) = (a, b) := by
  subst hl
  unfold numeral
  have h1 : (a ++ b).take a.length = a := by simp
  have h2 : a.takeWhile isDigit = a := by
    have := List.takeWhile_append_of_pos (l₂ := []) ha
    simpa using this
  rw [h1, h2]; simp

theorem numeral_decPad {w n : Nat} {b : Bytes} (hw : 0 < w) (h : n < 10 ^ w) : numeral w (decPad w n ++ b) = (decPad w n, b) :=
  numeral_exact (decPad_digits w n) (decPad_length hw h)

theorem decPad_ne_nil {w n : Nat} : decPad w n ≠ [] := by
  unfold decPad; simp [dec_ne_nil]

theorem decIntPad_nat {w : Nat} {n : Int} (h : 0 ≤ n) : decIntPad w n = decPad w n.natAbs := by
  unfold decIntPad; rw [if_neg (by omega)]

theorem optional_digit {w n : Nat} {b : Bytes} {c : UInt8} (hc : isDigit c = false) : Spec.optional c (decPad w n ++ b) = decPad w n ++ b := by
  cases h : decPad w n with
  | nil => exact absurd h decPad_ne_nil
  | cons x xs =>
    have hx := decPad_digits w n x (by simp [h])
    simp only [List.cons_append, Spec.optional]
    rw [if_neg]
    rintro rfl; rw [hc] at hx; cases hx

theorem dropSpace_digit {w n : Nat} {b : Bytes} : (decPad w n ++ b).dropWhile isSpace = decPad w n ++ b := by
  cases h : decPad w n with
  | nil => exact absurd h decPad_ne_nil
  | cons x xs =>
    have hx := decPad_digits w n x (by simp [h])
    simp only [List.cons_append, List.dropWhile_cons]
    rw [if_neg]
    unfold isSpace isDigit at *
    simp only [decide_eq_true_eq] at hx
    simp only [Bool.or_eq_true, beq_iff_eq, decide_eq_true_eq, not_or]
    refine ⟨?_, by omega⟩
    rintro rfl
    simp at hx

theorem isoFraction_other {c : UInt8} {s : Bytes} (hc : c ≠ 46) : isoFraction (c :: s) = c :: s := by
  unfold isoFraction
  split
  · next heq => cases heq; exact absurd rfl hc
  · rfl

theorem i8_small {n : Nat} (h : n < 100) : i8 (n : Int) = n := by unfold i8; omega
theorem i16_small {n : Nat} (h : n < 10000) : i16 (n : Int) = n := by unfold i16; omega

theorem roundtrip (year month day hour minute sec : Nat) (tz : Int)
    (hy : year < 10000) (hmo : month < 100) (hd : day < 100) (hh : hour < 100) (hmi : minute < 100) (hs : sec < 100)
    (htz : tz.natAbs / 60 / 60 < 100) (hmin : tz % 60 = 0) :
    parse (format year month day hour minute sec tz) = .ok ⟨year, month, day, hour, minute, sec, tz⟩ := by
  have e1 : (cdiv (cdiv tz 60) 60).natAbs = tz.natAbs / 60 / 60 := by
    unfold cdiv; rw [Int.natAbs_tdiv, Int.natAbs_tdiv]; rfl
  have e2 : (cmod (cdiv tz 60) 60).natAbs = tz.natAbs / 60 % 60 := by
    unfold cmod cdiv; rw [Int.natAbs_tmod, Int.natAbs_tdiv]; rfl
  rw [parse_eq]
  unfold format
  simp only [decIntPad_nat (Int.natCast_nonneg _), Int.natAbs_natCast, e1, e2, List.append_assoc, List.cons_append, List.nil_append]
  generalize hsg : (if tz ≤ 0 then (43 : UInt8) else 45) = sg
  have hsg' : sg = 43 ∨ sg = 45 := by subst hsg; split <;> simp
  have hsgd : sg ≠ 46 := by rcases hsg' with rfl | rfl <;> decide
  unfold isoDay
  simp only [dropSpace_digit, numeral_decPad (w := 4) (by omega) (show year < 10 ^ 4 by omega),
    optional_digit (show isDigit 45 = false by decide),
    numeral_decPad (w := 2) (by omega) (show month < 10 ^ 2 by omega),
    numeral_decPad (w := 2) (by omega) (show day < 10 ^ 2 by omega), decPad_ne_nil, or_self, if_false]
  unfold isoTime
  simp only [true_or, if_true]
  simp only [numeral_decPad (w := 2) (by omega) (show hour < 10 ^ 2 by omega), Spec.optional, if_true,
    numeral_decPad (w := 2) (by omega) (show minute < 10 ^ 2 by omega),
    numeral_decPad (w := 2) (by omega) (show sec < 10 ^ 2 by omega), decPad_ne_nil, if_false, isoFraction_other hsgd]
  unfold isoZone
  simp only [hsg', if_true]
  have hlast : tz.natAbs / 60 % 60 < 10 ^ 2 := by omega
  have hz : numeral 2 (decPad 2 (tz.natAbs / 60 % 60)) = (decPad 2 (tz.natAbs / 60 % 60), []) := by
    have := numeral_decPad (w := 2) (n := tz.natAbs / 60 % 60) (b := []) (by omega) hlast
    simpa using this
  have ho : Spec.optional 58 (decPad 2 (tz.natAbs / 60 % 60)) = decPad 2 (tz.natAbs / 60 % 60) := by
    have := optional_digit (w := 2) (n := tz.natAbs / 60 % 60) (b := []) (show isDigit 58 = false by decide)
    simpa using this
  simp only [numeral_decPad (w := 2) (by omega) (show tz.natAbs / 60 / 60 < 10 ^ 2 by omega), ho, hz, decPad_ne_nil,
    List.dropWhile_nil, ne_eq, not_true, or_self, if_false, atoi_decPad, i8_small hmo, i8_small hd, i8_small hh, i8_small hmi, i8_small hs, i16_small hy]
  simp only [Except.ok.injEq, Fields.mk.injEq, true_and]
  subst hsg
  by_cases h0 : tz ≤ 0
  · simp only [h0, if_true]; omega
  · rw [if_neg h0, if_neg (by decide)]; omega

theorem numeral_digits (n : Nat) (s : Bytes) : (∀ c ∈ (numeral n s).1, isDigit c = true) ∧ (numeral n s).1.length ≤ n := by
  unfold numeral
  refine ⟨fun c hc => ?_, ?_⟩
  · have := List.all_takeWhile (p := isDigit) (l := s.take n); rw [List.all_eq_true] at this; exact this c hc
  · have h1 := (List.takeWhile_sublist (p := isDigit) (l := s.take n)).length_le
    simp at h1 ⊢; omega

theorem atoi_numeral (n : Nat) (s : Bytes) : atoi (numeral n s).1 < 10 ^ n := by
  obtain ⟨h1, h2⟩ := numeral_digits n s
  exact Nat.lt_of_lt_of_le (atoi_lt _ h1) (Nat.pow_le_pow_right (by omega) h2)

theorem isoZone_range (s : Bytes) : (isoZone s).natAbs ≤ (99 * 60 + 99) * 60 := by
  unfold isoZone
  cases s with
  | nil => simp
  | cons c s =>
    simp only
    by_cases h : c = 43 ∨ c = 45
    · simp only [h, if_true]
      split
      · simp
      · have h1 := atoi_numeral 2 s
        have h2 := atoi_numeral 2 (Spec.optional 58 (numeral 2 s).2)
        simp only [Nat.reducePow] at h1 h2
        split <;> omega
    · simp [h]

theorem isoTime_range (s : Bytes) : (isoTime s).1 < 100 ∧ (isoTime s).2.1 < 100 ∧ (isoTime s).2.2.1 < 100 ∧
    (isoTime s).2.2.2.natAbs ≤ (99 * 60 + 99) * 60 := by
  unfold isoTime
  cases s with
  | nil => simp
  | cons c s =>
    simp only
    have h1 := atoi_numeral 2 s
    have h2 := atoi_numeral 2 (Spec.optional 58 (numeral 2 s).2)
    have h3 := atoi_numeral 2 (Spec.optional 58 (numeral 2 (Spec.optional 58 (numeral 2 s).2)).2)
    simp only [Nat.reducePow] at h1 h2 h3
    split
    · split
      · simp
      · split
        · simp; exact h1
        · split
          · simp; exact ⟨h1, h2⟩
          · exact ⟨h1, h2, h3, isoZone_range _⟩
    · simp

end IsoDate
end Frpc
