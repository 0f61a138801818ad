import Verif.Spec.Mbrtowc
import Verif.Proofs.XmlRead
/-! # `validateBytes` in a UTF-8 locale -/
namespace Frpc
namespace StringValid
open Spec

/-- A continuation byte. -/
def Cont (c : UInt8) : Prop := 0x80 ≤ c.toNat ∧ c.toNat ≤ 0xBF

theorem cont_of {c : UInt8} {v : Nat} (h : contByte c = some v) : Cont c := by
  unfold contByte at h
  unfold Cont
  grind

/-- The bytes of a character. -/
theorem codePoint_shape {c : UInt8} {s : Bytes} {n k : Nat} (h : codePoint (c :: s) = some (n, k)) :
    ∃ a b, s = a ++ b ∧ k = a.length + 1 ∧ k ≤ 4 ∧ ¬ Cont c ∧ (∀ x ∈ a, Cont x) ∧ (∀ r, codePoint (c :: (a ++ r)) = some (n, k)) := by
  simp only [codePoint] at h
  split at h
  · next h1 =>
    simp only [Option.some.injEq, Prod.mk.injEq] at h
    refine ⟨[], s, rfl, by simpa using h.2.symm, by omega, by unfold Cont; omega, by simp, ?_⟩
    intro r
    simp only [codePoint]
    rw [if_pos h1, h.1, h.2]
  · next h1 =>
    split at h
    · next h2 =>
      split at h
      · next b t =>
        split at h
        · next v hb =>
          split at h
          · next h3 =>
            simp only [Option.some.injEq, Prod.mk.injEq] at h
            refine ⟨[b], t, rfl, by simpa using h.2.symm, by omega, by unfold Cont; omega, by simpa using cont_of hb, ?_⟩
            intro r
            simp only [codePoint]
            rw [if_neg h1, if_pos h2]
            simp [hb, h.1, h.2]; omega
          · cases h
        · cases h
      · cases h
    · next h2 =>
      split at h
      · next h3 =>
        split at h
        · next b d t =>
          split at h
          · next v w hb hd =>
            split at h
            · next h4 =>
              simp only [Option.some.injEq, Prod.mk.injEq] at h
              refine ⟨[b, d], t, rfl, by simpa using h.2.symm, by omega, by unfold Cont; omega, by simpa using ⟨cont_of hb, cont_of hd⟩, ?_⟩
              intro r
              simp only [codePoint]
              rw [if_neg h1, if_neg h2, if_pos h3]
              simp [hb, hd, h.1, h.2]; omega
            · cases h
          · cases h
        · cases h
      · next h3 =>
        split at h
        · next h4 =>
          split at h
          · next b d e t =>
            split at h
            · next v w x hb hd he =>
              split at h
              · next h5 =>
                simp only [Option.some.injEq, Prod.mk.injEq] at h
                refine ⟨[b, d, e], t, rfl, by simpa using h.2.symm, by omega, by unfold Cont; omega, by simpa using ⟨cont_of hb, cont_of hd, cont_of he⟩, ?_⟩
                intro r
                simp only [codePoint]
                rw [if_neg h1, if_neg h2, if_neg h3, if_pos h4]
                simp [hb, hd, he, h.1, h.2]; omega
              · cases h
            · cases h
          · cases h
        · cases h

theorem charAt_shape {s : Bytes} {n k : Nat} (h : CharAt s n k) :
    ∃ c a b, s = c :: (a ++ b) ∧ k = a.length + 1 ∧ k ≤ 4 ∧ ¬ Cont c ∧ (∀ x ∈ a, Cont x) ∧ ∀ r, CharAt (c :: (a ++ r)) n k := by
  cases s with
  | nil => cases h.1
  | cons c s =>
    obtain ⟨a, b, rfl, h1, h2, h3, h4, h5⟩ := codePoint_shape h.1
    exact ⟨c, a, b, rfl, h1, h2, h3, h4, fun r => ⟨h5 r, h.2⟩⟩

theorem legal_iff (n : Nat) : legal n = isXmlChar n := by
  unfold legal isXmlChar
  rw [Bool.eq_iff_iff]
  simp only [Bool.not_eq_true', Bool.and_eq_false_imp, Bool.and_eq_true, bne_iff_ne, ne_eq, Bool.or_eq_true, Bool.or_eq_false_iff, decide_eq_true_eq, decide_eq_false_iff_not]
  omega

theorem scalar_of {n : Nat} (h : isXmlChar n = true) : Scalar n := by
  unfold isXmlChar at h
  unfold Scalar
  simp only [decide_eq_true_eq] at h
  omega

/-- A character is decided by what the loop gives to `mbrtowc`. -/
theorem charAt_take {s : Bytes} {n k : Nat} : CharAt (s.take 4) n k ↔ CharAt s n k := by
  constructor
  · intro h
    obtain ⟨c, a, b, h1, h2, h3, h4, h5, h6⟩ := charAt_shape h
    have := List.take_append_drop 4 s
    rw [h1] at this
    rw [← this]
    simpa using h6 (b ++ s.drop 4)
  · intro h
    obtain ⟨c, a, b, rfl, h2, h3, h4, h5, h6⟩ := charAt_shape h
    rw [List.take_succ_cons, List.take_append]
    rw [List.take_of_length_le (by omega)]
    exact h6 _

theorem charAt_append {s r : Bytes} {n k : Nat} (h : CharAt s n k) : CharAt (s ++ r) n k := by
  obtain ⟨c, a, b, rfl, h2, h3, h4, h5, h6⟩ := charAt_shape h
  simpa using h6 (b ++ r)

theorem charAt_unique {s : Bytes} {n k n' k' : Nat} (h : CharAt s n k) (h' : CharAt s n' k') : n = n' ∧ k = k' := by
  have := h.1.symm.trans h'.1
  simpa using this

theorem unfinished_shape {s : Bytes} (h : Unfinished s) : ∃ c a, s = c :: a ∧ ¬ Cont c ∧ (∀ x ∈ a, Cont x) ∧ s.length < 4 := by
  obtain ⟨h0, r, n, k, h1, h2⟩ := h
  obtain ⟨c, a, b, h3, h4, h5, h6, h7, h8⟩ := charAt_shape h1
  cases s with
  | nil => exact absurd rfl h0
  | cons d s =>
    simp only [List.cons_append, List.cons.injEq] at h3
    obtain ⟨rfl, h3⟩ := h3
    simp only [List.length_cons] at h2
    refine ⟨d, s, rfl, h6, ?_, by simp only [List.length_cons]; omega⟩
    intro x hx
    have h9 : s = a.take s.length := by
      have := congrArg (List.take s.length) h3
      rwa [List.take_left, List.take_append_of_le_length (by omega)] at this
    rw [h9] at hx
    exact h7 x (List.mem_of_mem_take hx)

/-- No text begins with a continuation byte. -/
theorem cont_charAt {c : UInt8} {s : Bytes} (h : Cont c) (n k : Nat) : ¬ CharAt (c :: s) n k := by
  intro hc
  obtain ⟨d, a, b, h1, -, -, h4, -⟩ := charAt_shape hc
  cases h1
  exact h4 h

theorem cont_unfinished {c : UInt8} {s : Bytes} (h : Cont c) : ¬ Unfinished (c :: s) := by
  intro hc
  obtain ⟨d, a, h1, h2, -⟩ := unfinished_shape hc
  cases h1
  exact h2 h

/-- Characters of XML. -/
def Chars (cs : List Bytes) : Prop := ∀ p ∈ cs, ∃ n, codePoint p = some (n, p.length) ∧ isXmlChar n = true

/-- Where the loop can be in front of something that is no character. -/
theorem position : ∀ (cs : List Bytes), Chars cs → ∀ (rest : Bytes) (i : Nat), i < cs.flatten.length →
    (∃ n k, CharAt ((cs.flatten ++ rest).drop i) n k ∧ isXmlChar n = true ∧ i + k ≤ cs.flatten.length) ∨ (1 ≤ i ∧ ∃ c s, (cs.flatten ++ rest).drop i = c :: s ∧ Cont c)
  | [], _, rest, i, h => by simp at h
  | p :: cs, hc, rest, i, h => by
    obtain ⟨n, h1, h2⟩ := hc p (by simp)
    have h3 : CharAt p n p.length := ⟨h1, scalar_of h2⟩
    simp only [List.flatten_cons, List.length_append, List.append_assoc] at h ⊢
    by_cases h0 : i = 0
    · subst h0
      exact .inl ⟨n, p.length, charAt_append h3, h2, by omega⟩
    · by_cases hp : i < p.length
      · right
        obtain ⟨c, a, b, h4, h5, h6, h7, h8, h9⟩ := charAt_shape h3
        have hb : b = [] := by
          have := congrArg List.length h4
          simp only [List.length_cons, List.length_append] at this
          exact List.eq_nil_of_length_eq_zero (by omega)
        subst hb
        refine ⟨by omega, ?_⟩
        rw [List.drop_append_of_le_length (by omega)]
        obtain ⟨j, rfl⟩ : ∃ j, i = j + 1 := ⟨i - 1, by omega⟩
        simp only [List.append_nil] at h4
        rw [h4, List.drop_succ_cons]
        have hj : j < a.length := by omega
        rw [List.drop_eq_getElem_cons hj]
        exact ⟨_, _, rfl, h8 _ (List.getElem_mem hj)⟩
      · obtain ⟨j, rfl⟩ : ∃ j, i = p.length + j := ⟨i - p.length, by omega⟩
        have := position cs (fun q hq => hc q (List.mem_cons_of_mem _ hq)) rest j (by omega)
        rw [List.drop_append, List.drop_of_length_le (by omega), List.nil_append, Nat.add_sub_cancel_left]
        rcases this with ⟨n, k, h4, h5, h6⟩ | ⟨h4, h5⟩
        · exact .inl ⟨n, k, h4, h5, by omega⟩
        · exact .inr ⟨by omega, h5⟩

/-- Every text is characters of XML and then something that does not begin with one. -/
theorem split_text : ∀ (m : Nat) (s : Bytes), s.length ≤ m → ∃ cs bad, s = List.flatten cs ++ bad ∧ Chars cs ∧ ∀ n k, CharAt bad n k → isXmlChar n = false
  | 0, s, h => by
    have : s = [] := List.eq_nil_of_length_eq_zero (by omega)
    subst this
    refine ⟨[], [], rfl, by simp [Chars], fun n k h => ?_⟩
    cases h.1
  | m + 1, s, h => by
    by_cases hc : ∃ n k, CharAt s n k ∧ isXmlChar n = true
    · obtain ⟨n, k, h1, h2⟩ := hc
      obtain ⟨c, a, b, rfl, h4, h5, h6, h7, h8⟩ := charAt_shape h1
      obtain ⟨cs, bad, h9, h10, h11⟩ := split_text m b (by simp only [List.length_cons, List.length_append] at h; omega)
      refine ⟨(c :: a) :: cs, bad, by simp [h9], ?_, h11⟩
      intro p hp
      rcases List.mem_cons.1 hp with rfl | hp
      · exact ⟨n, by have := (h8 []).1; simp only [List.append_nil] at this; rw [this]; simp [h4], h2⟩
      · exact h10 p hp
    · refine ⟨[], s, rfl, by simp [Chars], ?_⟩
      intro n k h1
      cases h2 : isXmlChar n with
      | false => rfl
      | true => exact absurd ⟨n, k, h1, h2⟩ hc

variable {mb : Mbrtowc}

theorem loop_char (hmb : Utf8Mb mb) {data : Bytes} {i n k : Nat} (h : CharAt (data.drop i) n k) (h2 : isXmlChar n = true) (fuel : Nat) (w : Option Nat) :
    loop mb data (fuel + 1) [] i w = loop mb data fuel [] (i + k) (some n) := by
  have hi : i < data.length := by
    obtain ⟨c, a, b, h1, -⟩ := charAt_shape h
    have := congrArg List.length h1
    simp only [List.length_drop, List.length_cons] at this
    omega
  have h0 : n ≠ 0 := by rintro rfl; revert h2; decide
  have hk : 0 < k := by
    obtain ⟨c, a, b, h1, h2, -⟩ := charAt_shape h
    omega
  conv => lhs; unfold loop
  rw [if_neg (by omega), hmb.char [] _ n k (by simpa using charAt_take.2 h) hk h0]
  simp only [legal_iff, h2, if_true, List.length_nil, Nat.sub_zero]

/-- The loop over characters. -/
theorem loop_chars (hmb : Utf8Mb mb) : ∀ (cs : List Bytes), Chars cs → ∀ (pre rest : Bytes) (fuel : Nat) (w : Option Nat), ∃ w',
    loop mb (pre ++ (cs.flatten ++ rest)) (fuel + cs.length) [] pre.length w = loop mb (pre ++ (cs.flatten ++ rest)) fuel [] (pre.length + cs.flatten.length) w'
  | [], _, pre, rest, fuel, w => ⟨w, rfl⟩
  | p :: cs, hc, pre, rest, fuel, w => by
    obtain ⟨n, h1, h2⟩ := hc p (by simp)
    have h3 : CharAt ((pre ++ ((p :: cs).flatten ++ rest)).drop pre.length) n p.length := by
      rw [List.drop_left]
      simp only [List.flatten_cons, List.append_assoc]
      exact charAt_append ⟨h1, scalar_of h2⟩
    rw [List.length_cons, ← Nat.add_assoc, loop_char hmb h3 h2]
    obtain ⟨w', h4⟩ := loop_chars hmb cs (fun q hq => hc q (List.mem_cons_of_mem _ hq)) (pre ++ p) rest fuel (some n)
    refine ⟨w', ?_⟩
    simp only [List.flatten_cons, List.append_assoc, List.length_append] at h4 ⊢
    rw [h4]
    congr 1
    omega

theorem chars_length : ∀ (cs : List Bytes), Chars cs → cs.length ≤ cs.flatten.length
  | [], _ => by simp
  | p :: cs, hc => by
    obtain ⟨n, h1, h2⟩ := hc p (by simp)
    have := chars_length cs (fun q hq => hc q (List.mem_cons_of_mem _ hq))
    have := Spec.Xml.codePoint_pos h1
    simp only [List.flatten_cons, List.length_append, List.length_cons]
    omega

/-- Once it is in front of something that is no character the loop never gets beyond. -/
theorem loop_bad (hmb : Utf8Mb mb) {cs : List Bytes} (hc : Chars cs) {bad : Bytes} (hb0 : bad ≠ []) (hb : ∀ n k, ¬ CharAt bad n k) : ∀ (fuel : Nat) (st : Bytes) (i : Nat) (w : Option Nat),
    i ≤ cs.flatten.length → (st = [] ∨ (st = bad ∧ Unfinished bad ∧ i + 2 ≤ cs.flatten.length)) → (∀ x, w = some x → isXmlChar x = true) → (w = none → i = 0 ∧ st = []) →
    loop mb (cs.flatten ++ bad) fuel st i w ≠ .ok () ∧ (¬ Unfinished bad → loop mb (cs.flatten ++ bad) fuel st i w ≠ .error .type)
  | 0, st, i, w, _, _, _, _ => by simp [loop]
  | fuel + 1, st, i, w, hi, hst, hw, hw0 => by
    have ih := loop_bad hmb hc hb0 hb fuel
    have hlen : (cs.flatten ++ bad).length = cs.flatten.length + bad.length := by simp
    have hbl : 0 < bad.length := List.length_pos_iff.2 hb0
    unfold loop
    rw [if_neg (by omega)]
    generalize hq : mb st (((cs.flatten ++ bad).drop i).take 4) = q
    -- back by some bytes
    have back : ∀ (st' : Bytes) (d : Nat), 1 ≤ d → (st' = [] ∨ (st' = bad ∧ Unfinished bad ∧ i - d + 2 ≤ cs.flatten.length)) →
        let res := (match w with
        | none => Except.error Err.ub
        | some w => if legal w then (if i < d then .error .ub else loop mb (cs.flatten ++ bad) fuel st' (i - d) (some w)) else .error .type)
        res ≠ .ok () ∧ (¬ Unfinished bad → res ≠ .error .type) := by
      intro st' d hd hs'
      cases w with
      | none => simp
      | some x =>
        simp only [legal_iff, hw x rfl, if_true]
        split
        · simp
        · exact ih st' (i - d) (some x) (by omega) hs' (fun y hy => hw y hy) (by simp)
    rcases hst with rfl | ⟨rfl, hu, hi2⟩
    · by_cases hib : i < cs.flatten.length
      · rcases position cs hc bad i hib with ⟨n, k, h1, h2, h3⟩ | ⟨h1, c, s, h2, h3⟩
        · have h0 : n ≠ 0 := by rintro rfl; revert h2; decide
          have hk : 0 < k := by
            obtain ⟨c, a, b, h4, h5, -⟩ := charAt_shape h1
            omega
          rw [hmb.char [] _ n k (by simpa using charAt_take.2 h1) hk h0] at hq
          subst hq
          simp only [legal_iff, h2, if_true, List.length_nil, Nat.sub_zero]
          exact ih [] (i + k) (some n) h3 (.inl rfl) (fun y hy => by cases hy; exact h2) (by simp)
        · rw [h2, List.take_succ_cons] at hq
          obtain ⟨st', h4, h5⟩ := hmb.invalid [] (c :: s.take 3) (fun n k h => cont_charAt h3 n k h.1) (cont_unfinished h3)
          rw [h4] at hq
          subst hq
          exact back st' 1 (by omega) (.inl (by simpa using h5))
      · have hie : i = cs.flatten.length := by omega
        subst hie
        rw [List.drop_left] at hq
        by_cases hu : Unfinished (bad.take 4)
        · have h1 := (unfinished_shape hu)
          obtain ⟨c, a, -, -, -, h1⟩ := h1
          have h2 : bad.take 4 = bad := List.take_of_length_le (by simp only [List.length_take] at h1; omega)
          rw [h2] at hu hq
          rw [hmb.unfinished [] bad hu] at hq
          subst hq
          simp only [List.nil_append]
          by_cases h2 : cs.flatten.length < 2
          · cases w with
            | none => simp
            | some x => simp only [legal_iff, hw x rfl, h2, if_true]; simp
          · exact back bad 2 (by omega) (.inr ⟨rfl, hu, by omega⟩)
        · obtain ⟨st', h4, h5⟩ := hmb.invalid [] (bad.take 4) (fun n k h => hb n k (charAt_take.1 h.1)) hu
          rw [h4] at hq
          subst hq
          exact back st' 1 (by omega) (.inl (by simpa using h5))
    · obtain ⟨c, a, hca, hnc, hcont, hl3⟩ := unfinished_shape hu
      have hwin : ((cs.flatten ++ st).drop i).take 4 = ((cs.flatten.drop i) ++ st).take 4 := by rw [List.drop_append_of_le_length hi]
      have hlw : 4 ≤ (st ++ ((cs.flatten ++ st).drop i).take 4).length := by
        simp only [List.length_append, List.length_take, List.length_drop]
        omega
      have hnu : ¬ Unfinished (st ++ ((cs.flatten ++ st).drop i).take 4) := by
        intro h
        obtain ⟨-, -, -, -, -, h⟩ := unfinished_shape h
        omega
      by_cases hch : ∃ n k, CharAt (st ++ ((cs.flatten ++ st).drop i).take 4) n k ∧ st.length < k
      · obtain ⟨n, k, h1, h2⟩ := hch
        have h0 : n ≠ 0 := by
          rintro rfl
          obtain ⟨d, a', b', h3, h4, h5, h6, h7, h8⟩ := charAt_shape h1
          have := (h8 []).1
          have hd : d.toNat = 0 := by
            revert this
            simp only [codePoint]
            repeat' split
            all_goals simp
            all_goals omega
          have hk1 : k = 1 := by
            have h9 := this
            simp only [codePoint, hd] at h9
            simp at h9
            omega
          omega
        rw [hmb.char _ _ n k h1 h2 h0] at hq
        subst hq
        simp only
        refine ⟨?_, fun h => absurd hu h⟩
        split
        · rename_i hleg
          have hk : i + (k - st.length) ≤ cs.flatten.length := by
            obtain ⟨d, a', b', h3, h4, h5, h6, h7, h8⟩ := charAt_shape h1
            by_cases h9 : i + 3 ≤ cs.flatten.length
            · omega
            · by_cases h9' : k - st.length ≤ 2
              · omega
              exfalso
              have h10 : st.length = 1 := by omega
              rw [hca] at h10
              have ha : a = [] := List.eq_nil_of_length_eq_zero (by simpa using h10)
              subst ha
              subst hca
              simp only [List.cons_append, List.nil_append, List.cons.injEq] at h3
              have h12 : (((cs.flatten ++ [c]).drop i).take 4)[2]? = some c := by
                rw [List.getElem?_take_of_lt (by omega), List.getElem?_drop, List.getElem?_append_right (by omega)]
                rw [show i + 2 - cs.flatten.length = 0 by omega]
                rfl
              have h13 : 2 < a'.length := by simp only [List.length_cons, List.length_nil] at h9'; omega
              rw [h3.2, List.getElem?_append_left h13, List.getElem?_eq_getElem h13] at h12
              exact hnc (by rw [← Option.some.inj h12]; exact h7 _ (List.getElem_mem h13))
          exact (ih [] _ (some n) hk (.inl rfl) (fun y hy => by cases hy; rw [← legal_iff]; exact hleg) (by simp)).1
        · simp
      · obtain ⟨st', h4, h5⟩ := hmb.invalid st _ (fun n k h => hch ⟨n, k, h⟩) hnu
        rw [h4] at hq
        subst hq
        exact back st' 1 (by omega) (h5.imp id (fun h => ⟨h, hu, by omega⟩))

end StringValid
end Frpc
