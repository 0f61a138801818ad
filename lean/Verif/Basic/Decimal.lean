import Verif.Basic.Bytes
/-!
# Decimal numerals as byte strings

`dec` is what `printf("%d")` / `operator<<` write for a non-negative number, `decInt` for any
number; `atoi` reads a run of digits.
-/
namespace Frpc

/-- Digit byte. -/
def digit (d : Nat) : UInt8 := UInt8.ofNat (48 + d)

/-- Decimal digits of a number, most significant first; `0` is `"0"`. -/
def dec (n : Nat) : Bytes :=
  if h : n < 10 then [digit n] else dec (n / 10) ++ [digit (n % 10)]
termination_by n
decreasing_by omega

/-- Decimal text of an integer. -/
def decInt (n : Int) : Bytes := if n < 0 then 45 :: dec n.natAbs else dec n.natAbs

/-- `%0wd` for a non-negative number. -/
def decPad (w n : Nat) : Bytes := List.replicate (w - (dec n).length) 48 ++ dec n

/-- `%0wd` for an integer: the sign counts into the width. -/
def decIntPad (w : Nat) (n : Int) : Bytes := if n < 0 then 45 :: decPad (w - 1) n.natAbs else decPad w n.natAbs

/-- `isdigit` in the C locale. -/
def isDigit (c : UInt8) : Bool := decide (48 ≤ c.toNat ∧ c.toNat ≤ 57)

/-- `isspace` in the C locale. -/
def isSpace (c : UInt8) : Bool := c == 32 || decide (9 ≤ c.toNat ∧ c.toNat ≤ 13)

/-- Value of a run of digits (`atoi` on digits only). -/
def atoi (s : Bytes) : Nat := s.foldl (fun a c => 10 * a + (c.toNat - 48)) 0

theorem digit_toNat {d : Nat} (h : d < 10) : (digit d).toNat = 48 + d := by
  unfold digit; simp; omega

theorem isDigit_digit {d : Nat} (h : d < 10) : isDigit (digit d) = true := by
  unfold isDigit; rw [digit_toNat h]; simp; omega

theorem dec_ne_nil (n : Nat) : dec n ≠ [] := by unfold dec; split <;> simp

theorem dec_digits (n : Nat) : ∀ c ∈ dec n, isDigit c = true := by
  induction n using Nat.strongRecOn with
  | _ n ih =>
    unfold dec
    split
    · next h => intro c hc; simp at hc; subst hc; exact isDigit_digit h
    · next h =>
      intro c hc
      rcases List.mem_append.1 hc with hc | hc
      · exact ih _ (by omega) c hc
      · simp at hc; subst hc; exact isDigit_digit (by omega)

theorem atoi_snoc (s : Bytes) (c : UInt8) : atoi (s ++ [c]) = 10 * atoi s + (c.toNat - 48) := by
  simp [atoi]

theorem atoi_dec (n : Nat) : atoi (dec n) = n := by
  induction n using Nat.strongRecOn with
  | _ n ih =>
    unfold dec
    split
    · next h => simp [atoi, digit_toNat h]
    · next h => rw [atoi_snoc, ih _ (by omega), digit_toNat (by omega)]; omega

theorem atoi_zeros (k : Nat) (s : Bytes) : atoi (List.replicate k 48 ++ s) = atoi s := by
  unfold atoi
  rw [List.foldl_append]
  congr 1
  induction k with
  | zero => rfl
  | succ k ih => simpa [List.replicate_succ] using ih

theorem dec_length {n w : Nat} (hw : 0 < w) (h : n < 10 ^ w) : (dec n).length ≤ w := by
  induction w generalizing n with
  | zero => omega
  | succ w ih =>
    unfold dec
    split
    · simp
    · next hn =>
      have : 0 < w := by
        rcases Nat.eq_zero_or_pos w with rfl | h0
        · simp at h; omega
        · exact h0
      have hh := ih this (n := n / 10) (by rw [Nat.pow_succ] at h; omega)
      simp; omega

theorem decPad_length {n w : Nat} (hw : 0 < w) (h : n < 10 ^ w) : (decPad w n).length = w := by
  have := dec_length hw h
  unfold decPad; simp; omega

theorem decPad_digits (w n : Nat) : ∀ c ∈ decPad w n, isDigit c = true := by
  intro c hc
  unfold decPad at hc
  rcases List.mem_append.1 hc with hc | hc
  · rw [List.mem_replicate] at hc; rw [hc.2]; decide
  · exact dec_digits n c hc

theorem atoi_decPad (w n : Nat) : atoi (decPad w n) = n := by
  unfold decPad; rw [atoi_zeros, atoi_dec]

theorem atoi_lt (s : Bytes) (h : ∀ c ∈ s, isDigit c = true) : atoi s < 10 ^ s.length := by
  have key : ∀ (s : Bytes) (a : Nat), (∀ c ∈ s, isDigit c = true) →
      s.foldl (fun a c => 10 * a + (c.toNat - 48)) a < (a + 1) * 10 ^ s.length := by
    intro s
    induction s with
    | nil => intro a _; simp
    | cons c s ih =>
      intro a h
      have hc := h c (by simp)
      unfold isDigit at hc
      simp only [decide_eq_true_eq] at hc
      have := ih (10 * a + (c.toNat - 48)) (fun c hc => h c (by simp [hc]))
      simp only [List.foldl_cons, List.length_cons]
      refine Nat.lt_of_lt_of_le this ?_
      rw [Nat.pow_succ, Nat.mul_comm (10 ^ s.length) 10, ← Nat.mul_assoc]
      exact Nat.mul_le_mul_right _ (by omega)
  have := key s 0 h
  simpa [atoi] using this

end Frpc
