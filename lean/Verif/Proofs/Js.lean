import Verif.Spec.Js
import Verif.Proofs.StructMap
import Verif.Proofs.Message
/-! # The JavaScript serializer writes what the C++ marshaller writes -/
namespace Frpc
namespace Js
open BinMarshaller Spec

/-! ### Numbers -/

theorem stored_codes (s : Bytes) : stored (codes s) = s := by
  unfold stored codes
  rw [List.map_map]
  conv => rhs; rw [← List.map_id s]
  apply List.map_congr_left
  intro b _
  simp

theorem stored_append (a b : List Nat) : stored (a ++ b) = stored a ++ stored b := List.map_append ..

theorem codes_append (a b : Bytes) : codes (a ++ b) = codes a ++ codes b := List.map_append ..

theorem stored_cons (n : Nat) (l : List Nat) : stored (n :: l) = UInt8.ofNat n :: stored l := rfl

theorem leBytes_zero (k : Nat) : leBytes k 0 = List.replicate k 0 := by
  induction k with
  | zero => rfl
  | succ k ih => simp [leBytes, ih, List.replicate_succ]

/-- The loop makes the digits to the base of 256. -/
theorem encodeLoop_eq (k n : Nat) (h1 : n < 256 ^ k) : stored (encodeLoop n) ++ List.replicate (k - (encodeLoop n).length) 0 = leBytes k n := by
  induction k generalizing n with
  | zero =>
    have : n = 0 := by simpa using h1
    subst this
    unfold encodeLoop; simp [stored, leBytes]
  | succ k ih =>
    unfold encodeLoop
    split
    · next h => subst h; simp [stored, leBytes_zero]
    · have : n / 256 < 256 ^ k := by rw [Nat.pow_succ] at h1; omega
      simp only [leBytes, stored_cons, List.cons_append, List.length_cons]
      rw [← ih _ this, show k + 1 - ((encodeLoop (n / 256)).length + 1) = k - (encodeLoop (n / 256)).length from by omega]

theorem encodeLoop_length (k n : Nat) (h1 : n < 256 ^ (k + 1)) (h2 : 256 ^ k ≤ n) : (encodeLoop n).length = k + 1 := by
  induction k generalizing n with
  | zero =>
    unfold encodeLoop
    rw [dif_neg (by omega)]
    unfold encodeLoop
    rw [dif_pos (by omega)]; rfl
  | succ k ih =>
    have := Nat.pow_pos (n := k) (show 0 < 256 from by omega)
    unfold encodeLoop
    rw [dif_neg (by rw [Nat.pow_succ] at h2; omega)]
    rw [Nat.pow_succ] at h1 h2
    simp only [List.length_cons]
    rw [ih (n / 256) (by omega) (by omega)]

theorem encodeInt_length (k n : Nat) (h1 : n < 256 ^ (k + 1)) (h2 : k = 0 ∨ 256 ^ k ≤ n) : (encodeInt n).length = k + 1 := by
  unfold encodeInt
  by_cases h : n = 0
  · rw [if_pos h]
    rcases h2 with rfl | h2
    · rfl
    · have := Nat.pow_pos (n := k) (show 0 < 256 from by omega)
      omega
  · rw [if_neg h]
    rcases h2 with rfl | h2
    · exact encodeLoop_length 0 n h1 (by omega)
    · exact encodeLoop_length k n h1 h2

theorem encodeInt_pad (k n : Nat) (hk : 1 ≤ k) (h1 : n < 256 ^ k) :
    stored (encodeInt n) ++ List.replicate (k - (encodeInt n).length) 0 = leBytes k n := by
  unfold encodeInt
  by_cases h : n = 0
  · rw [if_pos h, h, leBytes_zero]
    obtain ⟨k, rfl⟩ : ∃ j, k = j + 1 := ⟨k - 1, by omega⟩
    simp [stored, List.replicate_succ]
  · rw [if_neg h]; exact encodeLoop_eq k n h1

theorem encodeInt_eq (k n : Nat) (h1 : n < 256 ^ (k + 1)) (h2 : k = 0 ∨ 256 ^ k ≤ n) : stored (encodeInt n) = leBytes (k + 1) n := by
  have := encodeInt_pad (k + 1) n (by omega) h1
  rw [encodeInt_length k n h1 h2] at this
  simpa using this

/-- The chosen number of bytes is the least one. -/
theorem numberType_least (ver : Version) (h : 2 ≤ ver.major) (n : Nat) (hn : n < 2 ^ 63) :
    ∃ k, k < 8 ∧ getNumberType ver (n : Int) = k ∧ getNumberSize ver k = k + 1 ∧ n < 256 ^ (k + 1) ∧ (k = 0 ∨ 256 ^ k ≤ n) := by
  have h2 : ¬ ver.major < 2 := by
    intro hc
    have h : (2 : UInt8).toNat ≤ ver.major.toNat := h
    have hc : ver.major.toNat < (2 : UInt8).toNat := hc
    omega
  refine ⟨getNumberType ver (n : Int), getNumberType_lt _ _, rfl, by simp [getNumberSize, h2], ?_⟩
  unfold getNumberType
  simp only [h2, if_false, u64_natCast (show n < 2 ^ 64 from by omega)]
  repeat' split
  all_goals (constructor <;> omega)

theorem numberType_least' (ver : Version) (h : 2 ≤ ver.major) (n : Nat) (hn : n < 2 ^ 63) :
    ∃ k, k < 8 ∧ getNumberType ver (n : Int) = k ∧ (encodeInt n).length = k + 1 ∧
      stored (encodeInt n) = number (n : Int) (getNumberSize ver (getNumberType ver (n : Int))) := by
  obtain ⟨k, hk, h1, h2, h3, h4⟩ := numberType_least ver h n hn
  refine ⟨k, hk, h1, encodeInt_length k n h3 h4, ?_⟩
  rw [encodeInt_eq k n h3 h4, h1, h2]
  unfold number
  rw [u64_natCast (by omega), leBytes_take _ _ _ (by omega)]

theorem dataType_eq {t k : Nat} (ht : t < 32) (hk : k < 8) : UInt8.ofNat (t * 8 + k) = dataType t k := by
  have : ∀ t : Fin 32, ∀ k : Fin 8, UInt8.ofNat (t.val * 8 + k.val) = dataType t.val k.val := by decide
  exact this ⟨t, ht⟩ ⟨k, hk⟩

/-- A header of the JavaScript serializer is one of the C++ marshaller. -/
theorem header_eq (ver : Version) (h : 2 ≤ ver.major) {t : Nat} (ht : t < 32) (n : Nat) (hn : n < 2 ^ 63) :
    stored (header t n) = (sized ver t n).flatten := by
  obtain ⟨k, hk, h1, h2, h3⟩ := numberType_least' ver h n hn
  unfold header
  rw [stored_cons, h3, h2]
  unfold sized
  simp only [h1, List.flatten_cons, List.flatten_nil, List.append_nil, List.singleton_append]
  rw [show k + 1 - 1 = k from rfl, dataType_eq ht hk]

theorem i64_small {n : Nat} (h : n < 2 ^ 63) : i64 n = (n : Int) := by
  unfold i64; rw [Nat.mod_eq_of_lt (by omega), if_pos h]

/-- The versions that `serializeCall` announces. -/
def verOf (version : Nat) : Version := if version = 3 then ⟨3, 0⟩ else ⟨2, 1⟩

theorem verOf_major (version : Nat) : 2 ≤ (verOf version).major := by unfold verOf; split <;> decide

theorem verOf_known (version : Nat) : (verOf version).Known := by unfold verOf Version.Known; split <;> decide

theorem verOf_null (version : Nat) : (verOf version).HasNull := by unfold verOf Version.HasNull; split <;> decide

theorem serializeInt_eq (version : Nat) (n : Int) (h : n.natAbs < 2 ^ 53) (h3 : version = 3 → 0 ≤ n) :
    stored (serializeInt version (n < 0) n.natAbs) = (packInt (verOf version) n).flatten := by
  unfold serializeInt packInt verOf
  by_cases hv : version = 3
  · rw [if_pos hv, if_pos hv, if_pos (by decide)]
    have h0 := h3 hv
    have hz : zigzagEncode n = 2 * n.natAbs := by rw [zigzagEncode_nonneg h0 (by omega)]; omega
    have hb : encodeZigzag (decide (n < 0)) n.natAbs = encodeInt (2 * n.natAbs) := by
      unfold encodeZigzag; rw [if_neg (by simpa using h0)]; rfl
    rw [hb]
    simp only [hz]
    rw [i64_small (by omega)]
    exact header_eq ⟨3, 0⟩ (by decide) (t := 1) (by decide) (2 * n.natAbs) (by omega)
  · simp only [if_neg hv]
    rw [if_neg (show ¬ (2 : UInt8) > 2 from by decide), if_pos (show (2 : UInt8) > 1 from by decide)]
    by_cases hn : n < 0
    · rw [if_pos hn, safeAbs_eq (by unfold IsI64; omega), i64_small (by omega)]
      simp only [hn, decide_true, if_true]
      exact header_eq ⟨2, 1⟩ (by decide) (t := 8) (by decide) n.natAbs (by omega)
    · rw [if_neg hn]
      simp only [hn, decide_false]
      have := header_eq ⟨2, 1⟩ (by decide) (t := 7) (by decide) n.natAbs (by omega)
      unfold sized at this
      simp only [show ((n.natAbs : Nat) : Int) = n from by omega] at this
      exact this

/-! ### Doubles -/

theorem bitsOf_append (a b : Nat) (n : Int) (h : 0 ≤ n) : bitsOf (a + b) n = bitsOf a n ++ bitsOf b (n / 2 ^ a) := by
  induction a generalizing n with
  | zero => simp [bitsOf]
  | succ a ih =>
    rw [show a + 1 + b = (a + b) + 1 from by omega]
    simp only [bitsOf, List.cons_append]
    rw [ih _ (by omega), Int.ediv_ediv_of_nonneg (by omega), Int.pow_succ, Int.mul_comm (2 ^ a)]

theorem bitsOf_mod (a : Nat) (n : Int) : bitsOf a (n % 2 ^ a) = bitsOf a n := by
  induction a generalizing n with
  | zero => rfl
  | succ a ih =>
    have h2 : (0 : Int) < 2 ^ a := Int.pow_pos (by omega)
    have h : n % 2 ^ (a + 1) / 2 = n / 2 % 2 ^ a := by
      rw [Int.emod_def, Int.emod_def, Int.ediv_ediv_of_nonneg (by omega), Int.pow_succ, Int.mul_comm (2 ^ a) 2, Int.mul_assoc]
      omega
    have h' : n % 2 ^ (a + 1) % 2 = n % 2 := Int.emod_emod_of_dvd _ ⟨2 ^ a, by rw [Int.pow_succ, Int.mul_comm]⟩
    simp only [bitsOf, h, h', ih]

/-- The lowest bit. -/
def bit (x : Int) : Nat := if x % 2 ≠ 0 then 1 else 0

theorem bit_eq (x : Int) : (bit x : Int) = x % 2 := by unfold bit; split <;> omega

theorem byte_bits (n : Nat) : bit n + 2 * bit ((n : Int) / 2) + 4 * bit ((n : Int) / 2 / 2) + 8 * bit ((n : Int) / 2 / 2 / 2) +
    16 * bit ((n : Int) / 2 / 2 / 2 / 2) + 32 * bit ((n : Int) / 2 / 2 / 2 / 2 / 2) + 64 * bit ((n : Int) / 2 / 2 / 2 / 2 / 2 / 2) +
    128 * bit ((n : Int) / 2 / 2 / 2 / 2 / 2 / 2 / 2) = n % 256 := by
  have h0 := bit_eq n
  have h1 := bit_eq ((n : Int) / 2)
  have h2 := bit_eq ((n : Int) / 2 / 2)
  have h3 := bit_eq ((n : Int) / 2 / 2 / 2)
  have h4 := bit_eq ((n : Int) / 2 / 2 / 2 / 2)
  have h5 := bit_eq ((n : Int) / 2 / 2 / 2 / 2 / 2)
  have h6 := bit_eq ((n : Int) / 2 / 2 / 2 / 2 / 2 / 2)
  have h7 := bit_eq ((n : Int) / 2 / 2 / 2 / 2 / 2 / 2 / 2)
  omega

theorem bitsOf_succ (k : Nat) (n : Int) : bitsOf (k + 1) n = bit n :: bitsOf k (n / 2) := rfl

theorem pack_bits (k : Nat) (n : Nat) : packBits (bitsOf (8 * k) (n : Int)) = codes (leBytes k n) := by
  induction k generalizing n with
  | zero => rfl
  | succ k ih =>
    rw [show 8 * (k + 1) = 8 * k + 1 + 1 + 1 + 1 + 1 + 1 + 1 + 1 from by omega]
    have : ((n : Int) / 2 / 2 / 2 / 2 / 2 / 2 / 2 / 2) = ((n / 256 : Nat) : Int) := by omega
    rw [bitsOf_succ, bitsOf_succ, bitsOf_succ, bitsOf_succ, bitsOf_succ, bitsOf_succ, bitsOf_succ, bitsOf_succ, packBits, byte_bits, this, ih]
    simp [leBytes, codes]

/-- Fraction, exponent and sign make up the pattern. -/
theorem pack_parts (fr ex : Nat) (neg : Bool) (hf : fr < 2 ^ 52) (he : ex < 2048) :
    stored (packBits (bitsOf 52 (fr : Int) ++ bitsOf 11 (ex : Int) ++ [if neg then 1 else 0])) =
      leBytes 8 (fr + 2 ^ 52 * ex + if neg then 2 ^ 63 else 0) := by
  have h : bitsOf 52 (fr : Int) ++ bitsOf 11 (ex : Int) ++ [if neg then 1 else 0] =
      bitsOf (8 * 8) ((fr + 2 ^ 52 * ex + if neg then 2 ^ 63 else 0 : Nat) : Int) := by
    generalize hn : (fr + 2 ^ 52 * ex + if neg then 2 ^ 63 else 0) = n
    have e1 : (n : Int) % 2 ^ 52 = fr := by cases neg <;> simp at hn <;> omega
    have e2 : (n : Int) / 2 ^ 52 % 2 ^ 11 = ex := by cases neg <;> simp at hn <;> omega
    have e3 : (n : Int) / 2 ^ 52 / 2 ^ 11 % 2 = if neg then 1 else 0 := by cases neg <;> simp at hn ⊢ <;> omega
    rw [show 8 * 8 = 52 + (11 + 1) from rfl, bitsOf_append _ _ _ (by omega), bitsOf_append _ _ _ (by omega), ← e1, ← e2, bitsOf_mod, bitsOf_mod,
      List.append_assoc]
    congr 2
    simp only [bitsOf, e3]
    cases neg <;> rfl
  rw [h, pack_bits, stored_codes]

theorem ieee_parts (b : BitVec 64) : ∃ fr ex : Nat, ∃ neg : Bool, fr < 2 ^ 52 ∧ ex < 2048 ∧
    b.toNat = fr + 2 ^ 52 * ex + (if neg then 2 ^ 63 else 0) ∧
    ieee b = if ex = 2047 then (if fr = 0 then .inf neg else .nan) else if ex = 0 then .fin neg fr (-1074)
      else .fin neg (2 ^ 52 + fr) ((ex : Int) - 1075) := by
  refine ⟨b.toNat % 2 ^ 52, b.toNat / 2 ^ 52 % 2048, decide (b.toNat / 2 ^ 63 = 1), Nat.mod_lt _ (by omega), Nat.mod_lt _ (by omega), ?_, rfl⟩
  have := b.isLt
  by_cases h : b.toNat / 2 ^ 63 = 1 <;> simp only [h, decide_true, decide_false] <;> simp <;> omega

theorem log2_normal {fr : Nat} (hf : fr < 2 ^ 52) : Nat.log2 (2 ^ 52 + fr) = 52 :=
  (Nat.log2_eq_iff (by omega)).2 ⟨by omega, by omega⟩

theorem fractionBits_double (fr : Nat) : fractionBits (2 * (fr : Int)) = bitsOf 52 (fr : Int) := by
  unfold fractionBits
  rw [show (52 : Nat) = 51 + 1 from rfl, bitsOf]
  rw [show 2 * (fr : Int) / 4 = (fr : Int) / 2 from by omega]
  congr 1
  split <;> split <;> omega

theorem encode_normal (H : Host) (fr ex : Nat) (neg : Bool) (hf : fr < 2 ^ 52) (h1 : 52 ≤ ex) (h2 : ex < 2047)
    (hl : H.lg (2 ^ 52 + fr) ((ex : Int) - 1075) = (ex : Int) - 1023) :
    stored (encodeDouble H (.fin neg (2 ^ 52 + fr) ((ex : Int) - 1075))) = leBytes 8 (fr + 2 ^ 52 * ex + if neg then 2 ^ 63 else 0) := by
  have hs : scaled (2 ^ 52 + fr) ((ex : Int) - 1075) 1074 ≥ 2 ^ 52 := by
    unfold scaled floorOf
    rw [if_pos (by omega)]
    have := Nat.pow_pos (n := ((ex : Int) - 1075 + 1074).toNat) (show 0 < 2 from by omega)
    calc 2 ^ 52 ≤ (2 ^ 52 + fr) * 1 := by omega
      _ ≤ _ := Nat.mul_le_mul_left _ this
  have hmin : min ((ex : Int) - 1023) 1023 = (ex : Int) - 1023 := by omega
  have ht : ((scaled (2 ^ 52 + fr) ((ex : Int) - 1075) (53 - ((ex : Int) - 1023)) : Nat) : Int) - 2 ^ 53 = 2 * (fr : Int) := by
    unfold scaled floorOf
    rw [show (ex : Int) - 1075 + (53 - ((ex : Int) - 1023)) = 1 from by omega, if_pos (by omega)]
    simp only [Int.toNat_one]
    omega
  rw [encodeDouble, if_neg (by omega), if_pos hs]
  simp only [hl, hmin]
  rw [if_neg (by omega), ht, fractionBits_double, show (ex : Int) - 1023 + 1023 = (ex : Int) from by omega]
  exact pack_parts fr ex neg hf (by omega)

theorem encode_sub (H : Host) (fr : Nat) (neg : Bool) (hf : fr < 2 ^ 52) :
    stored (encodeDouble H (.fin neg fr (-1074))) = leBytes 8 (fr + 2 ^ 52 * 0 + if neg then 2 ^ 63 else 0) := by
  rw [encodeDouble]
  by_cases h0 : fr = 0
  · rw [if_pos h0, h0]
    exact pack_parts 0 0 neg (by omega) (by omega)
  · have hs : scaled fr (-1074) 1074 = fr := by
      unfold scaled floorOf
      rw [if_pos (by omega)]; simp
    rw [if_neg h0, hs, if_neg (by omega)]
    exact pack_parts fr 0 neg hf (by omega)

/-- A double that can be sent is written with its bits (a NaN with those of a NaN). -/
theorem encodeDouble_eq (H : Host) (x : Number) (h : DoubleSendable H x) :
    ∃ b : BitVec 64, ieee b = x ∧ stored (encodeDouble H x) = leBytes 8 b.toNat := by
  obtain ⟨b, hb, hx⟩ := h
  obtain ⟨fr, ex, neg, hf, he, ht, hi⟩ := ieee_parts b
  rw [hb] at hi
  by_cases h1 : ex = 2047
  · rw [if_pos h1] at hi
    by_cases h2 : fr = 0
    · rw [if_pos h2] at hi
      refine ⟨b, hb, ?_⟩
      rw [hi, encodeDouble, ht, h1, h2]
      exact pack_parts 0 2047 neg (by omega) (by omega)
    · rw [if_neg h2] at hi
      refine ⟨0x7ff0000000000001#64, by rw [hi]; decide, ?_⟩
      rw [hi, encodeDouble]
      exact pack_parts 1 2047 false (by omega) (by omega)
  · rw [if_neg h1] at hi
    refine ⟨b, hb, ?_⟩
    by_cases h2 : ex = 0
    · rw [if_pos h2] at hi
      rw [hi, ht, h2]
      exact encode_sub H fr neg hf
    · rw [if_neg h2] at hi
      rw [hi] at hx ⊢
      simp only at hx
      rcases hx with (hx | hx) | ⟨hx, hl⟩
      · omega
      · omega
      · rw [ht]
        rw [log2_normal hf] at hl
        exact encode_normal H fr ex neg hf (by omega) (by omega) (by rw [hl]; omega)

theorem zero_integer : IsInteger (ieee 0#64) 0 := ⟨0, -1074, rfl, fun h => absurd h (by decide), fun _ => by rw [show Int.natAbs 0 = 0 from rfl, Nat.zero_mul]⟩

theorem encode_zero (H : Host) : stored (encodeDouble H (.fin false 0 (-1074))) = leBytes 8 (0#64).toNat := encode_sub H 0 false (by omega)

theorem pattern_parts {fr ex fr' ex' : Nat} {neg neg' : Bool} (hf : fr < 2 ^ 52) (he : ex < 2048) (hf' : fr' < 2 ^ 52) (he' : ex' < 2048)
    (h : fr + 2 ^ 52 * ex + (if neg then 2 ^ 63 else 0) = fr' + 2 ^ 52 * ex' + if neg' then 2 ^ 63 else 0) :
    fr = fr' ∧ ex = ex' ∧ neg = neg' := by
  cases neg <;> cases neg'
  · simp only [Bool.false_eq_true, if_false] at h
    have : ex = ex' := by omega
    exact ⟨by omega, this, rfl⟩
  · simp only [Bool.false_eq_true, if_false, if_true] at h; omega
  · simp only [Bool.false_eq_true, if_false, if_true] at h; omega
  · simp only [if_true] at h
    have : ex = ex' := by omega
    exact ⟨by omega, this, rfl⟩

theorem ieee_normal {fr ex : Nat} {neg : Bool} (hf : fr < 2 ^ 52) (h1 : ex ≠ 0) (h2 : ex < 2047) {b : BitVec 64}
    (hb : b.toNat = fr + 2 ^ 52 * ex + if neg then 2 ^ 63 else 0) : ieee b = .fin neg (2 ^ 52 + fr) ((ex : Int) - 1075) := by
  obtain ⟨fr', ex', neg', hf', he', ht', hi'⟩ := ieee_parts b
  rw [hb] at ht'
  obtain ⟨rfl, rfl, rfl⟩ := pattern_parts hf (by omega) hf' he' ht'
  rw [hi', if_neg (by omega), if_neg h1]

/-- The bits of a sign, an exponent and a fraction. -/
theorem pattern_exists {fr ex : Nat} {neg : Bool} (hf : fr < 2 ^ 52) (he : ex < 2048) :
    ∃ b : BitVec 64, b.toNat = fr + 2 ^ 52 * ex + if neg then 2 ^ 63 else 0 := by
  refine ⟨BitVec.ofNat 64 (fr + 2 ^ 52 * ex + if neg then 2 ^ 63 else 0), ?_⟩
  rw [BitVec.toNat_ofNat, Nat.mod_eq_of_lt]
  cases neg
  · simp only [Bool.false_eq_true, if_false]; omega
  · simp only [if_true]; omega

/-- A positive integer below 2^53 has a significand of 53 bits. -/
theorem shifted {a : Nat} (h0 : a ≠ 0) (h : a < 2 ^ 53) : Nat.log2 a ≤ 52 ∧ ∃ fr, fr < 2 ^ 52 ∧ a * 2 ^ (52 - Nat.log2 a) = 2 ^ 52 + fr := by
  have hL := Nat.log2_self_le h0
  have hU := Nat.lt_log2_self (n := a)
  generalize Nat.log2 a = L at *
  have hL52 : L ≤ 52 := by
    have : 2 ^ L < 2 ^ 53 := by omega
    have := (Nat.pow_lt_pow_iff_right (by omega)).1 this
    omega
  refine ⟨hL52, ?_⟩
  have hm1 : 2 ^ 52 ≤ a * 2 ^ (52 - L) := by
    calc 2 ^ 52 = 2 ^ L * 2 ^ (52 - L) := by rw [← Nat.pow_add]; congr 1; omega
      _ ≤ _ := Nat.mul_le_mul_right _ hL
  have hm2 : a * 2 ^ (52 - L) < 2 ^ 53 := by
    calc a * 2 ^ (52 - L) < 2 ^ (L + 1) * 2 ^ (52 - L) := Nat.mul_lt_mul_of_pos_right hU (Nat.pow_pos (by omega))
      _ = 2 ^ 53 := by rw [← Nat.pow_add]; congr 1; omega
  exact ⟨a * 2 ^ (52 - L) - 2 ^ 52, by omega, by omega⟩

theorem ofInt_eq (H : Host) (n : Int) (hn : n.natAbs < 2 ^ 53)
    (hl : n = 0 ∨ H.lg (Number.ofInt n).significand (Number.ofInt n).exponent = Nat.log2 n.natAbs) :
    ∃ b : BitVec 64, IsInteger (ieee b) n ∧ stored (encodeDouble H (Number.ofInt n)) = leBytes 8 b.toNat := by
  by_cases h0 : n = 0
  · subst h0
    exact ⟨0#64, zero_integer, encode_zero H⟩
  · obtain ⟨hL, fr, hf, hfr⟩ := shifted (a := n.natAbs) (by omega) hn
    have ho : Number.ofInt n = .fin (decide (n < 0)) (2 ^ 52 + fr) (((Nat.log2 n.natAbs + 1023 : Nat) : Int) - 1075) := by
      unfold Number.ofInt
      rw [if_neg h0, hfr, show (Nat.log2 n.natAbs : Int) - 52 = ((Nat.log2 n.natAbs + 1023 : Nat) : Int) - 1075 from by omega]
    have hl := hl.resolve_left h0
    rw [ho] at hl ⊢
    simp only [Number.significand, Number.exponent] at hl
    generalize Nat.log2 n.natAbs = L at *
    obtain ⟨b, hb⟩ := pattern_exists (fr := fr) (ex := L + 1023) (neg := decide (n < 0)) hf (by omega)
    refine ⟨b, ?_, ?_⟩
    · rw [ieee_normal hf (by omega) (by omega) hb]
      refine ⟨_, _, rfl, fun h => ?_, fun h => ?_⟩
      · have : L = 52 := by omega
        subst this
        rw [← hfr, show (((52 + 1023 : Nat) : Int) - 1075).toNat = 0 from rfl, show 52 - 52 = 0 from rfl, Nat.pow_zero, Nat.mul_one, Nat.mul_one]
      · rw [← hfr, show (-(((L + 1023 : Nat) : Int) - 1075)).toNat = 52 - L from by omega]
    · rw [hb]
      exact encode_normal H fr (L + 1023) _ hf (by omega) (by omega) (by rw [hl]; omega)

/-! ### Dates -/

theorem low_nat {k n : Nat} (h : n < 2 ^ k) : low k (n : Int) = n := by
  unfold low
  have : (n : Int) < 2 ^ k := by exact_mod_cast h
  rw [Int.emod_eq_of_lt (by omega) this]; omega

/-- The five bytes of the calendar. -/
theorem date_fields (version : Nat) (d : Date) (h : DateSendable version d) :
    stored [ ((d.seconds &&& 0x1f) <<< 3) ||| (d.weekDay &&& 0x07),
      ((d.minutes &&& 0x3f) <<< 1) ||| ((d.seconds &&& 0x20) >>> 5) ||| ((d.hours &&& 0x01) <<< 7),
      ((d.hours &&& 0x1e) >>> 1) ||| ((d.day &&& 0x0f) <<< 4),
      ((d.day &&& 0x1f) >>> 4) ||| ((d.month + 1 &&& 0x0f) <<< 1) ||| (((min (max (d.year - 1600) 0) 2047).toNat &&& 0x07) <<< 5),
      ((min (max (d.year - 1600) 0) 2047).toNat &&& 0x07f8) >>> 3 ] = packFields (dateOf d) := by
  obtain ⟨_, _, _, _, hy, hmo, hd, hh, hmi, hs, hw⟩ := h
  have ey : (if d.year ≤ 1600 then 0 else low 11 (d.year - 1600)) = (min (max (d.year - 1600) 0) 2047).toNat := by
    obtain ⟨y, hy'⟩ : ∃ y : Nat, d.year - 1600 = y := ⟨(d.year - 1600).toNat, by omega⟩
    rw [if_neg (by omega), hy', low_nat (by omega)]
    omega
  have emo : low 4 ((d.month : Int) + 1) = d.month + 1 := low_nat (n := d.month + 1) (by omega)
  unfold packFields dateOf
  simp only [ey, emo, low_nat (show d.day < 2 ^ 5 from by omega), low_nat (show d.hours < 2 ^ 5 from by omega),
    low_nat (show d.minutes < 2 ^ 6 from by omega), low_nat (show d.seconds < 2 ^ 6 from by omega), low_nat (show d.weekDay < 2 ^ 3 from by omega)]
  rfl

theorem date_zone (q : Int) (h1 : -128 ≤ q) (h2 : q ≤ 127) :
    UInt8.ofNat (if q * 15 < 0 then ((q * 15 + 256 * 15).tdiv 15).toNat else ((q * 15).tdiv 15).toNat) = packZone (q * 15 * 60) := by
  have key : ∀ x : Int, (x * 15).tdiv 15 = x := fun x => Int.mul_tdiv_cancel x (by decide)
  unfold packZone
  rw [Int.mul_tdiv_cancel (q * 15) (show (60 : Int) ≠ 0 from by decide), key, show q * 15 + 256 * 15 = (q + 256) * 15 from by omega, key]
  congr 1
  unfold low
  rw [show (2 : Int) ^ 8 = 256 from rfl]
  split <;> omega

theorem stored_pad (l : List Nat) (k : Nat) : stored (l ++ List.replicate k 0) = stored l ++ List.replicate k 0 := by
  rw [stored_append]; simp [stored]

/-- A date that can be sent is written as the C++ marshaller writes it. -/
theorem serializeDate_eq (version : Nat) (d : Date) (h : DateSendable version d) :
    packDateTime (verOf version) (dateOf d) = ((packDateTime (verOf version) (dateOf d)).1, none) ∧
    stored (serializeDate version d) = (packDateTime (verOf version) (dateOf d)).1.flatten := by
  have hf := date_fields version d h
  obtain ⟨hw, h0, hb, ⟨q, hq1, hq2, hq⟩, _⟩ := h
  have hz := date_zone q hq1 hq2
  have hts : (d.ms + 500) / 1000 = d.ms / 1000 := by omega
  obtain ⟨t, ht⟩ : ∃ t : Nat, d.ms / 1000 = t := ⟨(d.ms / 1000).toNat, by omega⟩
  have htd : (dateOf d).unixTime = t := ht
  have hzd : (dateOf d).timeZone = q * 15 * 60 := by unfold dateOf; simp only [hq]
  unfold serializeDate
  simp only [hts, ht, stored_append, hf, hq]
  obtain ⟨z, hz'⟩ : ∃ z, (if q * 15 < 0 then ((q * 15 + 256 * 15).tdiv 15).toNat else ((q * 15).tdiv 15).toNat) = z := ⟨_, rfl⟩
  rw [hz'] at hz ⊢
  unfold packDateTime verOf
  simp only [htd, hzd]
  by_cases hv : version = 3
  · simp only [if_pos hv]
    rw [if_pos (show (3 : UInt8) > 2 from by decide)]
    refine ⟨rfl, ?_⟩
    rw [if_neg (by omega), stored_pad, Int.toNat_natCast, encodeInt_pad 8 t (by omega) (by omega), u64_natCast (by omega), ← hz]
    simp [stored]
    rfl
  · simp only [if_neg hv]
    have hb := hb.2 hv
    rw [if_neg (show ¬ (2 : UInt8) > 2 from by decide), if_neg (by omega)]
    refine ⟨rfl, ?_⟩
    have e1 : (if (t : Int) < 0 ∨ (t : Int) ≥ 2 ^ 31 then -1 else (t : Int)) = t := by rw [if_neg (by omega)]
    have e2 : (if (if (t : Int) > 0 then (t : Int) else -(t : Int)) < 2 ^ 32 then i32 (u32 t) else -1) = t := by
      rw [if_pos (by split <;> omega), i32_u32 (by unfold IsI32; omega)]
    rw [e1, if_neg (by omega), e2, stored_pad, Int.toNat_natCast, encodeInt_pad 4 t (by omega) (by omega),
      show u32 (t : Int) = t from by unfold u32; omega, ← hz]
    simp [stored]
    rfl

/-! ### Values -/

mutual
/-- As `Means`, with the members in the order in which they are written. -/
def Raw (hints : Hints) (path : List Bytes) : Js → Value → Prop
  | .null, v => v = .null
  | .bool b, v => v = .bool b
  | .int n, v => if hintAt hints path = some .float then ∃ b, v = .double b ∧ IsInteger (ieee b) n else v = .int n
  | .num x, v => hintAt hints path = some .float ∧ ∃ b, v = .double b ∧ ieee b = x
  | .str s, v => v = .string s
  | .date d, v => v = .dateTime (dateOf d)
  | .buffer s, v => v = .binary s
  | .binary l, v => ∃ s, v = .binary s ∧ l = byteArray s
  | .float x, v => ∃ b, v = .double b ∧ ieee b = x
  | .arr js, v =>
    if hintAt hints path = some .binary then ∃ s, v = .binary s ∧ js = byteArray s
    else ∃ vs, v = .array vs ∧ RawItems hints path 0 js vs
  | .obj js, v => ∃ ms, v = .struct ms ∧ RawMembers hints path js ms
/-- Elements. -/
def RawItems (hints : Hints) (path : List Bytes) (i : Nat) : List Js → List Value → Prop
  | [], vs => vs = []
  | j :: js, vs => ∃ w ws, vs = w :: ws ∧ Raw hints (path ++ [dec i]) j w ∧ RawItems hints path (i + 1) js ws
/-- Members. -/
def RawMembers (hints : Hints) (path : List Bytes) : List (Bytes × Js) → List (Bytes × Value) → Prop
  | [], ms => ms = []
  | (k, j) :: js, ms => ∃ w ws, ms = (k, w) :: ws ∧ Raw hints (path ++ [k]) j w ∧ RawMembers hints path js ws
end

theorem joined_eq : ∀ path : List Bytes, joined path = (path.intersperse (asc ".")).flatten
  | [] => rfl
  | [p] => by simp [joined, List.intersperse]
  | p :: q :: r => by
    rw [joined, joined_eq (q :: r)]
    · simp [List.intersperse]
    · simp

theorem getHint_eq (hints : Hints) (path : List Bytes) : getHint hints path = hintAt hints path := by
  unfold getHint hintAt
  cases hints <;> simp [joined_eq]

theorem byteArray_bytes (s : Bytes) : (byteArray s).map byteOf = codes s := by
  unfold byteArray codes
  rw [List.map_map]
  apply List.map_congr_left
  intro b _
  have := b.toNat_lt
  simp only [Function.comp, byteOf]
  omega

theorem byteArray_length (s : Bytes) : (byteArray s).length = s.length := by simp [byteArray]

/-- What is written for a value: the writes of the C++ marshaller. -/
def Writes (strOk : Bytes → Bool) (ver : Version) (ops : List PackOp) (l : List Nat) : Prop :=
  ∃ ws, run strOk ver ops = (ws, none) ∧ stored l = ws.flatten

theorem Writes.one {strOk : Bytes → Bool} {ver : Version} {op : PackOp} {ws : List Bytes} {l : List Nat}
    (h : pack strOk ver op = (ws, none)) (hl : stored l = ws.flatten) : Writes strOk ver [op] l := ⟨ws, run_one h, hl⟩

theorem Writes.append {strOk : Bytes → Bool} {ver : Version} {a b : List PackOp} {l m : List Nat}
    (h1 : Writes strOk ver a l) (h2 : Writes strOk ver b m) : Writes strOk ver (a ++ b) (l ++ m) := by
  obtain ⟨w1, r1, e1⟩ := h1
  obtain ⟨w2, r2, e2⟩ := h2
  refine ⟨w1 ++ w2, ?_, by rw [stored_append, e1, e2, List.flatten_append]⟩
  rw [run_append strOk ver a b w1 r1, r2]

theorem blob_writes (ver : Version) (h : 2 ≤ ver.major) {t : Nat} (ht : t < 32) (s : Bytes) (hs : s.length < 2 ^ 30) :
    stored (header t s.length ++ codes s) = (sized ver t s.length ++ [s]).flatten := by
  rw [stored_append, header_eq ver h ht _ (by omega), stored_codes]
  simp

theorem binary_writes {strOk : Bytes → Bool} (ver : Version) (h : 2 ≤ ver.major) (s : Bytes) (hs : s.length < 2 ^ 30) :
    Writes strOk ver (feed (.binary s)) (header 6 s.length ++ codes s) := by
  rw [feed, sz32_take hs]
  exact Writes.one rfl (blob_writes ver h (by decide) s hs)

theorem double_writes {strOk : Bytes → Bool} (ver : Version) (b : BitVec 64) {l : List Nat} (h : stored l = leBytes 8 b.toNat) :
    Writes strOk ver (feed (.double b)) (3 * 8 :: l) := by
  rw [feed]
  refine Writes.one rfl ?_
  rw [stored_cons, h]
  simp [T_DOUBLE]
  rfl

mutual
/-- A value that can be sent is written as the C++ marshaller writes a value it means. -/
theorem serialize_raw {H : Host} {strOk : Bytes → Bool} {version : Nat} {hints : Hints} : ∀ (js : Js) (path : List Bytes),
    JsSendable H strOk version hints path js →
    ∃ v, Raw hints path js v ∧ WireOk strOk (verOf version) v ∧ Writes strOk (verOf version) (feed v) (serialize H version hints path js)
  | .null, path, _ => by
    refine ⟨.null, by rw [Raw], by rw [WireOk]; exact verOf_null version, ?_⟩
    rw [feed, serialize]
    refine Writes.one (ws := [[dataType T_NULL 0]]) ?_ rfl
    unfold verOf
    split <;> rfl
  | .bool b, path, _ => by
    refine ⟨.bool b, by rw [Raw], by rw [WireOk]; trivial, ?_⟩
    rw [feed, serialize]
    refine Writes.one rfl ?_
    cases b <;> rfl
  | .int n, path, h => by
    rw [JsSendable] at h
    obtain ⟨hn, h⟩ := h
    rw [serialize, getHint_eq]
    by_cases hf : hintAt hints path = some .float
    · rw [if_pos hf] at h
      obtain ⟨b, hb, he⟩ := ofInt_eq H n hn h
      refine ⟨.double b, by rw [Raw, if_pos hf]; exact ⟨b, rfl, hb⟩, by rw [WireOk]; trivial, ?_⟩
      rw [if_pos hf]
      exact double_writes _ b he
    · rw [if_neg hf] at h
      refine ⟨.int n, by rw [Raw, if_neg hf], ?_, ?_⟩
      · rw [WireOk]
        refine ⟨by unfold IsI64; omega, fun h1 => absurd (verOf_major version) (by rw [h1]; decide)⟩
      · rw [if_neg hf, feed]
        exact Writes.one rfl (serializeInt_eq version n hn h)
  | .num x, path, h => by
    rw [JsSendable] at h
    obtain ⟨hf, hx⟩ := h
    obtain ⟨b, hb, he⟩ := encodeDouble_eq H x hx
    refine ⟨.double b, by rw [Raw]; exact ⟨hf, b, rfl, hb⟩, by rw [WireOk]; trivial, ?_⟩
    rw [serialize, getHint_eq, if_pos hf]
    exact double_writes _ b he
  | .str s, path, h => by
    rw [JsSendable] at h
    refine ⟨.string s, by rw [Raw], by rw [WireOk]; exact h, ?_⟩
    rw [feed, sz32_take h.1, serialize]
    refine Writes.one (ws := sized (verOf version) T_STRING s.length ++ [s]) ?_ (blob_writes _ (verOf_major version) (by decide) s h.1)
    simp only [pack, packString, h.2, if_true]
  | .date d, path, h => by
    rw [JsSendable] at h
    obtain ⟨h1, h2⟩ := serializeDate_eq version d h
    refine ⟨.dateTime (dateOf d), by rw [Raw], ?_, ?_⟩
    · rw [WireOk]
      have h3 := h.since
      have h4 := h.before.1
      unfold IsI64 dateOf
      simp only
      omega
    · rw [feed, serialize]
      exact Writes.one h1 h2
  | .buffer s, path, h => by
    rw [JsSendable] at h
    refine ⟨.binary s, by rw [Raw], by rw [WireOk]; exact h, ?_⟩
    rw [serialize]
    exact binary_writes _ (verOf_major version) s h
  | .binary l, path, h => by
    rw [JsSendable] at h
    obtain ⟨hl, s, rfl⟩ := h
    rw [byteArray_length] at hl
    refine ⟨.binary s, by rw [Raw]; exact ⟨s, rfl, rfl⟩, by rw [WireOk]; exact hl, ?_⟩
    rw [serialize, byteArray_length, byteArray_bytes]
    exact binary_writes _ (verOf_major version) s hl
  | .float x, path, h => by
    rw [JsSendable] at h
    obtain ⟨b, hb, he⟩ := encodeDouble_eq H x h
    refine ⟨.double b, by rw [Raw]; exact ⟨b, rfl, hb⟩, by rw [WireOk]; trivial, ?_⟩
    rw [serialize]
    exact double_writes _ b he
  | .arr js, path, h => by
    rw [JsSendable] at h
    obtain ⟨hl, h⟩ := h
    rw [serialize, getHint_eq]
    by_cases hf : hintAt hints path = some .binary
    · rw [if_pos hf] at h
      obtain ⟨s, rfl⟩ := h
      rw [byteArray_length] at hl
      refine ⟨.binary s, by rw [Raw, if_pos hf]; exact ⟨s, rfl, rfl⟩, by rw [WireOk]; exact hl, ?_⟩
      rw [if_pos hf, byteArray_length, byteArray_bytes]
      exact binary_writes _ (verOf_major version) s hl
    · rw [if_neg hf] at h
      obtain ⟨vs, r, w, hlen, hw⟩ := serialize_rawItems js path 0 h
      refine ⟨.array vs, by rw [Raw, if_neg hf]; exact ⟨vs, rfl, r⟩, by rw [WireOk, hlen]; exact ⟨hl, w⟩, ?_⟩
      rw [if_neg hf, feed, hlen, sz32_eq hl]
      exact Writes.append (Writes.one rfl (header_eq _ (verOf_major version) (by decide) _ (by omega))) hw
  | .obj js, path, h => by
    rw [JsSendable] at h
    obtain ⟨hl, _, h⟩ := h
    obtain ⟨ms, r, w, hlen, hw⟩ := serialize_rawMembers js path h
    refine ⟨.struct ms, by rw [Raw]; exact ⟨ms, rfl, r⟩, by rw [WireOk, hlen]; exact ⟨hl, w⟩, ?_⟩
    rw [serialize, feed, hlen, sz32_eq hl]
    exact Writes.append (Writes.one rfl (header_eq _ (verOf_major version) (by decide) _ (by omega))) hw
theorem serialize_rawItems {H : Host} {strOk : Bytes → Bool} {version : Nat} {hints : Hints} : ∀ (js : List Js) (path : List Bytes) (i : Nat),
    JsSendableItems H strOk version hints path i js →
    ∃ vs, RawItems hints path i js vs ∧ WireOkItems strOk (verOf version) vs ∧ vs.length = js.length ∧
      Writes strOk (verOf version) (feedItems vs) (serializeItems H version hints path i js)
  | [], path, i, _ => ⟨[], by rw [RawItems], by rw [WireOkItems]; trivial, rfl, ⟨[], rfl, by rw [serializeItems]; rfl⟩⟩
  | j :: js, path, i, h => by
    rw [JsSendableItems] at h
    obtain ⟨v, r1, w1, b1⟩ := serialize_raw j (path ++ [dec i]) h.1
    obtain ⟨vs, r2, w2, hl, b2⟩ := serialize_rawItems js path (i + 1) h.2
    refine ⟨v :: vs, by rw [RawItems]; exact ⟨v, vs, rfl, r1, r2⟩, by rw [WireOkItems]; exact ⟨w1, w2⟩, by simp [hl], ?_⟩
    rw [feedItems, serializeItems]
    exact b1.append b2
theorem serialize_rawMembers {H : Host} {strOk : Bytes → Bool} {version : Nat} {hints : Hints} : ∀ (js : List (Bytes × Js)) (path : List Bytes),
    JsSendableMembers H strOk version hints path js →
    ∃ ms, RawMembers hints path js ms ∧ WireOkMembers strOk (verOf version) ms ∧ ms.length = js.length ∧
      Writes strOk (verOf version) (feedMembers ms) (serializeMembers H version hints path js)
  | [], path, _ => ⟨[], by rw [RawMembers], by rw [WireOkMembers]; trivial, rfl, ⟨[], rfl, by rw [serializeMembers]; rfl⟩⟩
  | (k, j) :: js, path, h => by
    rw [JsSendableMembers] at h
    obtain ⟨hk, h1, h2⟩ := h
    obtain ⟨v, r1, w1, b1⟩ := serialize_raw j (path ++ [k]) h1
    obtain ⟨ms, r2, w2, hl, b2⟩ := serialize_rawMembers js path h2
    refine ⟨(k, v) :: ms, by rw [RawMembers]; exact ⟨v, ms, rfl, r1, r2⟩, by rw [WireOkMembers]; exact ⟨hk, w1, w2⟩, by simp [hl], ?_⟩
    rw [feedMembers, serializeMembers, sz32_take (by omega)]
    have e : Writes strOk (verOf version) [.packStructMember k] (k.length :: codes k) := by
      refine Writes.one (ws := [[UInt8.ofNat k.length], k]) ?_ ?_
      · have hc : (decide (k.length > 255) || k.length == 0) = false := by
          rw [Bool.or_eq_false_iff]; exact ⟨decide_eq_false (by omega), beq_eq_false_iff_ne.2 (by omega)⟩
        simp only [pack, hc]; rfl
      · rw [stored_cons, stored_codes]; simp
    exact e.append (b1.append b2)
end

/-! ### What the receiver has -/

theorem insert_perm {α} (k : Bytes) (v : α) : ∀ ms : List (Bytes × α), k ∉ ms.map (·.1) →
    (SMap.insert k v ms).2 = true ∧ (SMap.insert k v ms).1.Perm ((k, v) :: ms)
  | [], _ => by simp [SMap.insert]
  | (k', v') :: ms, h => by
    simp only [List.map_cons, List.mem_cons, not_or] at h
    unfold SMap.insert
    by_cases h1 : keyLt k k' = true
    · simp [h1]
    · simp only [h1, if_neg h.1]
      obtain ⟨i1, i2⟩ := insert_perm k v ms h.2
      exact ⟨i1, (i2.cons _).trans (List.Perm.swap _ _ _)⟩

theorem collect_perm : ∀ (ms acc : List (Bytes × Value)), (ms.map (·.1)).Nodup → (∀ m ∈ ms, m.1 ∉ acc.map (·.1)) → Sorted acc →
    (collect acc ms).Perm (acc ++ ms) ∧ Sorted (collect acc ms)
  | [], acc, _, _, hs => ⟨by simp [collect], hs⟩
  | (k, v) :: ms, acc, hn, hd, hs => by
    simp only [List.map_cons, List.nodup_cons] at hn
    have hk := hd (k, v) List.mem_cons_self
    obtain ⟨i1, i2⟩ := insert_perm k v acc hk
    have e : SMap.append k v acc = (SMap.insert k v acc).1 := by unfold SMap.append; simp [i1]
    have hs' := (append_spec k v acc hs).2.1
    have hp : (SMap.append k v acc).Perm ((k, v) :: acc) := by rw [e]; exact i2
    obtain ⟨c1, c2⟩ := collect_perm ms (SMap.append k v acc) hn.2 (fun m hm hc => by
      have := (hp.map (·.1)).mem_iff.1 hc
      simp only [List.map_cons, List.mem_cons] at this
      rcases this with h | h
      · exact hn.1 (h ▸ List.mem_map_of_mem hm)
      · exact hd m (List.mem_cons_of_mem _ hm) h) hs'
    refine ⟨?_, c2⟩
    refine c1.trans ((hp.append_right ms).trans ?_)
    exact List.perm_middle.symm

theorem MeansMembers.perm {hints : Hints} {path : List Bytes} {js : List (Bytes × Js)} {a b : List (Bytes × Value)} (hp : b.Perm a)
    (h : MeansMembers hints path js a) : MeansMembers hints path js b := by
  cases js with
  | nil => rw [MeansMembers] at h ⊢; subst h; exact hp.eq_nil
  | cons kj js =>
    obtain ⟨k, j⟩ := kj
    rw [MeansMembers] at h ⊢
    obtain ⟨w, ws, p, m, r⟩ := h
    exact ⟨w, ws, hp.trans p, m, r⟩

theorem RawMembers.keys {hints : Hints} {path : List Bytes} : ∀ {js : List (Bytes × Js)} {ms : List (Bytes × Value)},
    RawMembers hints path js ms → ms.map (·.1) = js.map (·.1)
  | [], ms, h => by rw [RawMembers] at h; subst h; rfl
  | (k, j) :: js, ms, h => by
    rw [RawMembers] at h
    obtain ⟨w, ws, rfl, _, r⟩ := h
    simp [RawMembers.keys r]

theorem dateOf_received (cfg : TreeBuilder.Cfg) (hcfg : cfg.mktime = none) (version : Nat) (d : Date) (h : DateSendable version d) :
    cfg.date (receivedDate (verOf version) (dateOf d)) = dateOf d := by
  obtain ⟨hw, h0, hb, ⟨q, hq1, hq2, hq⟩, hy, hmo, hd, hh, hmi, hs, hwd⟩ := h
  have hc : Calendar (dateOf d) := by
    unfold dateOf
    exact ⟨⟨by simp only; omega, by simp only; omega⟩, ⟨by simp only; omega, by simp only; omega⟩, ⟨by simp only; omega, by simp only; omega⟩,
      ⟨by simp only; omega, by simp only; omega⟩, ⟨by simp only; omega, by simp only; omega⟩, ⟨by simp only; omega, by simp only; omega⟩⟩
  rw [receivedDate_eq (verOf version) (dateOf d) hc hy ⟨q, hq1, hq2, by unfold dateOf; simp only [hq]; omega⟩]
  have ht : receivedTime (verOf version) (dateOf d).unixTime = (dateOf d).unixTime := by
    unfold receivedTime verOf
    by_cases hv : version = 3
    · rw [if_pos hv, if_pos (show (3 : UInt8) > 2 from by decide)]
    · have := hb.2 hv
      rw [if_neg hv, if_neg (show ¬ (2 : UInt8) > 2 from by decide)]
      unfold dateOf
      simp only
      rw [if_pos (by omega), i32_u32 (by unfold IsI32; omega)]
  rw [ht]
  simp [TreeBuilder.Cfg.date, hcfg]

mutual
theorem received_means {H : Host} {cfg : TreeBuilder.Cfg} (hcfg : cfg.mktime = none) {version : Nat} {hints : Hints} : ∀ (js : Js) (path : List Bytes) (v : Value),
    JsSendable H cfg.strOk version hints path js → Raw hints path js v → Means hints path js (received cfg (verOf version) v)
  | .null, path, v, _, r => by rw [Raw] at r; subst r; rw [Means, received] <;> simp
  | .bool b, path, v, _, r => by rw [Raw] at r; subst r; rw [Means, received] <;> simp
  | .int n, path, v, _, r => by
    rw [Raw] at r
    rw [Means]
    split at r
    · next hf =>
      obtain ⟨b, rfl, hb⟩ := r
      rw [received, if_pos hf] <;> simp
      exact hb
    · next hf =>
      subst r
      rw [received, if_neg hf] <;> simp
  | .num x, path, v, _, r => by
    rw [Raw] at r
    obtain ⟨hf, b, rfl, hb⟩ := r
    rw [Means, received] <;> simp
    exact ⟨hf, hb⟩
  | .str s, path, v, _, r => by rw [Raw] at r; subst r; rw [Means, received] <;> simp
  | .date d, path, v, h, r => by
    rw [Raw] at r
    subst r
    rw [JsSendable] at h
    rw [Means, received, dateOf_received cfg hcfg version d h]
  | .buffer s, path, v, _, r => by rw [Raw] at r; subst r; rw [Means, received] <;> simp
  | .binary l, path, v, _, r => by
    rw [Raw] at r
    obtain ⟨s, rfl, hs⟩ := r
    rw [Means, received] <;> simp
    exact hs
  | .float x, path, v, _, r => by
    rw [Raw] at r
    obtain ⟨b, rfl, hb⟩ := r
    rw [Means, received] <;> simp
    exact hb
  | .arr js, path, v, h, r => by
    rw [Raw] at r
    rw [JsSendable] at h
    rw [Means]
    by_cases hf : hintAt hints path = some .binary
    · rw [if_pos hf] at r ⊢
      obtain ⟨s, rfl, hs⟩ := r
      rw [received] <;> simp
      exact hs
    · rw [if_neg hf] at r ⊢
      rw [if_neg hf] at h
      obtain ⟨vs, rfl, hs⟩ := r
      rw [received]
      exact ⟨_, rfl, received_meansItems hcfg js path 0 vs h.2 hs⟩
  | .obj js, path, v, h, r => by
    rw [Raw] at r
    rw [JsSendable] at h
    rw [Means]
    obtain ⟨ms, rfl, hs⟩ := r
    rw [received]
    have hk : ((receivedMembers cfg (verOf version) ms).map (·.1)).Nodup := by
      rw [receivedMembers_keys, RawMembers.keys hs]; exact h.2.1
    obtain ⟨c1, c2⟩ := collect_perm (receivedMembers cfg (verOf version) ms) [] hk (by simp) List.Pairwise.nil
    exact ⟨_, rfl, c2, MeansMembers.perm c1 (received_meansMembers hcfg js path ms h.2.2 hs)⟩
theorem received_meansItems {H : Host} {cfg : TreeBuilder.Cfg} (hcfg : cfg.mktime = none) {version : Nat} {hints : Hints} : ∀ (js : List Js) (path : List Bytes) (i : Nat) (vs : List Value),
    JsSendableItems H cfg.strOk version hints path i js → RawItems hints path i js vs → MeansItems hints path i js (receivedItems cfg (verOf version) vs)
  | [], path, i, vs, _, r => by rw [RawItems] at r; subst r; rw [MeansItems, receivedItems]
  | j :: js, path, i, vs, h, r => by
    rw [RawItems] at r
    rw [JsSendableItems] at h
    obtain ⟨w, ws, rfl, r1, r2⟩ := r
    rw [MeansItems, receivedItems]
    exact ⟨_, _, rfl, received_means hcfg j _ w h.1 r1, received_meansItems hcfg js path (i + 1) ws h.2 r2⟩
theorem received_meansMembers {H : Host} {cfg : TreeBuilder.Cfg} (hcfg : cfg.mktime = none) {version : Nat} {hints : Hints} : ∀ (js : List (Bytes × Js)) (path : List Bytes) (ms : List (Bytes × Value)),
    JsSendableMembers H cfg.strOk version hints path js → RawMembers hints path js ms → MeansMembers hints path js (receivedMembers cfg (verOf version) ms)
  | [], path, ms, _, r => by rw [RawMembers] at r; subst r; rw [MeansMembers, receivedMembers]
  | (k, j) :: js, path, ms, h, r => by
    rw [RawMembers] at r
    rw [JsSendableMembers] at h
    obtain ⟨w, ws, rfl, r1, r2⟩ := r
    rw [MeansMembers, receivedMembers]
    exact ⟨_, _, List.Perm.refl _, received_means hcfg j _ w h.2.1 r1, received_meansMembers hcfg js path ws h.2.2 r2⟩
end

end Js
end Frpc
