import Verif.Model.BinUnmarshaller
/-! # Encoding and decoding of tags, sizes and integers -/
namespace Frpc
open BinMarshaller BinUnMarshaller

/-! ### Tags -/

theorem dataType_tag {t i : Nat} (ht : t < 32) (hi : i < 8) : (dataType t i).toNat >>> 3 = t := by
  have : ∀ t : Fin 32, ∀ i : Fin 8, (dataType t.val i.val).toNat >>> 3 = t.val := by decide
  exact this ⟨t, ht⟩ ⟨i, hi⟩

theorem dataType_info {t i : Nat} (ht : t < 32) (hi : i < 8) : (dataType t i).toNat &&& 7 = i := by
  have : ∀ t : Fin 32, ∀ i : Fin 8, (dataType t.val i.val).toNat &&& 7 = i.val := by decide
  exact this ⟨t, ht⟩ ⟨i, hi⟩

/-! ### Sizes -/

/-- The versions both sides support. -/
def Version.Known (ver : Version) : Prop := 1 ≤ ver.major ∧ ver.major ≤ 3

theorem Version.Known.cases {ver : Version} (h : ver.Known) : ver.major = 1 ∨ ver.major = 2 ∨ ver.major = 3 := by
  obtain ⟨h1, h2⟩ := h
  have h1 : (1 : UInt8).toNat ≤ ver.major.toNat := h1
  have h2 : ver.major.toNat ≤ (3 : UInt8).toNat := h2
  have e1 : (1 : UInt8).toNat = 1 := rfl
  have e3 : (3 : UInt8).toNat = 3 := rfl
  have : ver.major.toNat = 1 ∨ ver.major.toNat = 2 ∨ ver.major.toNat = 3 := by omega
  rcases this with h | h | h
  · exact .inl (UInt8.toNat_inj.1 h)
  · exact .inr (.inl (UInt8.toNat_inj.1 h))
  · exact .inr (.inr (UInt8.toNat_inj.1 h))

theorem getNumberType_lt (ver : Version) (n : Int) : getNumberType ver n < 8 := by
  unfold getNumberType
  simp only
  repeat' split
  all_goals omega

theorem getNumberSize_bound (ver : Version) (n : Int) :
    1 ≤ getNumberSize ver (getNumberType ver n) ∧ getNumberSize ver (getNumberType ver n) ≤ 8 := by
  unfold getNumberSize getNumberType
  simp only
  repeat' split
  all_goals omega

/-- The chosen size holds the 64-bit pattern (32-bit pattern below major 2). -/
theorem getNumberSize_fits (ver : Version) (n : Int) (h : ver.major < 2 → u64 n < 2 ^ 32) :
    u64 n < 256 ^ getNumberSize ver (getNumberType ver n) := by
  have h64 := u64_lt n
  unfold getNumberSize getNumberType
  simp only
  by_cases hv : ver.major < 2
  · have hu : u32 n = u64 n := by
      have := h hv
      unfold u32 u64 at *
      omega
    simp only [hv, if_true, hu]
    have := h hv
    repeat' split
    all_goals omega
  · simp only [hv, if_false]
    repeat' split
    all_goals omega

theorem number_length (n : Int) {k : Nat} (hk : k ≤ 8) : (number n k).length = k := by
  simp [number]; omega

theorem leNat_number {n : Int} {k : Nat} (hk : k ≤ 8) (h : u64 n < 256 ^ k) : leNat (number n k) = u64 n := by
  unfold number
  rw [leBytes_take _ _ _ hk, leNat_leBytes _ _ h]

/-- What a size written by the marshaller is read as. -/
theorem getInt64_number {n : Int} {k : Nat} (hk : k ≤ 8) (h : u64 n < 256 ^ k) (hn : IsI64 n) :
    getInt64 (number n k) k = .ok n := by
  unfold getInt64
  rw [if_neg (by rw [number_length n hk]; omega), List.take_of_length_le (by rw [number_length n hk]; omega),
    leNat_number hk h, i64_u64 hn]

theorem lengthSize_number {ver : Version} (hv : ver.Known) {t : Nat} (ht : t < 32) (n : Int) :
    lengthSize (ver.major ≥ 2) (dataType t (getNumberType ver n)) = .ok (getNumberSize ver (getNumberType ver n)) := by
  unfold lengthSize
  simp only [dataType_info ht (getNumberType_lt ver n)]
  rcases hv.cases with h | h | h <;> simp only [h]
  · rw [if_neg (by decide)]
    have : 1 ≤ getNumberType ver n ∧ getNumberType ver n ≤ 4 := by
      unfold getNumberType; simp [h]; repeat' split
      all_goals omega
    rw [if_neg (by omega)]
    simp [getNumberSize, h]
  · rw [if_pos (by decide)]; simp [getNumberSize, h]
  · rw [if_pos (by decide)]; simp [getNumberSize, h]

theorem u64_natCast {n : Nat} (h : n < 2 ^ 64) : u64 (n : Int) = n := by
  unfold u64; omega

/-! ### Zig-zag and sign-magnitude integers -/

theorem zigzagEncode_nonneg {n : Int} (h0 : 0 ≤ n) (h : n < 2 ^ 63) : zigzagEncode n = 2 * n.toNat := by
  unfold zigzagEncode
  obtain ⟨m, rfl⟩ := Int.eq_ofNat_of_zero_le h0
  have hm : m < 2 ^ 63 := by omega
  have hb : BitVec.ofInt 64 (m : Int) = BitVec.ofNat 64 m := by simp
  rw [hb]
  have hmsb : (BitVec.ofNat 64 m).msb = false := by
    rw [BitVec.msb_eq_false_iff_two_mul_lt]
    simp only [BitVec.toNat_ofNat]
    omega
  have hs : (BitVec.ofNat 64 m).sshiftRight 63 = 0#64 := by
    apply BitVec.eq_of_toNat_eq
    rw [BitVec.sshiftRight_eq_of_msb_false hmsb]
    simp only [BitVec.toNat_ushiftRight, BitVec.toNat_ofNat, Nat.shiftRight_eq_div_pow]
    omega
  rw [hs, BitVec.xor_zero]
  simp only [BitVec.toNat_shiftLeft, BitVec.toNat_ofNat, Nat.shiftLeft_eq]
  simp only [Int.toNat_natCast]
  omega

theorem zigzagEncode_neg {n : Int} (h0 : n < 0) (h : -(2 : Int) ^ 63 ≤ n) : zigzagEncode n = 2 * (-n).toNat - 1 := by
  unfold zigzagEncode
  have hx : (BitVec.ofInt 64 n).toNat = 2 ^ 64 - (-n).toNat := by
    rw [BitVec.toNat_ofInt]; omega
  have hmsb : (BitVec.ofInt 64 n).msb = true := by
    rw [BitVec.msb_eq_true_iff_two_mul_ge, hx]
    omega
  have hs : (BitVec.ofInt 64 n).sshiftRight 63 = BitVec.allOnes 64 := by
    rw [BitVec.sshiftRight_eq_of_msb_true hmsb]
    apply BitVec.eq_of_toNat_eq
    have : (~~~(BitVec.ofInt 64 n) >>> 63) = 0#64 := by
      apply BitVec.eq_of_toNat_eq
      simp only [BitVec.toNat_ushiftRight, BitVec.toNat_not, hx, Nat.shiftRight_eq_div_pow, BitVec.toNat_ofNat]
      omega
    rw [this]; rfl
  rw [hs, BitVec.xor_allOnes]
  simp only [BitVec.toNat_not, BitVec.toNat_shiftLeft, hx, Nat.shiftLeft_eq]
  omega

theorem zigzagEncode_lt (n : Int) : zigzagEncode n < 2 ^ 64 := by
  unfold zigzagEncode; exact BitVec.isLt _

theorem zigzagDecode_even (m : Nat) (h : 2 * m < 2 ^ 64) : zigzagDecode (i64 (2 * m)) = m := by
  unfold zigzagDecode
  have hb : BitVec.ofInt 64 (i64 (2 * m)) = BitVec.ofNat 64 (2 * m) := by
    apply BitVec.eq_of_toNat_eq
    rw [BitVec.toNat_ofInt, BitVec.toNat_ofNat]
    unfold i64; split <;> omega
  simp only [hb]
  have ha : BitVec.ofNat 64 (2 * m) &&& 1#64 = 0#64 := by
    apply BitVec.eq_of_toNat_eq
    simp only [BitVec.toNat_and, BitVec.toNat_ofNat]
    rw [show 1 % 2 ^ 64 = 2 ^ 1 - 1 from rfl, Nat.and_two_pow_sub_one_eq_mod]
    omega
  rw [ha]
  have hs : BitVec.ofNat 64 (2 * m) >>> 1 = BitVec.ofNat 64 m := by
    apply BitVec.eq_of_toNat_eq
    simp only [BitVec.toNat_ushiftRight, BitVec.toNat_ofNat, Nat.shiftRight_eq_div_pow]
    omega
  rw [hs]
  have : BitVec.ofNat 64 m ^^^ -0#64 = BitVec.ofNat 64 m := by simp
  rw [this, BitVec.toInt_eq_toNat_of_lt]
  · rw [BitVec.toNat_ofNat]; congr 1; omega
  · rw [BitVec.toNat_ofNat]; omega

theorem zigzagDecode_odd (m : Nat) (h : 2 * m + 1 < 2 ^ 64) : zigzagDecode (i64 (2 * m + 1)) = -(m : Int) - 1 := by
  unfold zigzagDecode
  have hb : BitVec.ofInt 64 (i64 (2 * m + 1)) = BitVec.ofNat 64 (2 * m + 1) := by
    apply BitVec.eq_of_toNat_eq
    rw [BitVec.toNat_ofInt, BitVec.toNat_ofNat]
    unfold i64; split <;> omega
  simp only [hb]
  have ha : BitVec.ofNat 64 (2 * m + 1) &&& 1#64 = 1#64 := by
    apply BitVec.eq_of_toNat_eq
    simp only [BitVec.toNat_and, BitVec.toNat_ofNat]
    rw [show 1 % 2 ^ 64 = 2 ^ 1 - 1 from rfl, Nat.and_two_pow_sub_one_eq_mod]
    omega
  rw [ha]
  have hs : BitVec.ofNat 64 (2 * m + 1) >>> 1 = BitVec.ofNat 64 m := by
    apply BitVec.eq_of_toNat_eq
    simp only [BitVec.toNat_ushiftRight, BitVec.toNat_ofNat, Nat.shiftRight_eq_div_pow]
    omega
  rw [hs]
  have : (-1#64 : BitVec 64) = BitVec.allOnes 64 := by decide
  rw [this, BitVec.xor_allOnes, BitVec.toInt_eq_toNat_cond]
  simp only [BitVec.toNat_not, BitVec.toNat_ofNat]
  rw [if_neg (by omega)]
  omega

/-- Zig-zag decoding inverts encoding on every `int64_t`. -/
theorem zigzag_inv {n : Int} (h : IsI64 n) : zigzagDecode (i64 (zigzagEncode n)) = n := by
  unfold IsI64 at h
  by_cases h0 : 0 ≤ n
  · rw [zigzagEncode_nonneg h0 h.2, zigzagDecode_even _ (by omega)]; omega
  · rw [zigzagEncode_neg (by omega) h.1]
    have : 2 * (-n).toNat - 1 = 2 * ((-n).toNat - 1) + 1 := by omega
    rw [this, zigzagDecode_odd _ (by omega)]; omega

theorem safeAbs_eq {n : Int} (h : IsI64 n) : safeAbs n = n.natAbs := by
  unfold IsI64 at h; unfold safeAbs u64
  split <;> omega

/-- Negation of the magnitude restores every negative `int64_t`, including the least one. -/
theorem safeNegate_safeAbs {n : Int} (h : IsI64 n) (h0 : n < 0) : safeNegate (i64 (safeAbs n)) = n := by
  rw [safeAbs_eq h]; unfold IsI64 at h
  unfold safeNegate i64
  split <;> split <;> omega

end Frpc
