/-!
# Bytes, little-endian numbers, two's complement

Plain helper vocabulary shared by the model and the specifications.  Nothing in
here models program logic.
-/

namespace Frpc

/-- A byte string (`std::string`, `const char*` + length). -/
abbrev Bytes := List UInt8

/-- ASCII literal as bytes. -/
def asc (s : String) : Bytes := s.toList.map fun c => UInt8.ofNat c.toNat

/-- `k` low bytes of `n`, least significant first. -/
def leBytes : Nat → Nat → Bytes
  | 0, _ => []
  | k + 1, n => UInt8.ofNat (n % 256) :: leBytes k (n / 256)

/-- Little-endian value of a byte string. -/
def leNat : Bytes → Nat
  | [] => 0
  | b :: bs => b.toNat + 256 * leNat bs

/-- Two's complement 64-bit pattern of an integer (`static_cast<uint64_t>`). -/
def u64 (n : Int) : Nat := (n % (2 : Int) ^ 64).toNat

/-- Signed reading of a 64-bit pattern (`static_cast<int64_t>`). -/
def i64 (n : Nat) : Int := if n % 2 ^ 64 < 2 ^ 63 then (n % 2 ^ 64 : Nat) else (n % 2 ^ 64 : Nat) - (2 : Int) ^ 64

/-- Two's complement 32-bit pattern (`static_cast<uint32_t>`). -/
def u32 (n : Int) : Nat := (n % (2 : Int) ^ 32).toNat

/-- Signed reading of a 32-bit pattern (`static_cast<int32_t>`). -/
def i32 (n : Nat) : Int := if n % 2 ^ 32 < 2 ^ 31 then (n % 2 ^ 32 : Nat) else (n % 2 ^ 32 : Nat) - (2 : Int) ^ 32

/-- Signed reading of the low 16 bits (`static_cast<short>`). -/
def i16 (n : Int) : Int := if n % 65536 < 32768 then n % 65536 else n % 65536 - 65536

/-- Signed reading of the low 8 bits (`static_cast<char>`, `char` is signed). -/
def i8 (n : Int) : Int := if n % 256 < 128 then n % 256 else n % 256 - 256

/-- The integer is representable as `int64_t`. -/
def IsI64 (n : Int) : Prop := -(2 : Int) ^ 63 ≤ n ∧ n < (2 : Int) ^ 63

instance (n : Int) : Decidable (IsI64 n) := inferInstanceAs (Decidable (_ ∧ _))

/-- The integer is representable as `int32_t`. -/
def IsI32 (n : Int) : Prop := -(2 : Int) ^ 31 ≤ n ∧ n < (2 : Int) ^ 31

instance (n : Int) : Decidable (IsI32 n) := inferInstanceAs (Decidable (_ ∧ _))

/-! ## Lemmas -/

@[simp] theorem leBytes_length (k n : Nat) : (leBytes k n).length = k := by
  induction k generalizing n with
  | zero => rfl
  | succ k ih => simp [leBytes, ih]

theorem leNat_lt (bs : Bytes) : leNat bs < 256 ^ bs.length := by
  induction bs with
  | nil => simp [leNat]
  | cons b bs ih =>
    simp only [leNat, List.length_cons, Nat.pow_succ]
    have := b.toNat_lt
    omega

theorem leNat_leBytes (k n : Nat) (h : n < 256 ^ k) : leNat (leBytes k n) = n := by
  induction k generalizing n with
  | zero => simp at h; subst h; rfl
  | succ k ih =>
    have h2 : n / 256 < 256 ^ k := by
      rw [Nat.pow_succ] at h; omega
    simp only [leBytes, leNat, ih _ h2]
    have : (UInt8.ofNat (n % 256)).toNat = n % 256 := by
      simp [UInt8.toNat_ofNat']
    omega

theorem leBytes_take (k j n : Nat) (h : j ≤ k) : (leBytes k n).take j = leBytes j n := by
  induction k generalizing j n with
  | zero => have : j = 0 := by omega
            subst this; rfl
  | succ k ih =>
    cases j with
    | zero => rfl
    | succ j => simp [leBytes, ih j _ (by omega)]

theorem leBytes_leNat (bs : Bytes) : leBytes bs.length (leNat bs) = bs := by
  induction bs with
  | nil => rfl
  | cons b bs ih =>
    have hb := b.toNat_lt
    simp only [List.length_cons, leBytes, leNat]
    have h1 : (b.toNat + 256 * leNat bs) % 256 = b.toNat := by omega
    have h2 : (b.toNat + 256 * leNat bs) / 256 = leNat bs := by omega
    rw [h1, h2, ih]
    simp

theorem leNat_append (a b : Bytes) : leNat (a ++ b) = leNat a + 256 ^ a.length * leNat b := by
  induction a with
  | nil => simp [leNat]
  | cons x xs ih =>
    simp only [List.cons_append, leNat, ih, List.length_cons, Nat.pow_succ]
    rw [Nat.mul_add, ← Nat.mul_assoc, Nat.mul_comm (256 ^ xs.length) 256]
    omega

theorem u64_of_nonneg {n : Int} (h0 : 0 ≤ n) (h : n < (2 : Int) ^ 64) : (u64 n : Int) = n := by
  unfold u64
  rw [Int.toNat_of_nonneg (Int.emod_nonneg _ (by decide))]
  exact Int.emod_eq_of_lt h0 h

theorem u64_lt (n : Int) : u64 n < 2 ^ 64 := by
  unfold u64; omega

theorem i64_u64 {n : Int} (h : IsI64 n) : i64 (u64 n) = n := by
  unfold IsI64 at h; unfold i64 u64; omega

theorem u64_i64 {n : Nat} (h : n < 2 ^ 64) : u64 (i64 n) = n := by
  unfold i64 u64; split <;> omega

theorem i64_isI64 (n : Nat) : IsI64 (i64 n) := by
  unfold IsI64 i64; split <;> omega

theorem i32_isI32 (n : Nat) : IsI32 (i32 n) := by
  unfold IsI32 i32; split <;> omega

theorem i32_u32 {n : Int} (h : IsI32 n) : i32 (u32 n) = n := by
  unfold IsI32 at h; unfold i32 u32; omega

end Frpc
