import Verif.Basic.Decimal
/-!
# Letters (C locale `ctype` on bytes)
-/
namespace Frpc

/-- `isupper`. -/
def isUpper (c : UInt8) : Bool := decide (65 ≤ c.toNat ∧ c.toNat ≤ 90)
/-- `islower`. -/
def isLower (c : UInt8) : Bool := decide (97 ≤ c.toNat ∧ c.toNat ≤ 122)
/-- `isalnum`. -/
def isAlnum (c : UInt8) : Bool := isDigit c || isUpper c || isLower c
/-- `tolower`. -/
def toLower (c : UInt8) : UInt8 := if isUpper c then UInt8.ofNat (c.toNat + 32) else c
/-- `toupper`. -/
def toUpper (c : UInt8) : UInt8 := if isLower c then UInt8.ofNat (c.toNat - 32) else c

/-- Decision over all bytes by checking each (kernel-evaluated, complete). -/
theorem forall_byte (p : UInt8 → Bool) (h : (List.range 256).all (fun n => p (UInt8.ofNat n)) = true) (c : UInt8) : p c = true := by
  have hc : c.toNat ∈ List.range 256 := List.mem_range.2 c.toNat_lt
  have := List.all_eq_true.1 h _ hc
  simpa using this

theorem toLower_toUpper (c : UInt8) : toLower (toUpper c) = toLower c := by
  have := forall_byte (fun c => decide (toLower (toUpper c) = toLower c)) (by decide +kernel) c
  simpa using this
theorem toUpper_toLower (c : UInt8) : toUpper (toLower c) = toUpper c := by
  have := forall_byte (fun c => decide (toUpper (toLower c) = toUpper c)) (by decide +kernel) c
  simpa using this
theorem toLower_toLower (c : UInt8) : toLower (toLower c) = toLower c := by
  have := forall_byte (fun c => decide (toLower (toLower c) = toLower c)) (by decide +kernel) c
  simpa using this
theorem isAlnum_toLower (c : UInt8) : isAlnum (toLower c) = isAlnum c := by
  have := forall_byte (fun c => decide (isAlnum (toLower c) = isAlnum c)) (by decide +kernel) c
  simpa using this
theorem toLower_other {c : UInt8} (h : isAlnum c = false) : toLower c = c := by
  have := forall_byte (fun c => isAlnum c || decide (toLower c = c)) (by decide +kernel) c
  rw [h] at this
  simpa using this
theorem toLower_eq_iff {a b : UInt8} : toLower a = toLower b ↔ toUpper a = toUpper b := by
  constructor
  · intro h; rw [← toUpper_toLower a, h, toUpper_toLower]
  · intro h; rw [← toLower_toUpper a, h, toLower_toUpper]

end Frpc
