import Verif.Basic.Decimal
/-!
# Hexadecimal numerals, as `operator<<` writes them with `std::hex`
-/
namespace Frpc

/-- Lower-case hexadecimal digit. -/
def hexChar (d : Nat) : UInt8 := UInt8.ofNat (if d < 10 then 48 + d else 87 + d)

/-- Hexadecimal digits, most significant first; `0` is `"0"`. -/
def hex (n : Nat) : Bytes :=
  if h : n < 16 then [hexChar n] else hex (n / 16) ++ [hexChar (n % 16)]
termination_by n
decreasing_by omega

theorem hex_ne_nil (n : Nat) : hex n ≠ [] := by unfold hex; split <;> simp

/-- Digits `0-9a-f`. -/
def isHexLower (c : UInt8) : Bool := isDigit c || decide (97 ≤ c.toNat ∧ c.toNat ≤ 102)

theorem hexChar_lower {d : Nat} (h : d < 16) : isHexLower (hexChar d) = true := by
  have : ∀ d, d < 16 → isHexLower (hexChar d) = true := by decide
  exact this d h

theorem hex_lower (n : Nat) : ∀ c ∈ hex n, isHexLower c = true := by
  induction n using Nat.strongRecOn with
  | _ n ih =>
    unfold hex
    split
    · next h => intro c hc; simp at hc; subst hc; exact hexChar_lower h
    · next h =>
      intro c hc
      rcases List.mem_append.1 hc with hc | hc
      · exact ih _ (by omega) c hc
      · simp at hc; subst hc; exact hexChar_lower (by omega)

end Frpc
