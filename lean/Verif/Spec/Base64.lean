import Verif.Basic.Bytes
/-!
# Specification: base64 as in RFC 4648 section 4

Arithmetic on byte values; nothing from the model.
-/
namespace Frpc
namespace Spec

/-- The character of the sextet `n < 64`: `A-Z`, `a-z`, `0-9`, `+`, `/`. -/
def b64char (n : Nat) : UInt8 :=
  if n < 26 then UInt8.ofNat (65 + n)
  else if n < 52 then UInt8.ofNat (97 + (n - 26))
  else if n < 62 then UInt8.ofNat (48 + (n - 52))
  else if n = 62 then 43
  else 47

/-- The padding character `=`. -/
def b64pad : UInt8 := 61

/-- Three bytes are four sextets; a last group of one or two bytes is padded. -/
def base64 : Bytes → Bytes
  | [] => []
  | [a] => [b64char (a.toNat / 4), b64char (a.toNat % 4 * 16), b64pad, b64pad]
  | [a, b] => [b64char (a.toNat / 4), b64char (a.toNat % 4 * 16 + b.toNat / 16), b64char (b.toNat % 16 * 4), b64pad]
  | a :: b :: c :: r =>
    b64char (a.toNat / 4) :: b64char (a.toNat % 4 * 16 + b.toNat / 16) ::
      b64char (b.toNat % 16 * 4 + c.toNat / 64) :: b64char (c.toNat % 64) :: base64 r

/-- White space of the C locale: tab, line feed, vertical tab, form feed, carriage return, space. -/
def IsSpace (c : UInt8) : Prop := c.toNat = 32 ∨ (9 ≤ c.toNat ∧ c.toNat ≤ 13)

instance : DecidablePred IsSpace := fun c => inferInstanceAs (Decidable (_ ∨ _))

end Spec
end Frpc
