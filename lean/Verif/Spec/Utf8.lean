import Verif.Basic.Bytes
/-!
# Specification: UTF-8 (RFC 3629) and the characters of XML (XML 1.0, 2.2)
-/
namespace Frpc
namespace Spec

/-- Value of a continuation byte. -/
def contByte (c : UInt8) : Option Nat := if 0x80 ≤ c.toNat ∧ c.toNat ≤ 0xBF then some (c.toNat - 0x80) else none

/-- The code point at the front of a text and the number of its bytes, by the bit patterns of RFC 3629 section 3, the shortest form
only. -/
def codePoint : Bytes → Option (Nat × Nat)
  | [] => none
  | a :: s =>
    if a.toNat < 0x80 then some (a.toNat, 1)
    else if 0xC0 ≤ a.toNat ∧ a.toNat ≤ 0xDF then
      match s with
      | b :: _ =>
        match contByte b with
        | some b => let n := (a.toNat - 0xC0) * 64 + b; if 0x80 ≤ n then some (n, 2) else none
        | none => none
      | _ => none
    else if 0xE0 ≤ a.toNat ∧ a.toNat ≤ 0xEF then
      match s with
      | b :: c :: _ =>
        match contByte b, contByte c with
        | some b, some c => let n := ((a.toNat - 0xE0) * 64 + b) * 64 + c; if 0x800 ≤ n then some (n, 3) else none
        | _, _ => none
      | _ => none
    else if 0xF0 ≤ a.toNat ∧ a.toNat ≤ 0xF7 then
      match s with
      | b :: c :: d :: _ =>
        match contByte b, contByte c, contByte d with
        | some b, some c, some d =>
          let n := (((a.toNat - 0xF0) * 64 + b) * 64 + c) * 64 + d; if 0x10000 ≤ n then some (n, 4) else none
        | _, _, _ => none
      | _ => none
    else none

/-- Well-formed UTF-8 (RFC 3629): code points in the shortest form, up to U+10FFFF, without surrogates. The number is at least the number
of code points. -/
def utf8Within : Nat → Bytes → Bool
  | _, [] => true
  | 0, _ => false
  | n + 1, s =>
    match codePoint s with
    | none => false
    | some (c, k) => decide (c ≤ 0x10FFFF ∧ ¬ (0xD800 ≤ c ∧ c ≤ 0xDFFF)) && utf8Within n (s.drop k)

/-- The text is well-formed UTF-8. -/
def isUtf8 (s : Bytes) : Bool := utf8Within s.length s

/-- `Char` of XML 1.0 (2.2): the code points allowed in a document (surrogates and whatever is above U+10FFFF are not). -/
def isXmlChar (n : Nat) : Bool :=
  decide (n = 0x9 ∨ n = 0xA ∨ n = 0xD ∨ (0x20 ≤ n ∧ n ≤ 0xD7FF) ∨ (0xE000 ≤ n ∧ n ≤ 0xFFFD) ∨ (0x10000 ≤ n ∧ n ≤ 0x10FFFF))

end Spec
end Frpc
