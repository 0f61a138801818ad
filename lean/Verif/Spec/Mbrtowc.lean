import Verif.Spec.Utf8
import Verif.Model.StringValid
/-!
# Specification: `mbrtowc` of ISO C in a UTF-8 locale
-/
namespace Frpc
namespace Spec
open StringValid

/-- Unicode scalar values. -/
def Scalar (n : Nat) : Prop := n ≤ 0xD7FF ∨ (0xE000 ≤ n ∧ n ≤ 0x10FFFF)

/-- The character at the front of a text in UTF-8, and its length. -/
def CharAt (s : Bytes) (n k : Nat) : Prop := codePoint s = some (n, k) ∧ Scalar n

/-- The beginning of a character, not all of it. -/
def Unfinished (s : Bytes) : Prop := s ≠ [] ∧ ∃ r n k, CharAt (s ++ r) n k ∧ s.length < k

/-- `mbrtowc` in a UTF-8 locale: together with the bytes it holds, the bytes begin with a character, which is given; or are the beginning of
one, and are held; or neither. What it holds after the last is left open (ISO C: unspecified) as far as that: nothing, or what it held. -/
structure Utf8Mb (mb : Mbrtowc) : Prop where
  char : ∀ p s n k, CharAt (p ++ s) n k → p.length < k → n ≠ 0 → mb p s = (.char n (k - p.length), [])
  nul : ∀ p s k, CharAt (p ++ s) 0 k → p.length < k → (mb p s).1 = .nul
  unfinished : ∀ p s, Unfinished (p ++ s) → mb p s = (.incomplete, p ++ s)
  invalid : ∀ p s, (∀ n k, ¬ (CharAt (p ++ s) n k ∧ p.length < k)) → ¬ Unfinished (p ++ s) → ∃ st, mb p s = (.invalid, st) ∧ (st = [] ∨ st = p)

end Spec
end Frpc
