import Verif.Model.Secrets
/-!
# Specification: which values of a tree are secret
-/
namespace Frpc
namespace Spec
open Secrets (Seg)

/-- The value at this place of the tree (indexes of elements, names of members, from the root) is marked secret. -/
inductive SecretAt : Value → List Seg → Prop
  | here (v : Value) : SecretAt (.secret v) []
  | inside (v : Value) (p : List Seg) (h : SecretAt v p) : SecretAt (.secret v) p
  | item (vs : List Value) (i : Nat) (v : Value) (hi : vs[i]? = some v) (p : List Seg) (h : SecretAt v p) : SecretAt (.array vs) (.index i :: p)
  | member (ms : List (Bytes × Value)) (k : Bytes) (v : Value) (hk : (k, v) ∈ ms) (p : List Seg) (h : SecretAt v p) : SecretAt (.struct ms) (.key k :: p)

/-- The decimal numeral of the number has a 0 behind its first digit: 10, 20, ..., 100 to 110, ... -/
def InnerZero (i : Nat) : Prop := (48 : UInt8) ∈ (dec i).tail

/-- No secret value is within another one. -/
def Flat (v : Value) : Prop := ∀ p q, SecretAt v p → SecretAt v (p ++ q) → q = []

/-- The step of a pointer can be written and read: elements below 2^32; names are not empty and do not begin with more than 18 digits. -/
def Seg.Plain : Seg → Prop
  | .index i => i < 2 ^ 32
  | .key k => k ≠ [] ∧ (k.takeWhile isDigit).length ≤ 18

end Spec
end Frpc
