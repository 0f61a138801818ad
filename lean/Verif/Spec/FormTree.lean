import Verif.Spec.UrlForm
import Verif.Model.TreeBuilder
/-!
# Specification: the arguments that a URL-encoded form gives
-/
namespace Frpc
namespace Spec

/-- The value that a scalar of the form gives to a receiver with that configuration. -/
def leaf (cfg : TreeBuilder.Cfg) : Event → Value
  | .int n => .int n
  | .bool b => .bool b
  | .double x => .double x
  | .string s => .string s
  | .dateTime d => .dateTime (cfg.date d)
  | _ => .null

/-- The form gives that member: the array of all values that have been given under `k[]`, in order, if there are any; else the first value given under `k`,
unless it is empty. -/
def FormMember (cfg : TreeBuilder.Cfg) (ps : List Piece) (k : Bytes) (v : Value) : Prop :=
  (valuesOf (k ++ asc "[]") ps ≠ [] ∧ v = .array ((valuesOf (k ++ asc "[]") ps).flatten.map (leaf cfg))) ∨
  (valuesOf (k ++ asc "[]") ps = [] ∧ (¬ ∃ m, k = m ++ asc "[]") ∧ ∃ e, (valuesOf k ps).head? = some [e] ∧ v = leaf cfg e)

/-- The members are those that the form gives, ordered by name. -/
def IsForm (cfg : TreeBuilder.Cfg) (ps : List Piece) (ms : List (Bytes × Value)) : Prop :=
  ms.Pairwise (fun a b => keyLt a.1 b.1 = true) ∧ ∀ k v, (k, v) ∈ ms ↔ FormMember cfg ps k v

/-- The strings given are ones that the receiver takes, and the names of members have at most 255 bytes. -/
def FormOk (cfg : TreeBuilder.Cfg) : Piece → Prop
  | .field n _ evs => n.length ≤ 255 ∧ ∀ s, Event.string s ∈ evs → cfg.strOk s = true
  | .junk _ => True

end Spec
end Frpc
