import Verif.Model.Value
/-!
# Specification: trees that differ only in hidden parts
-/
namespace Frpc
namespace Spec

/-- The trees differ only inside secret values, in members with a name of the set, at any depth, and in elements of the top array at one of the
positions. -/
inductive AlikeBut (names : List Bytes) : List Nat → Value → Value → Prop
  | same (pos : List Nat) (v : Value) : AlikeBut names pos v v
  | secret (pos : List Nat) (v w : Value) : AlikeBut names pos (.secret v) (.secret w)
  | array (pos : List Nat) (vs ws : List Value) (hl : vs.length = ws.length)
      (h : ∀ (i : Nat) v w, vs[i]? = some v → ws[i]? = some w → i ∉ pos → AlikeBut names [] v w) : AlikeBut names pos (.array vs) (.array ws)
  | struct (pos : List Nat) (ms ns : List (Bytes × Value)) (hk : ms.map (·.1) = ns.map (·.1))
      (h : ∀ (i : Nat) k v w, ms[i]? = some (k, v) → ns[i]? = some (k, w) → k ∉ names → AlikeBut names [] v w) : AlikeBut names pos (.struct ms) (.struct ns)

/-- The trees differ only in what is inside containers that are more than `n` containers deep. -/
inductive AlikeTo : Nat → Value → Value → Prop
  | same (n : Nat) (v : Value) : AlikeTo n v v
  | array0 (vs ws : List Value) : AlikeTo 0 (.array vs) (.array ws)
  | struct0 (ms ns : List (Bytes × Value)) : AlikeTo 0 (.struct ms) (.struct ns)
  | array (n : Nat) (vs ws : List Value) (hl : vs.length = ws.length)
      (h : ∀ (i : Nat) v w, vs[i]? = some v → ws[i]? = some w → AlikeTo n v w) : AlikeTo (n + 1) (.array vs) (.array ws)
  | struct (n : Nat) (ms ns : List (Bytes × Value)) (hk : ms.map (·.1) = ns.map (·.1))
      (h : ∀ (i : Nat) k v w, ms[i]? = some (k, v) → ns[i]? = some (k, w) → AlikeTo n v w) : AlikeTo (n + 1) (.struct ms) (.struct ns)

end Spec
end Frpc
