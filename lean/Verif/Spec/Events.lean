import Verif.Model.Value
/-!
# Specification: which sequences of builder calls are legal

Written in terms of the builder interface only; no decoder notions.
-/
namespace Frpc
namespace Spec

/-- The two kinds of container. -/
inductive CKind where | struct | array
deriving Repr, DecidableEq, Inhabited

/-- An open container: how many items it still has to receive, and whether a member
name was given that still waits for its value. -/
structure Open where
  kind : CKind
  left : Nat
  named : Bool
deriving Repr, DecidableEq, Inhabited

/-- A value starts: an enclosing array must still expect an item, an enclosing struct
must have been given a name; the item is counted. -/
def item : List Open → Option (List Open)
  | [] => some []
  | ⟨.array, n + 1, false⟩ :: s => some (⟨.array, n, false⟩ :: s)
  | ⟨.struct, n + 1, true⟩ :: s => some (⟨.struct, n, false⟩ :: s)
  | _ => none

/-- Effect of one builder call on the open containers; `none` if illegal. -/
def nest (s : List Open) : Event → Option (List Open)
  | .int _ | .bool _ | .double _ | .string _ | .dateTime _ | .binary _ | .null => item s
  | .openStruct n => do return ⟨.struct, n, false⟩ :: (← item s)
  | .openArray n => do return ⟨.array, n, false⟩ :: (← item s)
  | .closeStruct =>
    match s with
    | ⟨.struct, 0, false⟩ :: s => some s
    | _ => none
  | .closeArray =>
    match s with
    | ⟨.array, 0, false⟩ :: s => some s
    | _ => none
  | .member _ =>
    match s with
    | ⟨.struct, n + 1, false⟩ :: s => some (⟨.struct, n + 1, true⟩ :: s)
    | _ => none
  | .methodCall _ | .methodResponse | .fault _ _ => none

/-- Effect of a sequence of builder calls. -/
def run (s : List Open) : List Event → Option (List Open)
  | [] => some s
  | e :: es => (nest s e).bind fun s' => run s' es

theorem run_append (s : List Open) (a b : List Event) :
    run s (a ++ b) = (run s a).bind fun s' => run s' b := by
  induction a generalizing s with
  | nil => rfl
  | cons e es ih =>
    simp only [List.cons_append, run]
    cases nest s e with
    | none => rfl
    | some s' => simp [ih]

/-- The call opens a message of the given sort. -/
inductive Header where | call | response | fault
deriving Repr, DecidableEq

/-- A legal (possibly unfinished) sequence of calls: nothing yet, a fault alone, or a
method call / method response header followed by well nested values. -/
inductive Legal : List Event → Option Header → List Open → Prop
  | empty : Legal [] none []
  | fault (c m) : Legal [.fault c m] (some .fault) []
  | call (name) (body s) (h : run [] body = some s) : Legal (.methodCall name :: body) (some .call) s
  | response (body s) (h : run [] body = some s) : Legal (.methodResponse :: body) (some .response) s

/-- Sizes and names carried by a call are within the protocol's limits. -/
def Limited : Event → Prop
  | .methodCall n => 1 ≤ n.length ∧ n.length ≤ 255
  | .member n => 1 ≤ n.length ∧ n.length ≤ 255
  | .openStruct n | .openArray n => n < 2 ^ 30
  | .string s | .binary s => s.length < 2 ^ 30
  | .fault c m => IsI32 c ∧ m.length < 2 ^ 30
  | .int n => IsI64 n
  | _ => True

end Spec
end Frpc
