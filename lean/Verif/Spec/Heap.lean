import Verif.Model.Heap
import Verif.Spec.Descriptors
/-!
# Specification: objects that point to others
-/
namespace Frpc
namespace Spec.Heap
open Frpc.Heap (Node Mem Op)

/-- The objects an object points to. -/
def targets : Node → List Nat
  | .leaf _ => []
  | .arr ps => ps
  | .str ms => ms.map (·.2)
  | .secret p => [p]

/-- A living object points to another. -/
def Points (m : Mem) (x y : Nat) : Prop := ∃ n, m.node x = some n ∧ y ∈ targets n

/-- One is reached from the other along pointers. -/
inductive Reach (m : Mem) : Nat → Nat → Prop
  | refl (x) : Reach m x x
  | step {x y z} : Points m x y → Reach m y z → Reach m x z

/-- An endless path of pointers starts there. -/
def Endless (m : Mem) (x : Nat) : Prop := ∃ S : Nat → Prop, S x ∧ ∀ s, S s → ∃ y, Points m s y ∧ S y

/-- The object is that tree: it is alive and so is everything reached from it, and a walk ends and meets the tree. -/
def Is (m : Mem) (x : Nat) (v : Value) : Prop := ∃ depth, Frpc.Heap.read m depth x = .ok v

/-- The object that an operation changes. -/
def changes : Op → Option Nat
  | .push a _ => some a
  | .replace a _ _ => some a
  | .append s _ _ => some s
  | .insert s _ _ => some s
  | .erase s _ => some s
  | .clear x => some x
  | _ => none

/-- The operation changes the object, or deletes it. -/
def Touches (m : Mem) (op : Op) (x : Nat) : Prop := changes op = some x ∨ ∃ p, op = .free p ∧ x ∈ m.pool p

/-- Pools that lose values without deleting them: a pool that steals from itself, or is assigned to though it has values. -/
def Leaks (m : Mem) : Op → Prop
  | .steal p o => p = o
  | .move p o => p = o ∨ m.pool p ≠ []
  | _ => False

/-- None of a history leaks. -/
def NoLeaks (cfg : TreeBuilder.Cfg) (depth : Nat) : Mem → List Op → Prop
  | _, [] => True
  | m, op :: ops => ¬ Leaks m op ∧ NoLeaks cfg depth (Frpc.Heap.step cfg depth m op).1 ops

/-- None of a history touches what is reached from there in the beginning. -/
def Spared (cfg : TreeBuilder.Cfg) (depth : Nat) (S : Nat → Prop) : Mem → List Op → Prop
  | _, [] => True
  | m, op :: ops => (∀ x, S x → ¬ Touches m op x) ∧ Spared cfg depth S (Frpc.Heap.step cfg depth m op).1 ops

/-- The destructors of these pools. -/
def freeAll (ps : List Nat) (m : Mem) : Mem := ps.foldl (fun m p => Frpc.Heap.free p m) m

/-- Operations on objects there were, and on pools but `p`. -/
def Elsewhere (m : Mem) (p : Nat) (op : Op) : Prop :=
  (∀ z, changes op = some z → ∃ n, m.node z = some n) ∧ (∀ q, op = .free q → q ≠ p) ∧ (∀ q o, op = .steal q o → o ≠ p) ∧ (∀ q o, op = .move q o → q ≠ p ∧ o ≠ p)

/-- What a builder with objects has made from that state of the pool: the tree builder's tree. -/
def Made (p : Nat) (m m' : Mem) (b : Frpc.Heap.HB) (tb : TreeBuilder.TB) : Prop :=
  (match TreeBuilder.data tb with
   | some v => ∃ x, b.ret = some x ∧ Is m' x v ∧ ∀ z, Reach m' x z → z = Frpc.Heap.nullAt ∨ (m.node z = none ∧ z ∈ m'.pool p)
   | none => b.ret = none) ∧
  b.methodName = tb.methodName ∧ b.errNum = tb.errNum ∧ b.errMsg = tb.errMsg ∧
  (∀ z n, m.node z = some n → m'.node z = some n) ∧ (∀ q, q ≠ p → m'.pool q = m.pool q) ∧ m.pool p <+: m'.pool p

end Spec.Heap
end Frpc
