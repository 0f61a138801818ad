import Verif.Model.Descriptors
/-!
# Specification: descriptors and objects that are used only while they are there
-/
namespace Frpc
namespace Spec.Descriptors
open Frpc.Descriptors (Act)

/-- What is there: open descriptors, living unmarshallers. -/
structure Held where
  fds : List Nat
  uns : List Nat
deriving DecidableEq, Repr

/-- One act; `none` if it is wrong: the kernel gives no descriptor that is open; only open descriptors are used and closed; only living objects are deleted. -/
def act (h : Held) : Act → Option Held
  | .opened n => if n ∈ h.fds then none else some { h with fds := n :: h.fds }
  | .close n => if n ∈ h.fds then some { h with fds := h.fds.erase n } else none
  | .use n => if n ∈ h.fds then some h else none
  | .made n => if n ∈ h.uns then none else some { h with uns := n :: h.uns }
  | .delete n => if n ∈ h.uns then some { h with uns := h.uns.erase n } else none

/-- What is there after the acts; `none` if one of them is wrong. -/
def replay (h : Held) : List Act → Option Held
  | [] => some h
  | a :: as =>
    match act h a with
    | none => none
    | some h => replay h as

/-- At no time is there more than one of each, and no act is wrong. -/
def Tidy (acts : List Act) : Prop := ∀ l, l <+: acts → ∃ h, replay ⟨[], []⟩ l = some h ∧ h.fds.length ≤ 1 ∧ h.uns.length ≤ 1

end Spec.Descriptors
end Frpc
