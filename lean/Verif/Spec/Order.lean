import Verif.Model.Value
/-!
# Specification: comparable trees and when two of them are the same
-/
namespace Frpc
namespace Spec

/-- The bit pattern is a NaN: exponent all ones, mantissa not zero. -/
def NaN (b : BitVec 64) : Prop := b.extractLsb' 52 11 = 0x7FF#11 ∧ b.extractLsb' 0 52 ≠ 0#52

instance (b : BitVec 64) : Decidable (NaN b) := inferInstanceAs (Decidable (_ ∧ _))

mutual
/-- Trees made of the comparable types; `okDouble` restricts the doubles. -/
def Comparable (okDouble : BitVec 64 → Prop) : Value → Prop
  | .int _ | .bool _ | .string _ | .binary _ | .dateTime _ | .null => True
  | .double b => okDouble b
  | .array vs => ComparableItems okDouble vs
  | .struct ms => ComparableMembers okDouble ms
  | .stringView _ | .binaryRef _ | .secret _ => False
/-- For all elements. -/
def ComparableItems (okDouble : BitVec 64 → Prop) : List Value → Prop
  | [] => True
  | v :: vs => Comparable okDouble v ∧ ComparableItems okDouble vs
/-- For all members. -/
def ComparableMembers (okDouble : BitVec 64 → Prop) : List (Bytes × Value) → Prop
  | [] => True
  | (_, v) :: ms => Comparable okDouble v ∧ ComparableMembers okDouble ms
end

mutual
/-- What comparison looks at: the two zeros are one number, a date-time is its unix time. -/
def essence : Value → Value
  | .double b => .double (if b = 0x8000000000000000#64 then 0 else b)
  | .dateTime d => .dateTime ⟨0, 0, 0, 0, 0, 0, 0, d.unixTime, 0⟩
  | .array vs => .array (essenceItems vs)
  | .struct ms => .struct (essenceMembers ms)
  | v => v
/-- For all elements. -/
def essenceItems : List Value → List Value
  | [] => []
  | v :: vs => essence v :: essenceItems vs
/-- For all members. -/
def essenceMembers : List (Bytes × Value) → List (Bytes × Value)
  | [] => []
  | (k, v) :: ms => (k, essence v) :: essenceMembers ms
end

end Spec
end Frpc
