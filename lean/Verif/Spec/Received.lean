import Verif.Model.Value
/-!
# Specification: what a receiver should get

No marshalling notions: the tree a receiver should hold after a transfer of a given
tree, and what happens to a date-time in the bit-packed wire format.
-/
namespace Frpc
namespace Spec

/-- The calendar fields are in calendar range (`sec` allows a leap second). -/
structure Calendar (d : DateTime) : Prop where
  month : 0 ≤ d.month ∧ d.month ≤ 12
  day : 0 ≤ d.day ∧ d.day ≤ 31
  hour : 0 ≤ d.hour ∧ d.hour ≤ 23
  minute : 0 ≤ d.minute ∧ d.minute ≤ 59
  sec : 0 ≤ d.sec ∧ d.sec ≤ 60
  weekDay : 0 ≤ d.weekDay ∧ d.weekDay ≤ 6

/-- The zone is a multiple of a quarter of an hour that fits a signed byte of quarters. -/
def QuarterZone (tz : Int) : Prop := ∃ q : Int, -128 ≤ q ∧ q ≤ 127 ∧ tz = q * 900

mutual
/-- The tree without transfer artefacts: views and referenced binaries become owned
values, secret marks (which do not travel in the stream) are dropped; every date-time
goes through `f`. -/
def plainWith (f : DateTime → DateTime) : Value → Value
  | .stringView s => .string s
  | .binaryRef cs => .binary cs.flatten
  | .secret v => plainWith f v
  | .dateTime d => .dateTime (f d)
  | .array vs => .array (plainItemsWith f vs)
  | .struct ms => .struct (plainMembersWith f ms)
  | v => v
/-- Element-wise `plainWith`. -/
def plainItemsWith (f : DateTime → DateTime) : List Value → List Value
  | [] => []
  | v :: vs => plainWith f v :: plainItemsWith f vs
/-- Member-wise `plainWith`. -/
def plainMembersWith (f : DateTime → DateTime) : List (Bytes × Value) → List (Bytes × Value)
  | [] => []
  | (k, v) :: ms => (k, plainWith f v) :: plainMembersWith f ms
end

/-- The tree without transfer artefacts, date-times unchanged. -/
def plain : Value → Value := plainWith id

mutual
/-- Every date-time of the tree satisfies `P`. -/
def DatesAll (P : DateTime → Prop) : Value → Prop
  | .dateTime d => P d
  | .secret v => DatesAll P v
  | .array vs => DatesAllItems P vs
  | .struct ms => DatesAllMembers P ms
  | _ => True
/-- For all elements. -/
def DatesAllItems (P : DateTime → Prop) : List Value → Prop
  | [] => True
  | v :: vs => DatesAll P v ∧ DatesAllItems P vs
/-- For all members. -/
def DatesAllMembers (P : DateTime → Prop) : List (Bytes × Value) → Prop
  | [] => True
  | (_, v) :: ms => DatesAll P v ∧ DatesAllMembers P ms
end

mutual
/-- Every string of the tree satisfies `P`. -/
def StringsAll (P : Bytes → Prop) : Value → Prop
  | .string s | .stringView s => P s
  | .secret v => StringsAll P v
  | .array vs => StringsAllItems P vs
  | .struct ms => StringsAllMembers P ms
  | _ => True
/-- For all elements. -/
def StringsAllItems (P : Bytes → Prop) : List Value → Prop
  | [] => True
  | v :: vs => StringsAll P v ∧ StringsAllItems P vs
/-- For all members. -/
def StringsAllMembers (P : Bytes → Prop) : List (Bytes × Value) → Prop
  | [] => True
  | (_, v) :: ms => StringsAll P v ∧ StringsAllMembers P ms
end

end Spec
end Frpc
