import Verif.Spec.Events
/-!
# Specification: how large a value is

Sizes of a value, independent of any encoder or decoder.
-/
namespace Frpc
namespace Spec

mutual
/-- The fewest bytes in which the binary format can carry the value: a tag, the shortest number of bytes of an integer or of a length,
and the payload; a member's name has its length in one byte. -/
def leastSize : Value → Nat
  | .int _ => 2
  | .bool _ => 1
  | .double _ => 9
  | .null => 1
  | .dateTime _ => 11
  | .string s | .stringView s | .binary s => 2 + s.length
  | .binaryRef cs => 2 + cs.flatten.length
  | .array vs => 2 + leastItems vs
  | .struct ms => 2 + leastMembers ms
  | .secret v => leastSize v
/-- … of items. -/
def leastItems : List Value → Nat
  | [] => 0
  | v :: vs => leastSize v + leastItems vs
/-- … of members with their names. -/
def leastMembers : List (Bytes × Value) → Nat
  | [] => 0
  | (k, v) :: ms => 1 + k.length + leastSize v + leastMembers ms
end

mutual
/-- How many values a value consists of, itself included; a mark of secrecy is none. -/
def valuesIn : Value → Nat
  | .array vs => 1 + valuesItems vs
  | .struct ms => 1 + valuesMembers ms
  | .secret v => valuesIn v
  | _ => 1
/-- … items do. -/
def valuesItems : List Value → Nat
  | [] => 0
  | v :: vs => valuesIn v + valuesItems vs
/-- … members do. -/
def valuesMembers : List (Bytes × Value) → Nat
  | [] => 0
  | (_, v) :: ms => valuesIn v + valuesMembers ms
end

mutual
/-- How many bytes of text and binary data and of names a value holds. -/
def textIn : Value → Nat
  | .string s | .stringView s | .binary s => s.length
  | .binaryRef cs => cs.flatten.length
  | .array vs => textItems vs
  | .struct ms => textMembers ms
  | .secret v => textIn v
  | _ => 0
/-- … items do. -/
def textItems : List Value → Nat
  | [] => 0
  | v :: vs => textIn v + textItems vs
/-- … members do. -/
def textMembers : List (Bytes × Value) → Nat
  | [] => 0
  | (k, v) :: ms => k.length + textIn v + textMembers ms
end

mutual
/-- How deep containers are nested in a value (0: it is no container). -/
def depthOf : Value → Nat
  | .array vs => 1 + depthItems vs
  | .struct ms => 1 + depthMembers ms
  | .secret v => depthOf v
  | _ => 0
/-- … in the deepest of the items. -/
def depthItems : List Value → Nat
  | [] => 0
  | v :: vs => max (depthOf v) (depthItems vs)
/-- … in the deepest of the members. -/
def depthMembers : List (Bytes × Value) → Nat
  | [] => 0
  | (_, v) :: ms => max (depthOf v) (depthMembers ms)
end

end Spec
end Frpc
