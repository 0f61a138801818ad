import Verif.Model.Struct
import Verif.Spec.Received
/-!
# Specification: what a value tree may be, and what may go on the wire

`Held` is what every tree that exists in memory satisfies; `Small` are the protocol's
size limits; `WireOk` is what can be sent at a given protocol version.
-/
namespace Frpc

/-- Null exists from protocol 2.1 on. -/
def Version.HasNull (ver : Version) : Prop := ¬ (ver.major < 2 ∨ (ver.major = 2 ∧ ver.minor < 1))

instance (ver : Version) : Decidable ver.HasNull := inferInstanceAs (Decidable (¬ _))

mutual
/-- The value can be put on the wire at this version: everything within the protocol's limits.
No condition on the order of members or on their being distinct. -/
def WireOk (strOk : Bytes → Bool) (ver : Version) : Value → Prop
  | .int n => IsI64 n ∧ (ver.major = 1 → 0 ≤ n ∧ n < 2 ^ 32)
  | .bool _ => True
  | .double _ => True
  | .string s => s.length < 2 ^ 30 ∧ strOk s = true
  | .stringView s => s.length < 2 ^ 30 ∧ strOk s = true
  | .binary s => s.length < 2 ^ 30
  | .binaryRef cs => cs.flatten.length < 2 ^ 30
  | .dateTime d => IsI64 d.unixTime ∧ (ver.major ≤ 2 → d.unixTime ≠ -(2 : Int) ^ 63)
  | .null => ver.HasNull
  | .array vs => vs.length < 2 ^ 30 ∧ WireOkItems strOk ver vs
  | .struct ms => ms.length < 2 ^ 30 ∧ WireOkMembers strOk ver ms
  | .secret v => WireOk strOk ver v
/-- All elements. -/
def WireOkItems (strOk : Bytes → Bool) (ver : Version) : List Value → Prop
  | [] => True
  | v :: vs => WireOk strOk ver v ∧ WireOkItems strOk ver vs
/-- All members, with names of 1..255 bytes. -/
def WireOkMembers (strOk : Bytes → Bool) (ver : Version) : List (Bytes × Value) → Prop
  | [] => True
  | (k, v) :: ms => (1 ≤ k.length ∧ k.length ≤ 255) ∧ WireOk strOk ver v ∧ WireOkMembers strOk ver ms
end

namespace Spec

mutual
/-- What every tree in memory satisfies: integers and timestamps are 64-bit, the members of a
struct are in strictly ascending order of name (it is a `std::map`). -/
def Held : Value → Prop
  | .int n => IsI64 n
  | .dateTime d => IsI64 d.unixTime
  | .array vs => HeldItems vs
  | .struct ms => ms.Pairwise (fun a b => keyLt a.1 b.1 = true) ∧ HeldMembers ms
  | .secret v => Held v
  | _ => True
/-- For all elements. -/
def HeldItems : List Value → Prop
  | [] => True
  | v :: vs => Held v ∧ HeldItems vs
/-- For all members. -/
def HeldMembers : List (Bytes × Value) → Prop
  | [] => True
  | (_, v) :: ms => Held v ∧ HeldMembers ms
end

mutual
/-- Every string, binary, name, array and struct has fewer than `2^30` bytes or items. -/
def Small : Value → Prop
  | .string s | .stringView s | .binary s => s.length < 2 ^ 30
  | .binaryRef cs => cs.flatten.length < 2 ^ 30
  | .array vs => vs.length < 2 ^ 30 ∧ SmallItems vs
  | .struct ms => ms.length < 2 ^ 30 ∧ SmallMembers ms
  | .secret v => Small v
  | _ => True
/-- For all elements. -/
def SmallItems : List Value → Prop
  | [] => True
  | v :: vs => Small v ∧ SmallItems vs
/-- For all members. -/
def SmallMembers : List (Bytes × Value) → Prop
  | [] => True
  | (k, v) :: ms => k.length < 2 ^ 30 ∧ Small v ∧ SmallMembers ms
end

end Spec
end Frpc
