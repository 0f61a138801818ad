import Verif.Model.IsoDate
/-!
# Specification: percent-encoding and URL-encoded requests
-/
namespace Frpc
namespace Spec

/-- The byte is the hexadecimal digit, in either case, of the number. -/
def IsHex (c : UInt8) (n : Nat) : Prop :=
  n < 16 ∧ (c.toNat = (if n < 10 then 48 + n else 87 + n) ∨ c.toNat = (if n < 10 then 48 + n else 55 + n))

/-- `Encodes e s`: `e` is a percent-encoding of `s`; any byte may be written `%XY`, a space also as
`+`, every byte but `%` and `+` also as itself. -/
inductive Encodes : Bytes → Bytes → Prop
  | nil : Encodes [] []
  | literal {c e s} : c ≠ 37 → c ≠ 43 → Encodes e s → Encodes (c :: e) (c :: s)
  | plus {e s} : Encodes e s → Encodes (43 :: e) (32 :: s)
  | percent {c a b e s} : IsHex a (c.toNat / 16) → IsHex b (c.toNat % 16) → Encodes e s →
      Encodes (37 :: a :: b :: e) (c :: s)

/-- Backslash before every `"` and `\`. -/
def escape : Bytes → Bytes
  | [] => []
  | c :: s => if c = 34 ∨ c = 92 then 92 :: c :: escape s else c :: escape s

/-- `Denotes num t evs`: the value text `t` denotes the builder calls `evs`; `num` are the decimal
texts of doubles. -/
inductive Denotes (dbl : Bytes → BitVec 64 → Prop) : Bytes → List Event → Prop
  | empty : Denotes dbl [] []
  | string (s) : Denotes dbl ([34] ++ escape s ++ [34]) [.string s]
  | true : Denotes dbl (asc "true") [.bool true]
  | false : Denotes dbl (asc "false") [.bool false]
  | null : Denotes dbl (asc "null") [.null]
  | int (n : Nat) : n < 2 ^ 63 → Denotes dbl (dec n) [.int n]
  | double {t b} : dbl t b → Denotes dbl t [.double b]
  | dateTime {t : Bytes} {f} : t.length = 24 → t[10]? = some 84 → (∀ c, t.head? = some c → isDigit c = true) → (92 : UInt8) ∉ t →
      IsoDate.parse t = .ok f →
      Denotes dbl t [.dateTime ⟨f.year, f.month, f.day, f.hour, f.minute, f.sec, -1, -1, f.tz⟩]

/-- One `&`-separated piece of a request: a field with the builder calls its value denotes, or
something without `=`, which is ignored. -/
inductive Piece where
  | field (name enc : Bytes) (evs : List Event)
  | junk (s : Bytes)

/-- The text of a piece. -/
def Piece.text : Piece → Bytes
  | .field n e _ => n ++ [61] ++ e
  | .junk s => s

/-- The piece is well formed. -/
def Piece.Ok (dbl : Bytes → BitVec 64 → Prop) : Piece → Prop
  | .field n e evs => (38 : UInt8) ∉ n ∧ (61 : UInt8) ∉ n ∧ (38 : UInt8) ∉ e ∧ ∃ t, Encodes e t ∧ Denotes dbl t evs
  | .junk s => (38 : UInt8) ∉ s ∧ (61 : UInt8) ∉ s

/-- The body of a request: its pieces joined by `&`. -/
def body : List Piece → Bytes
  | [] => []
  | [p] => p.text
  | p :: ps => p.text ++ [38] ++ body ps

/-- The values given under a name, in order. -/
def valuesOf (name : Bytes) : List Piece → List (List Event)
  | [] => []
  | .field n _ evs :: ps => if n = name then evs :: valuesOf name ps else valuesOf name ps
  | .junk _ :: ps => valuesOf name ps

instance (name : Bytes) : Decidable (∃ m, name = m ++ [91, 93]) :=
  decidable_of_iff (name.drop (name.length - 2) = [91, 93]) (by
    constructor
    · intro h
      exact ⟨name.take (name.length - 2), by rw [← h, List.take_append_drop]⟩
    · rintro ⟨m, rfl⟩; simp)

/-- The builder calls of one member with the values (lists of builder calls) given under its name:
`name[]` gives the array of all values, in order, any other name the first value. -/
def block (name : Bytes) (vs : List (List Event)) : List Event :=
  if ∃ m, name = m ++ [91, 93] then
    [.member (name.take (name.length - 2)), .openArray (vs.length % 2 ^ 32)] ++ vs.flatten ++ [.closeArray]
  else [.member name] ++ (vs.head?.getD [])

/-- The builder calls of one member. -/
def memberCalls (ps : List Piece) (name : Bytes) : List Event := block name (valuesOf name ps)

/-- A call giving one scalar value; an integer is an unsigned one that fits 64 bits with sign. -/
def isScalarCall : Event → Bool
  | .int n => decide (0 ≤ n ∧ n < 2 ^ 63)
  | .string _ | .bool _ | .null | .double _ | .dateTime _ => true
  | _ => false

end Spec
end Frpc
