import Verif.Basic.Bytes
import Verif.Basic.Decimal
import Verif.Model.Value
import Verif.Spec.Base64
/-!
# Specification: JSON texts (RFC 8259)

A reader of JSON written from the RFC, on bytes. It is a little narrower than the RFC: escapes `\u` above
U+007F are refused, so that no encoding of characters is needed. Everything it accepts is JSON.
-/
namespace Frpc
namespace Spec.Json

/-- A JSON value; numbers by their literal. -/
inductive JVal where
  | null
  | bool (b : Bool)
  | num (lit : Bytes)
  | str (s : Bytes)
  | arr (vs : List JVal)
  | obj (ms : List (Bytes × JVal))

/-- Insignificant white space (section 2): space, tab, LF, CR. -/
def isWs (c : UInt8) : Bool := c == 32 || c == 9 || c == 10 || c == 13

/-- Without leading white space. -/
def skipWs (s : Bytes) : Bytes := s.dropWhile isWs

/-- Value of a hexadecimal digit. -/
def hexOf (c : UInt8) : Option Nat :=
  if 48 ≤ c.toNat ∧ c.toNat ≤ 57 then some (c.toNat - 48)
  else if 97 ≤ c.toNat ∧ c.toNat ≤ 102 then some (c.toNat - 87)
  else if 65 ≤ c.toNat ∧ c.toNat ≤ 70 then some (c.toNat - 55)
  else none

/-- Two-character escapes (section 7). -/
def simpleEscape (c : UInt8) : Option UInt8 :=
  if c = 34 ∨ c = 92 ∨ c = 47 then some c
  else if c = 98 then some 8
  else if c = 102 then some 12
  else if c = 110 then some 10
  else if c = 114 then some 13
  else if c = 116 then some 9
  else none

/-- One character of a string at the front (section 7): an escape, or any byte but the quote, the backslash
and the control bytes below 32. -/
def strChar : Bytes → Option (UInt8 × Bytes)
  | 92 :: 117 :: a :: b :: c :: d :: r =>
    match hexOf a, hexOf b, hexOf c, hexOf d with
    | some a, some b, some c, some d =>
      let n := ((a * 16 + b) * 16 + c) * 16 + d
      if n < 128 then some (UInt8.ofNat n, r) else none
    | _, _, _, _ => none
  | 92 :: c :: r => (simpleEscape c).map (·, r)
  | c :: r => if c.toNat < 32 ∨ c = 34 ∨ c = 92 then none else some (c, r)
  | [] => none

/-- The rest of a string after its opening quote, up to the closing one: its characters and what follows. -/
def strRest : Nat → Bytes → Option (Bytes × Bytes)
  | 0, _ => none
  | _ + 1, 34 :: r => some ([], r)
  | f + 1, s =>
    match strChar s with
    | none => none
    | some (c, r) => (strRest f r).map fun p => (c :: p.1, p.2)

/-- A string literal (section 7): its characters and what follows it. -/
def readString : Bytes → Option (Bytes × Bytes)
  | 34 :: r => strRest (r.length + 1) r
  | _ => none

/-- The longest run of digits, and what follows. -/
def digits (s : Bytes) : Bytes × Bytes := (s.takeWhile isDigit, s.dropWhile isDigit)

/-- Integer part (section 6): `0`, or digits that do not begin with `0`. -/
def intPart (s : Bytes) : Option (Bytes × Bytes) :=
  match s with
  | 48 :: r => some ([48], r)
  | _ => let d := digits s; if d.1 = [] then none else some d

/-- Fraction (section 6), possibly absent. -/
def fracPart (s : Bytes) : Option (Bytes × Bytes) :=
  match s with
  | 46 :: r => let d := digits r; if d.1 = [] then none else some (46 :: d.1, d.2)
  | _ => some ([], s)

/-- The sign of an exponent. -/
def expSign : Bytes → Bytes × Bytes
  | 43 :: r => ([43], r)
  | 45 :: r => ([45], r)
  | s => ([], s)

/-- Exponent (section 6), possibly absent. -/
def expPart (s : Bytes) : Option (Bytes × Bytes) :=
  match s with
  | c :: r =>
    if c = 101 ∨ c = 69 then
      let g := expSign r
      let d := digits g.2
      if d.1 = [] then none else some (c :: g.1 ++ d.1, d.2)
    else some ([], s)
  | [] => some ([], [])

/-- A number literal (section 6), as long as possible. -/
def readNumber (s : Bytes) : Option (Bytes × Bytes) :=
  let m : Bytes × Bytes := match s with
    | 45 :: r => ([45], r)
    | _ => ([], s)
  match intPart m.2 with
  | none => none
  | some (i, r) =>
    match fracPart r with
    | none => none
    | some (f, r) =>
      match expPart r with
      | none => none
      | some (e, r) => some (m.1 ++ i ++ f ++ e, r)

mutual
/-- A value (section 3) at the front, and what follows it. The number bounds the nesting and the length. -/
def readValue : Nat → Bytes → Option (JVal × Bytes)
  | 0, _ => none
  | f + 1, s =>
    match skipWs s with
    | 110 :: 117 :: 108 :: 108 :: r => some (.null, r)
    | 116 :: 114 :: 117 :: 101 :: r => some (.bool true, r)
    | 102 :: 97 :: 108 :: 115 :: 101 :: r => some (.bool false, r)
    | 34 :: r => (readString (34 :: r)).map fun p => (.str p.1, p.2)
    | 91 :: r =>
      match skipWs r with
      | 93 :: r => some (.arr [], r)
      | _ => (readItems f r).map fun p => (.arr p.1, p.2)
    | 123 :: r =>
      match skipWs r with
      | 125 :: r => some (.obj [], r)
      | _ => (readMembers f r).map fun p => (.obj p.1, p.2)
    | s => (readNumber s).map fun p => (.num p.1, p.2)
/-- Elements of an array (section 5) up to its closing bracket. -/
def readItems : Nat → Bytes → Option (List JVal × Bytes)
  | 0, _ => none
  | f + 1, s =>
    match readValue f s with
    | none => none
    | some (v, r) =>
      match skipWs r with
      | 93 :: r => some ([v], r)
      | 44 :: r => (readItems f r).map fun p => (v :: p.1, p.2)
      | _ => none
/-- Members of an object (section 4) up to its closing brace. -/
def readMembers : Nat → Bytes → Option (List (Bytes × JVal) × Bytes)
  | 0, _ => none
  | f + 1, s =>
    match readString (skipWs s) with
    | none => none
    | some (k, r) =>
      match skipWs r with
      | 58 :: r =>
        match readValue f r with
        | none => none
        | some (v, r) =>
          match skipWs r with
          | 125 :: r => some ([(k, v)], r)
          | 44 :: r => (readMembers f r).map fun p => ((k, v) :: p.1, p.2)
          | _ => none
      | _ => none
end

/-- A JSON text (section 2): one value, and nothing but white space after it. -/
def parse (s : Bytes) : Option JVal :=
  match readValue (2 * s.length + 2) s with
  | some (v, r) => if skipWs r = [] then some v else none
  | none => none

/-- The bytes are a number literal and nothing else. -/
def IsNumber (s : Bytes) : Prop := readNumber s = some (s, [])

/-- The integer of a literal without fraction and exponent. -/
def intOf : Bytes → Int
  | 45 :: s => -(atoi s : Int)
  | s => atoi s

mutual
/-- What a value should be in JSON: numbers, strings, arrays, objects as they are, a binary as the base64 text,
a date-time as its Unix time, a double as `dbl` writes it. -/
def image (dbl : BitVec 64 → Bytes) : Value → JVal
  | .int n => .num (decInt n)
  | .bool b => .bool b
  | .double x => .num (dbl x)
  | .string s | .stringView s => .str s
  | .dateTime d => .num (decInt d.unixTime)
  | .binary s => .str (base64 s)
  | .binaryRef cs => .str (base64 cs.flatten)
  | .null => .null
  | .secret v => image dbl v
  | .array vs => .arr (imageItems dbl vs)
  | .struct ms => .obj (imageMembers dbl ms)
/-- Of the elements. -/
def imageItems (dbl : BitVec 64 → Bytes) : List Value → List JVal
  | [] => []
  | v :: vs => image dbl v :: imageItems dbl vs
/-- Of the members. -/
def imageMembers (dbl : BitVec 64 → Bytes) : List (Bytes × Value) → List (Bytes × JVal)
  | [] => []
  | (k, v) :: ms => (k, image dbl v) :: imageMembers dbl ms
end

mutual
/-- Every double of the tree satisfies `P`. -/
def DoublesAll (P : BitVec 64 → Prop) : Value → Prop
  | .double x => P x
  | .secret v => DoublesAll P v
  | .array vs => DoublesItems P vs
  | .struct ms => DoublesMembers P ms
  | _ => True
/-- For all elements. -/
def DoublesItems (P : BitVec 64 → Prop) : List Value → Prop
  | [] => True
  | v :: vs => DoublesAll P v ∧ DoublesItems P vs
/-- For all members. -/
def DoublesMembers (P : BitVec 64 → Prop) : List (Bytes × Value) → Prop
  | [] => True
  | (_, v) :: ms => DoublesAll P v ∧ DoublesMembers P ms
end

end Spec.Json
end Frpc
