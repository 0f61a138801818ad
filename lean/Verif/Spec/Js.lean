import Verif.Model.Js
import Verif.Spec.Utf8
import Verif.Spec.Wire
/-!
# Specification: JavaScript values and values of the C++ library

What a double stands for (IEEE 754), which C++ value a JavaScript value stands for, and which JavaScript value a C++ value stands for.
Nothing here is about bytes of messages.
-/
namespace Frpc
namespace Spec
open Js

/-- The number of a double (IEEE 754, binary64): sign, eleven bits of exponent, 52 bits of fraction. -/
def ieee (b : BitVec 64) : Number :=
  let neg := decide (b.toNat / 2 ^ 63 = 1)
  let ex : Nat := b.toNat / 2 ^ 52 % 2048
  let fr : Nat := b.toNat % 2 ^ 52
  if ex = 2047 then (if fr = 0 then .inf neg else .nan)
  else if ex = 0 then .fin neg fr (-1074)
  else .fin neg (2 ^ 52 + fr) ((ex : Int) - 1075)

/-- The number is this integer (0 being the positive zero). -/
def IsInteger (x : Number) (n : Int) : Prop :=
  ∃ m : Nat, ∃ e : Int, x = .fin (decide (n < 0)) m e ∧
    (0 ≤ e → m * 2 ^ e.toNat = n.natAbs) ∧ (e < 0 → m = n.natAbs * 2 ^ (-e).toNat)

/-- The hint for a place: a word for the whole, or a word for the names and indices on the way to it, divided by dots. -/
def hintAt (hints : Hints) (path : List Bytes) : Option Hint :=
  match hints with
  | .none => none
  | .all h => some h
  | .table t => t (path.intersperse (asc ".")).flatten

/-- Bytes as an array of numbers. -/
def byteArray (s : Bytes) : List Js := s.map fun b => .int (b.toNat : Int)

/-- The date-time of a `Date`: the fields as they are in its zone, and seconds since 1970. `getTimezoneOffset` is in minutes to the west, `getTimeZone` in
seconds to the west; months are counted from 0 and from 1. -/
def dateOf (d : Date) : DateTime :=
  { year := d.year, month := d.month + 1, day := d.day, hour := d.hours, minute := d.minutes, sec := d.seconds, weekDay := d.weekDay,
    unixTime := d.ms / 1000, timeZone := d.offset * 60 }

mutual
/-- The JavaScript value at a place stands for the C++ value. -/
def Means (hints : Hints) (path : List Bytes) : Js → Value → Prop
  | .null, v => v = .null
  | .bool b, v => v = .bool b
  | .int n, v => if hintAt hints path = some .float then ∃ b, v = .double b ∧ IsInteger (ieee b) n else v = .int n
  | .num x, v => hintAt hints path = some .float ∧ ∃ b, v = .double b ∧ ieee b = x
  | .str s, v => v = .string s
  | .date d, v => v = .dateTime (dateOf d)
  | .buffer s, v => v = .binary s
  | .binary l, v => ∃ s, v = .binary s ∧ l = byteArray s
  | .float x, v => ∃ b, v = .double b ∧ ieee b = x
  | .arr js, v =>
    if hintAt hints path = some .binary then ∃ s, v = .binary s ∧ js = byteArray s
    else ∃ vs, v = .array vs ∧ MeansItems hints path 0 js vs
  | .obj js, v => ∃ ms, v = .struct ms ∧ ms.Pairwise (fun a b => keyLt a.1 b.1 = true) ∧ MeansMembers hints path js ms
/-- Elements, in order; their places are told by their indices. -/
def MeansItems (hints : Hints) (path : List Bytes) (i : Nat) : List Js → List Value → Prop
  | [], vs => vs = []
  | j :: js, vs => ∃ w ws, vs = w :: ws ∧ Means hints (path ++ [dec i]) j w ∧ MeansItems hints path (i + 1) js ws
/-- Members, in any order; their places are told by their names. -/
def MeansMembers (hints : Hints) (path : List Bytes) : List (Bytes × Js) → List (Bytes × Value) → Prop
  | [], ms => ms = []
  | (k, j) :: js, ms => ∃ w ws, ms.Perm ((k, w) :: ws) ∧ Means hints (path ++ [k]) j w ∧ MeansMembers hints path js ws
end

/-! ## What JavaScript can send -/

/-- The host's logarithm of this number is right, and the number is not below 2^-971 (unless it is below 2^-1022, or 0). -/
def DoubleSendable (H : Host) (x : Number) : Prop :=
  ∃ b, ieee b = x ∧
    match x with
    | .fin _ m e => (m = 0 ∨ m < 2 ^ 52) ∨ (-1023 ≤ e ∧ H.lg m e = (Nat.log2 m : Int) + e)
    | _ => True

/-- A date that the format can hold: a whole number of seconds from 1970 on (up to 2038 below version 3), a zone of whole quarters of an hour, years
1601 to 2623, calendar fields. -/
structure DateSendable (version : Nat) (d : Date) : Prop where
  whole : d.ms % 1000 = 0
  since : 0 ≤ d.ms
  before : d.ms < 1000 * 2 ^ 53 ∧ (version ≠ 3 → d.ms < 1000 * 2 ^ 31)
  zone : ∃ q : Int, -128 ≤ q ∧ q ≤ 127 ∧ d.offset = q * 15
  year : 1601 ≤ d.year ∧ d.year ≤ 2623
  month : d.month ≤ 11
  day : d.day ≤ 31
  hours : d.hours ≤ 23
  minutes : d.minutes ≤ 59
  seconds : d.seconds ≤ 60
  weekDay : d.weekDay ≤ 6

mutual
/-- The value can be sent as what it means: integers within 2^53, at version 3 no negative ones; numbers that are not integers only where the hint says so. -/
def JsSendable (H : Host) (strOk : Bytes → Bool) (version : Nat) (hints : Hints) (path : List Bytes) : Js → Prop
  | .null | .bool _ => True
  | .int n =>
    n.natAbs < 2 ^ 53 ∧
    (if hintAt hints path = some .float then n = 0 ∨ H.lg (Number.ofInt n).significand (Number.ofInt n).exponent = Nat.log2 n.natAbs
     else version = 3 → 0 ≤ n)
  | .num x => hintAt hints path = some .float ∧ DoubleSendable H x
  | .str s => s.length < 2 ^ 30 ∧ strOk s = true
  | .date d => DateSendable version d
  | .buffer s => s.length < 2 ^ 30
  | .binary l => l.length < 2 ^ 30 ∧ ∃ s, l = byteArray s
  | .float x => DoubleSendable H x
  | .arr js =>
    js.length < 2 ^ 30 ∧
    (if hintAt hints path = some .binary then ∃ s, js = byteArray s else JsSendableItems H strOk version hints path 0 js)
  | .obj js => js.length < 2 ^ 30 ∧ (js.map (·.1)).Nodup ∧ JsSendableMembers H strOk version hints path js
/-- All elements. -/
def JsSendableItems (H : Host) (strOk : Bytes → Bool) (version : Nat) (hints : Hints) (path : List Bytes) (i : Nat) : List Js → Prop
  | [] => True
  | j :: js => JsSendable H strOk version hints (path ++ [dec i]) j ∧ JsSendableItems H strOk version hints path (i + 1) js
/-- All members, with names of 1..255 bytes. -/
def JsSendableMembers (H : Host) (strOk : Bytes → Bool) (version : Nat) (hints : Hints) (path : List Bytes) : List (Bytes × Js) → Prop
  | [] => True
  | (k, j) :: js =>
    (1 ≤ k.length ∧ k.length ≤ 255) ∧ JsSendable H strOk version hints (path ++ [k]) j ∧ JsSendableMembers H strOk version hints path js
end

/-! ## What JavaScript reads -/

/-- Text: a sequence of code points in UTF-8, none of them a surrogate or above U+10FFFF. -/
inductive Text : Bytes → Prop
  | nil : Text []
  | cons {s : Bytes} {n k : Nat} (h : codePoint s = some (n, k)) (hs : ¬ (0xD800 ≤ n ∧ n ≤ 0xDFFF)) (hn : n ≤ 0x10FFFF)
      (r : Text (s.drop k)) : Text s

/-- Text that does not start with a byte order mark. -/
def PlainText (s : Bytes) : Prop := Text s ∧ ¬ [0xEF, 0xBB, 0xBF] <+: s

/-- The host's text decoder gives text without a byte order mark as it is. -/
def Host.Faithful (H : Host) : Prop := ∀ s, PlainText s → H.decode s = s

mutual
/-- The JavaScript value that stands for a C++ value; `buffers`: binary data is wanted as buffers. -/
def jsOf (H : Host) (buffers : Bool) : Value → Js
  | .int n => .int n
  | .bool b => .bool b
  | .double b => .num (ieee b)
  | .string s | .stringView s => .str s
  | .dateTime d => .date (H.date (1000 * d.unixTime))
  | .binary s => if buffers then .buffer s else .arr (byteArray s)
  | .binaryRef cs => if buffers then .buffer cs.flatten else .arr (byteArray cs.flatten)
  | .struct ms => .obj (jsOfMembers H buffers ms)
  | .array vs => .arr (jsOfItems H buffers vs)
  | .null => .null
  | .secret v => jsOf H buffers v
/-- Elements. -/
def jsOfItems (H : Host) (buffers : Bool) : List Value → List Js
  | [] => []
  | v :: vs => jsOf H buffers v :: jsOfItems H buffers vs
/-- Members. -/
def jsOfMembers (H : Host) (buffers : Bool) : List (Bytes × Value) → List (Bytes × Js)
  | [] => []
  | (k, v) :: ms => (k, jsOf H buffers v) :: jsOfMembers H buffers ms
end

mutual
/-- What JavaScript can read without loss: integers within 2^53 (2^52 at version 3: zigzag doubles them), no subnormal doubles, plain text, times from 1970 on (32 bits
below version 3), no member `__proto__` and none twice. -/
def JsReadable (version : Nat) : Value → Prop
  | .int n => n.natAbs < 2 ^ 53 ∧ (version = 3 → n.natAbs < 2 ^ 52)
  | .double b => b.toNat / 2 ^ 52 % 2048 ≠ 0 ∨ b.toNat % 2 ^ 52 = 0
  | .string s | .stringView s => PlainText s
  | .dateTime d => 0 ≤ d.unixTime ∧ d.unixTime < 2 ^ 43 ∧ (version ≠ 3 → d.unixTime < 2 ^ 32)
  | .array vs => JsReadableItems version vs
  | .struct ms => (ms.map (·.1)).Nodup ∧ JsReadableMembers version ms
  | .secret v => JsReadable version v
  | _ => True
/-- For all elements. -/
def JsReadableItems (version : Nat) : List Value → Prop
  | [] => True
  | v :: vs => JsReadable version v ∧ JsReadableItems version vs
/-- For all members. -/
def JsReadableMembers (version : Nat) : List (Bytes × Value) → Prop
  | [] => True
  | (k, v) :: ms => (PlainText k ∧ k ≠ asc "__proto__") ∧ JsReadable version v ∧ JsReadableMembers version ms
end

/-! ## From JavaScript to JavaScript -/

/-- Binary data as JavaScript has it after reading. -/
def binaryOf (buffers : Bool) (s : Bytes) : Js := if buffers then .buffer s else .arr (byteArray s)

mutual
/-- What JavaScript has of a value of its own that it sent: the same, but integers hinted as floats are numbers, binary data is what was asked for, and
a date is the host's date of the same moment. -/
def Echo (H : Host) (buffers : Bool) (hints : Hints) (path : List Bytes) : Js → Js → Prop
  | .null, r => r = .null
  | .bool b, r => r = .bool b
  | .int n, r => if hintAt hints path = some .float then ∃ x, r = .num x ∧ IsInteger x n else r = .int n
  | .num x, r => r = .num x
  | .float x, r => r = .num x
  | .str s, r => r = .str s
  | .date d, r => r = .date (H.date d.ms)
  | .buffer s, r => r = binaryOf buffers s
  | .binary l, r => ∃ s, l = byteArray s ∧ r = binaryOf buffers s
  | .arr js, r =>
    if hintAt hints path = some .binary then ∃ s, js = byteArray s ∧ r = binaryOf buffers s
    else ∃ rs, r = .arr rs ∧ EchoItems H buffers hints path 0 js rs
  | .obj js, r => ∃ rs, r = .obj rs ∧ EchoMembers H buffers hints path js rs
/-- Elements. -/
def EchoItems (H : Host) (buffers : Bool) (hints : Hints) (path : List Bytes) (i : Nat) : List Js → List Js → Prop
  | [], rs => rs = []
  | j :: js, rs => ∃ r rs', rs = r :: rs' ∧ Echo H buffers hints (path ++ [dec i]) j r ∧ EchoItems H buffers hints path (i + 1) js rs'
/-- Members, in their order. -/
def EchoMembers (H : Host) (buffers : Bool) (hints : Hints) (path : List Bytes) : List (Bytes × Js) → List (Bytes × Js) → Prop
  | [], rs => rs = []
  | (k, j) :: js, rs => ∃ r rs', rs = (k, r) :: rs' ∧ Echo H buffers hints (path ++ [k]) j r ∧ EchoMembers H buffers hints path js rs'
end

/-- Not below 2^-1022, unless it is 0. -/
def NotSubnormal : Number → Prop
  | .fin _ m _ => m = 0 ∨ 2 ^ 52 ≤ m
  | _ => True

mutual
/-- What is sent can also be read: plain text, no members `__proto__`, no subnormal numbers; integers within 2^52 at version 3; dates within the
range of `Date`. -/
def JsPlain (version : Nat) : Js → Prop
  | .int n => version = 3 → n.natAbs < 2 ^ 52
  | .num x | .float x => NotSubnormal x
  | .str s => PlainText s
  | .date d => d.ms ≤ 8640000000000000
  | .arr js => JsPlainItems version js
  | .obj js => JsPlainMembers version js
  | _ => True
/-- All elements. -/
def JsPlainItems (version : Nat) : List Js → Prop
  | [] => True
  | j :: js => JsPlain version j ∧ JsPlainItems version js
/-- All members. -/
def JsPlainMembers (version : Nat) : List (Bytes × Js) → Prop
  | [] => True
  | (k, j) :: js => (PlainText k ∧ k ≠ asc "__proto__") ∧ JsPlain version j ∧ JsPlainMembers version js
end

mutual
/-- The last thing of the value, in its order, is text that is not empty. -/
def EndsWithText : Value → Prop
  | .string s | .stringView s => s ≠ []
  | .array vs => EndsWithTextItems vs
  | .struct ms => EndsWithTextMembers ms
  | .secret v => EndsWithText v
  | _ => False
/-- The last element. -/
def EndsWithTextItems : List Value → Prop
  | [] => False
  | [v] => EndsWithText v
  | _ :: w :: vs => EndsWithTextItems (w :: vs)
/-- The last member. -/
def EndsWithTextMembers : List (Bytes × Value) → Prop
  | [] => False
  | [(_, v)] => EndsWithText v
  | _ :: w :: ms => EndsWithTextMembers (w :: ms)
end

end Spec
end Frpc
