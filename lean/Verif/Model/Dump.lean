import Verif.Model.IsoDate
import Verif.Basic.Hex
/-!
# The text dump of a tree for logs (`src/frpc.cc:55-80,278-467`)

The text of a double (`operator<<`, six digits) is a parameter.
-/
namespace Frpc
namespace Dump

/-- What does not change on the way down: the text of doubles, the names in the set, the greatest length. -/
structure Opts where
  dbl : BitVec 64 → Bytes
  names : List Bytes
  maxlen : Int

/-- A string in its quotes (`src/frpc.cc:318-340`): `(unsigned long)maxlen` of a negative number is greater than every size. -/
def text (maxlen : Int) (s : Bytes) : Bytes :=
  if maxlen ≠ -1 ∧ 0 ≤ maxlen ∧ (s.length : Int) > maxlen then asc "\"" ++ s.take maxlen.toNat ++ asc "..." ++ asc "\""
  else asc "\"" ++ s ++ asc "\""

/-- `"%02x"` (`src/frpc.cc:71`). -/
def hex2 (c : UInt8) : Bytes := [hexChar (c.toNat / 16), hexChar (c.toNat % 16)]

/-- The bytes as `HexWriter_t` writes them (`src/frpc.cc:57-78`) in the inner loops (`src/frpc.cc:349-353,363-366`): the text and the `len` at
the end. `first`: no space before the first. -/
def hexLoop (maxlen : Int) (first : Bool) (len : Int) : Bytes → Bytes × Int
  | [] => ([], len)
  | c :: s =>
    let x := (if first then [] else [32]) ++ hex2 c
    if maxlen ≠ -1 then
      if len - 1 = 0 then (x, len - 1)
      else let r := hexLoop maxlen false (len - 1) s; (x ++ r.1, r.2)
    else let r := hexLoop maxlen false len s; (x ++ r.1, r.2)

/-- The loop over the chunks (`src/frpc.cc:362-368`). -/
def chunkLoop (maxlen : Int) (first : Bool) (len : Int) : List Bytes → Bytes × Int
  | [] => ([], len)
  | ch :: cs =>
    let r := hexLoop maxlen first len ch
    if r.2 = 0 then r
    else let r' := chunkLoop maxlen (first && ch.isEmpty) r.2 cs; (r.1 ++ r'.1, r'.2)

/-- `if (!len) out << "..."`. -/
def dots (len : Int) : Bytes := if len = 0 then asc "..." else []

/-- `level == -1 ? -1 : (level - 1)`. -/
def deeper (level : Int) : Int := if level = -1 then -1 else level - 1

mutual
/-- `dumpFastrpcTree` (`src/frpc.cc:288-467`). `pos` is a bitset of 64 bits; below the top it is 0. Simplified: `level` is an `Int`, as a tree
is not 2^31 levels deep. -/
def dump (o : Opts) (level : Int) (pos : List Nat) : Value → Bytes
  | .secret _ => asc "-hidden-"
  | .int n => decInt n
  | .bool b => if b then asc "true" else asc "false"
  | .double x => o.dbl x
  | .string s => text o.maxlen s
  | .stringView s => text o.maxlen s
  | .binary s => let r := hexLoop o.maxlen true o.maxlen s; asc "b\"" ++ r.1 ++ dots r.2 ++ asc "\""
  | .binaryRef cs => let r := chunkLoop o.maxlen true o.maxlen cs; r.1 ++ dots r.2 ++ asc "\""
  | .dateTime d => IsoDate.format d.year d.month d.day d.hour d.minute d.sec d.timeZone
  | .null => asc "null"
  | .struct ms => asc "{" ++ (if level ≠ 0 then dumpMembers o (deeper level) true ms else asc "...") ++ asc "}"
  | .array vs => asc "(" ++ (if level ≠ 0 then dumpItems o (deeper level) pos true 0 vs else asc "...") ++ asc ")"
/-- The loop over the members (`src/frpc.cc:401-420`). -/
def dumpMembers (o : Opts) (level : Int) (first : Bool) : List (Bytes × Value) → Bytes
  | [] => []
  | (k, v) :: ms =>
    (if first then [] else asc ", ") ++ (k ++ asc ": " ++ (if k ∈ o.names then asc "-hidden-" else dump o level [] v)) ++
      dumpMembers o level false ms
/-- The loop over the elements (`src/frpc.cc:435-455`). -/
def dumpItems (o : Opts) (level : Int) (pos : List Nat) (first : Bool) (xpos : Nat) : List Value → Bytes
  | [] => []
  | v :: vs =>
    (if first then [] else asc ", ") ++ (if xpos < 64 ∧ xpos ∈ pos then asc "-hidden-" else dump o level [] v) ++
      dumpItems o level pos false (xpos + 1) vs
end

/-- `MAX_LEN` (`src/frpcinternals.h:295`), with which the other overloads call it (`src/frpc.cc:278-286,476-478`). -/
def MAX_LEN : Int := 20

mutual
/-- `printValue` (`src/frpc.cc:502-598`) on values made of strings, integers, null and containers; `%s` stops at NUL. Other values are not
modelled (`other`). Null and string views print nothing. -/
def print (other : Value → Bytes) (spaces : Nat) : Value → Bytes
  | .secret v => asc "secret(" ++ print other spaces v ++ asc ")"
  | .int n => decInt n ++ [10]
  | .string s => s.takeWhile (· != 0) ++ [10]
  | .struct ms => asc "{\n" ++ printMembers other (spaces + 1) ms ++ List.replicate spaces 32 ++ asc "}\n"
  | .array vs => asc "(\n" ++ printItems other (spaces + 1) vs ++ List.replicate spaces 32 ++ asc ")\n"
  | .null => []
  | .stringView _ => []
  | v => other v
/-- The members. -/
def printMembers (other : Value → Bytes) (spaces : Nat) : List (Bytes × Value) → Bytes
  | [] => []
  | (k, v) :: ms => List.replicate spaces 32 ++ (k.takeWhile (· != 0) ++ asc ":" ++ print other spaces v) ++ printMembers other spaces ms
/-- The elements. -/
def printItems (other : Value → Bytes) (spaces : Nat) : List Value → Bytes
  | [] => []
  | v :: vs => List.replicate spaces 32 ++ print other spaces v ++ printItems other spaces vs
end

end Dump
end Frpc
