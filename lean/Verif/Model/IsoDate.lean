import Verif.Basic.Decimal
import Verif.Model.Value
/-!
# ISO date-time text (`src/frpc.cc:87-276`)

The parser is modelled on positions into the text; reading at or past the end is `Err.ub`.
`isspace`/`isdigit` are those of the C locale.
-/
namespace Frpc
namespace IsoDate

/-- C division, truncating towards zero. -/
def cdiv (a b : Int) : Int := Int.tdiv a b
/-- C remainder. -/
def cmod (a b : Int) : Int := Int.tmod a b

/-- `getISODateTime` (`src/frpc.cc:87-97`), without the terminating NUL of the 50-byte buffer. -/
def format (year month day hour minute sec tz : Int) : Bytes :=
  decIntPad 4 year ++ decIntPad 2 month ++ decIntPad 2 day ++ [84] ++ decIntPad 2 hour ++ [58] ++
  decIntPad 2 minute ++ [58] ++ decIntPad 2 sec ++ [if tz ≤ 0 then 43 else 45] ++
  decPad 2 (cdiv (cdiv tz 60) 60).natAbs ++ decPad 2 (cmod (cdiv tz 60) 60).natAbs

/-- `*sit`. -/
def rd (d : Bytes) (i : Nat) : Except Err UInt8 :=
  match d[i]? with
  | some c => .ok c
  | none => .error .ub

/-- `while (sit != end && p(*sit)) ++sit` (`src/frpc.cc:117-118,216-217,268-269`). -/
def skipWhile (p : UInt8 → Bool) (d : Bytes) : Nat → Nat → Except Err Nat
  | 0, _ => .error .fuel
  | f + 1, i =>
    if i = d.length then .ok i
    else do
      let c ← rd d i
      if p c then skipWhile p d f (i + 1) else .ok i

/-- `while (sit != end && i < n && isdigit(*sit)) tmp += *sit` (e.g. `src/frpc.cc:122-126`). -/
def digits (d : Bytes) : Nat → Nat → Bytes → Except Err (Bytes × Nat)
  | 0, i, tmp => .ok (tmp, i)
  | n + 1, i, tmp =>
    if i = d.length then .ok (tmp, i)
    else do
      let c ← rd d i
      if isDigit c then digits d n (i + 1) (tmp ++ [c]) else .ok (tmp, i)

/-- `if (sit != end && *sit == c) ++sit` (e.g. `src/frpc.cc:132-133`). -/
def skipOpt (d : Bytes) (ch : UInt8) (i : Nat) : Except Err Nat :=
  if i = d.length then .ok i
  else do
    let c ← rd d i
    return if c = ch then i + 1 else i

/-- Time zone part (`src/frpc.cc:220-274`). -/
def parseZone (d : Bytes) (i : Nat) : Except Err Int := do
  let (sign, i) ← if i = d.length then pure ((0 : UInt8), i) else do
    let c ← rd d i
    pure (c, i + 1)
  let finish (h m : Nat) (i : Nat) : Except Err Int := do
    let i ← skipWhile isSpace d (d.length + 1) i
    if i ≠ d.length then return 0
    return ((h * 60 + m : Nat) : Int) * (if sign = 43 then -60 else 60)
  if sign = 90 ∨ sign = 122 then finish 0 0 i
  else if sign = 43 ∨ sign = 45 then do
    let (th, i) ← digits d 2 i []
    if th = [] then return 0
    let i ← skipOpt d 58 i
    let (tm, i) ← digits d 2 i []
    if tm = [] then return 0
    finish (atoi th) (atoi tm) i
  else finish 0 0 i

/-- The ignored fraction of a second (`src/frpc.cc:213-218`). -/
def skipFraction (d : Bytes) (i : Nat) : Except Err Nat :=
  if i = d.length then .ok i
  else do
    let c ← rd d i
    if c = 46 then skipWhile isDigit d (d.length + 1) (i + 1) else .ok i

/-- Hour, minute, second and zone (`src/frpc.cc:161-274`); early `return`s leave the rest zero. -/
def parseTime (d : Bytes) (i : Nat) : Except Err (Nat × Nat × Nat × Int) := do
  if i = d.length then return (0, 0, 0, 0)
  let c ← rd d i
  if ¬ (c = 84 ∨ c = 116 ∨ c = 32) then return (0, 0, 0, 0)
  let (th, i) ← digits d 2 (i + 1) []
  if th = [] then return (0, 0, 0, 0)
  let i ← skipOpt d 58 i
  let (tm, i) ← digits d 2 i []
  if tm = [] then return (atoi th, 0, 0, 0)
  let i ← skipOpt d 58 i
  let (ts, i) ← digits d 2 i []
  if ts = [] then return (atoi th, atoi tm, 0, 0)
  let i ← skipFraction d i
  let tz ← parseZone d i
  return (atoi th, atoi tm, atoi ts, tz)

/-- Result of parsing. -/
structure Fields where
  year : Int
  month : Int
  day : Int
  hour : Int
  minute : Int
  sec : Int
  tz : Int
deriving DecidableEq, Repr

/-- `parseISODateTime` (`src/frpc.cc:104-276`). The `static_cast<short>` and `static_cast<char>` of
numbers of at most four and two digits do not change them. -/
def parse (d : Bytes) : Except Err Fields := do
  let i ← skipWhile isSpace d (d.length + 1) 0
  let (ty, i) ← digits d 4 i []
  if ty = [] then throw .stream
  let i ← skipOpt d 45 i
  let (tmo, i) ← digits d 2 i []
  if tmo = [] then throw .stream
  let i ← skipOpt d 45 i
  let (td, i) ← digits d 2 i []
  if td = [] then throw .stream
  let (h, m, s, tz) ← parseTime d i
  return ⟨i16 (atoi ty), i8 (atoi tmo), i8 (atoi td), i8 h, i8 m, i8 s, tz⟩

end IsoDate
end Frpc
