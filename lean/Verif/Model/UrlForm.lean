import Verif.Model.IsoDate
import Verif.Model.Struct
/-!
# URL-encoded requests (`src/frpcurlunmarshaller.cc`)
-/
namespace Frpc
namespace UrlForm

/-- One hexadecimal digit in the `switch` of `unhex` (`src/frpcurlunmarshaller.cc:76-81`); other
characters add nothing. -/
def hexVal (c : UInt8) : Nat :=
  if 48 ≤ c.toNat ∧ c.toNat ≤ 57 then c.toNat - 48
  else if 97 ≤ c.toNat ∧ c.toNat ≤ 102 then 10 + c.toNat - 97
  else if 65 ≤ c.toNat ∧ c.toNat ≤ 70 then 10 + c.toNat - 65
  else 0

/-- `unhex` (`src/frpcurlunmarshaller.cc:72-86`). -/
def unhex (a b : UInt8) : UInt8 := UInt8.ofNat ((hexVal a <<< 4) ||| hexVal b)

/-- Loop of `urldecode` (`src/frpcurlunmarshaller.cc:95-112`) on positions; dereferencing at or
past the end is `Err.ub`. Note that the `%` case increments the iterator before looking how much is
left, and the loop increments it once more. -/
def urldecodeLoop (s : Bytes) : Nat → Nat → Bytes → Except Err Bytes
  | 0, _, _ => .error .fuel
  | f + 1, i, res =>
    if i = s.length then .ok res
    else do
      let c ← IsoDate.rd s i
      if c = 37 then
        let i := i + 1
        if (s.length : Int) - i < 2 then urldecodeLoop s f (i + 1) res
        else do
          let a ← IsoDate.rd s i
          let b ← IsoDate.rd s (i + 1)
          urldecodeLoop s f (i + 2) (res ++ [unhex a b])
      else if c = 43 then urldecodeLoop s f (i + 1) (res ++ [32])
      else urldecodeLoop s f (i + 1) (res ++ [c])

/-- `urldecode` (`src/frpcurlunmarshaller.cc:91-115`). -/
def urldecode (s : Bytes) : Except Err Bytes := urldecodeLoop s (s.length + 1) 0 []

/-- `unquote` (`src/frpcurlunmarshaller.cc:119-146`). -/
def unquote : Bytes → Bytes
  | [] => []
  | 92 :: c :: s => if c = 92 ∨ c = 34 then c :: unquote s else 92 :: unquote (c :: s)
  | c :: s => c :: unquote s
termination_by s => s.length

/-- `std::string::find(c, pos)`; `npos` is `none`. -/
def findFrom (c : UInt8) (s : Bytes) (i : Nat) : Option Nat := ((s.drop i).findIdx? (· == c)).map (· + i)

/-- `std::string::substr(pos, n)`, `n = none` for `npos`. -/
def substr (s : Bytes) (i : Nat) (n : Option Nat) : Bytes :=
  match n with
  | none => s.drop i
  | some n => (s.drop i).take n

/-- The build methods `resolveType` chooses from (`src/frpcurlunmarshaller.cc:216-298`). -/
inductive Kind where | nothing | string | bool | null | int | double | dateTime
deriving DecidableEq, Repr

/-- `resolveType` (`src/frpcurlunmarshaller.cc:310-342`). -/
def resolveType (v : Bytes) : Except Err Kind :=
  match v with
  | [] => .ok .nothing
  | c :: _ =>
    if c = 34 then if v.length = 1 ∨ v.getLast? ≠ some 34 then .error .stream else .ok .string
    else if c = 102 ∨ c = 116 then .ok .bool
    else if c = 110 then .ok .null
    else if isDigit c then
      if v.length ≠ 24 ∨ v[10]? ≠ some 84 then
        if findFrom 46 v 0 = none then .ok .int else .ok .double
      else .ok .dateTime
    else .error .stream

/-- `iequal < iamp` with `npos` the greatest value. -/
def posLt : Option Nat → Option Nat → Bool
  | some a, some b => decide (a < b)
  | some _, none => true
  | none, _ => false

/-- The values collected, by raw name. -/
abbrev Values := List (Bytes × List (Kind × Bytes))

/-- `values[name].emplace_back(type, value)` (`src/frpcurlunmarshaller.cc:183`). -/
def push (vals : Values) (name : Bytes) (x : Kind × Bytes) : Values :=
  SMap.append name ((SMap.find? name vals).getD [] ++ [x]) vals

/-- One turn of the loop of `Values_t` (`src/frpcurlunmarshaller.cc:172-187`), given the positions
found. -/
def onePiece (buf : Bytes) (ibegin : Nat) (iamp iequal : Option Nat) (vals : Values) : Except Err Values :=
  match posLt iequal iamp with
  | true => do
    let ie := iequal.getD 0
    let name := substr buf ibegin (some (ie - ibegin))
    let num := iamp.map (fun a => a - ibegin - name.length - 1)
    let value := unquote (← urldecode (substr buf (ie + 1) num))
    let kind ← resolveType value
    return push vals name (kind, value)
  | false => .ok vals

/-- Constructor of `Values_t` (`src/frpcurlunmarshaller.cc:161-189`): one turn of the loop per
`&`-separated piece. -/
def collectLoop (buf : Bytes) : Nat → Nat → Values → Except Err Values
  | 0, _, _ => .error .fuel
  | f + 1, ibegin, vals => do
    let iamp := findFrom 38 buf ibegin
    let vals ← onePiece buf ibegin iamp (findFrom 61 buf ibegin) vals
    match iamp with
    | none => return vals
    | some a => collectLoop buf f (a + 1) vals

/-- Constructor of `Values_t`. -/
def collect (buf : Bytes) : Except Err Values := collectLoop buf (buf.length + 1) 0 []

/-- What the surroundings provide: `strtod` (bits, characters used, out of range), whether
`errno` holds a stale `ERANGE` (the code never clears it), whether the builder knows null. -/
structure Env where
  strtod : Bytes → BitVec 64 × Nat × Bool
  erange : Bool
  hasNull : Bool

/-- `c_str()` as seen by `strtod`/`strtoll`. -/
def cstr (s : Bytes) : Bytes := s.takeWhile (· ≠ 0)

/-- One build method: the builder calls made and the exception thrown
(`src/frpcurlunmarshaller.cc:216-298`). -/
def buildOne (env : Env) : Kind × Bytes → List Event × Option Err
  | (.nothing, _) => ([], none)
  | (.string, s) => ([.string ((s.drop 1).dropLast)], none)
  | (.bool, s) => ([.bool (decide (s = asc "true"))], none)
  | (.null, _) => if env.hasNull then ([.null], none) else ([], some .stream)
  | (.int, s) =>
    let c := cstr s
    let ds := c.takeWhile isDigit
    if ds.length ≠ c.length then ([], some .stream)
    else if env.erange ∨ atoi ds ≥ 2 ^ 63 then ([], some .stream)
    else ([.int (atoi ds)], none)
  | (.double, s) =>
    let c := cstr s
    let r := env.strtod c
    if r.2.1 ≠ c.length then ([], some .stream)
    else if env.erange ∨ r.2.2 then ([], some .stream)
    else ([.double r.1], none)
  | (.dateTime, s) =>
    match IsoDate.parse s with
    | .error e => ([], some e)
    | .ok f => ([.dateTime ⟨f.year, f.month, f.day, f.hour, f.minute, f.sec, -1, -1, f.tz⟩], none)

/-- Runs actions in order until one throws. -/
def andThen (a : List Event × Option Err) (b : List Event × Option Err) : List Event × Option Err :=
  match a.2 with
  | some e => (a.1, some e)
  | none => (a.1 ++ b.1, b.2)

/-- All elements of a `[]` member in order (`src/frpcurlunmarshaller.cc:205-206`). -/
def buildAll (env : Env) : List (Kind × Bytes) → List Event × Option Err
  | [] => ([], none)
  | x :: xs => andThen (buildOne env x) (buildAll env xs)

/-- `extractMember` (`src/frpcurlunmarshaller.cc:54-66`). -/
def extractMember (m : Bytes) : Bytes :=
  if (91 :: [93] : Bytes).length ≤ m.length ∧ m.drop (m.length - 2) = [91, 93] then m.take (m.length - 2) else m

/-- One member (`src/frpcurlunmarshaller.cc:197-213`); `front()` of an empty vector would be
undefined. -/
def dumpOne (env : Env) (p : Bytes × List (Kind × Bytes)) : List Event × Option Err :=
  let member := extractMember p.1
  andThen ([.member member], none)
    (if member.length ≠ p.1.length then
      andThen ([.openArray (p.2.length % 2 ^ 32)], none) (andThen (buildAll env p.2) ([.closeArray], none))
    else match p.2 with
      | [] => ([], some .ub)
      | x :: _ => buildOne env x)

/-- `dump` (`src/frpcurlunmarshaller.cc:195-214`). -/
def dump (env : Env) : Values → List Event × Option Err
  | [] => ([], none)
  | p :: ps => andThen (dumpOne env p) (dump env ps)

/-- Constructor of `URLUnMarshaller_t` (`src/frpcurlunmarshaller.cc:352-357`): the method name, for a
path without NUL bytes (the code reads it as a C string). -/
def methodOf (path : Bytes) : Bytes :=
  (if path = [] then asc "RPC2" else path.drop 1).map (fun c => if c = 47 then 46 else c)

/-- `finish` (`src/frpcurlunmarshaller.cc:368-377`). -/
def finish (env : Env) (path buf : Bytes) : List Event × Option Err :=
  andThen ([.methodCall (methodOf path)], none)
    (match collect buf with
     | .error e => ([], some e)
     | .ok vals => andThen ([.openStruct (vals.length % 2 ^ 32)], none) (andThen (dump env vals) ([.closeStruct], none)))

/-- `unMarshall` of the pieces as method calls, then `finish`
(`src/frpcurlunmarshaller.cc:359-377`). -/
def run (env : Env) (path : Bytes) (pieces : List Bytes) : List Event × Option Err :=
  finish env path (pieces.foldl (· ++ ·) [])

end UrlForm
end Frpc
