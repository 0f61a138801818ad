import Verif.Basic.Decimal
import Verif.Model.BinMarshaller
/-!
# The JavaScript implementation of the binary protocol (`javascript/fastrpc.mjs`, generated from `typescript/fastrpc.ts`)

JavaScript strings are represented by their UTF-8 text (what `TextEncoder` makes of them); numbers are either integers (`Js.int`) or given by
sign, significand and exponent (`Number`). Arithmetic on integers is exact here, as it is in JavaScript as long as no intermediate result is
beyond 2^53 (`Number.MAX_SAFE_INTEGER` + 1): the theorems are about such numbers only. The text decoder, the logarithm and the calendar of the
host are parameters. Not modelled: the order in which an engine enumerates members with integer names, the refusal of huge lengths by
`new Uint8Array`, values that cannot be serialized (`undefined`, functions).
-/
namespace Frpc
namespace Js

/-- A double: not a number, an infinity, or `m * 2^e` with a sign. -/
inductive Number where
  | nan
  | inf (neg : Bool)
  | fin (neg : Bool) (m : Nat) (e : Int)
deriving DecidableEq, Repr, Inhabited

/-- A `Date`: milliseconds since 1970, and what `getTimezoneOffset`, `getFullYear`, `getMonth`, `getDate`, `getDay`, `getHours`, `getMinutes` and
`getSeconds` say in the zone of the host. -/
structure Date where
  ms : Int
  offset : Int
  year : Int
  month : Nat
  day : Nat
  weekDay : Nat
  hours : Nat
  minutes : Nat
  seconds : Nat
deriving DecidableEq, Repr, Inhabited

/-- A JavaScript value. `buffer`: an `ArrayBuffer` or `SharedArrayBuffer`; `binary`, `float`: the objects with a member `_hint`
(`javascript/fastrpc.mjs:37-42`); `obj`: any other object, its enumerable members in their order. -/
inductive Js where
  | null
  | bool (b : Bool)
  | int (n : Int)
  | num (x : Number)
  | str (s : Bytes)
  | date (d : Date)
  | buffer (b : Bytes)
  | binary (b : List Js)
  | float (x : Number)
  | arr (vs : List Js)
  | obj (ms : List (Bytes × Js))

/-- The host: `floor(Math.log(abs) / Math.LN2)` of a positive `m * 2^e`; `new TextDecoder().decode`; `new Date(ms)`. -/
structure Host where
  lg : Nat → Int → Int
  decode : Bytes → Bytes
  date : Int → Date

/-! ## Serializing -/

/-- The hint of a place. -/
inductive Hint where
  | float
  | binary
deriving DecidableEq, Repr

/-- The argument `hints`: nothing, a word for the whole, or a word for each path. -/
inductive Hints where
  | none
  | all (h : Hint)
  | table (t : Bytes → Option Hint)

/-- `_path.join(".")`. -/
def joined : List Bytes → Bytes
  | [] => []
  | [p] => p
  | p :: ps => p ++ asc "." ++ joined ps

/-- `_getHint` (`javascript/fastrpc.mjs:532-540`). -/
def getHint : Hints → List Bytes → Option Hint
  | .none, _ => Option.none
  | .all h, _ => some h
  | .table t, path => t (joined path)

/-- The loop of `_encodeInt` (`javascript/fastrpc.mjs:455-467`). -/
def encodeLoop (n : Nat) : List Nat :=
  if h : n = 0 then [] else n % 256 :: encodeLoop (n / 256)
termination_by n
decreasing_by omega

/-- `_encodeInt` (`javascript/fastrpc.mjs:455-467`). -/
def encodeInt (n : Nat) : List Nat := if n = 0 then [0] else encodeLoop n

/-- The integer part of `m * 2^e`: what the bytes pushed by `_encodeInt` come to when the number has a fraction, the first of them being cut when
it is stored as a byte. -/
def floorOf (m : Nat) (e : Int) : Nat := if 0 ≤ e then m * 2 ^ e.toNat else m / 2 ^ (-e).toNat

/-- `_encodeZigzag` (`javascript/fastrpc.mjs:443-451`), of a sign and an integer. -/
def encodeZigzag (neg : Bool) (n : Nat) : List Nat := encodeInt (2 * n + if neg then 1 else 0)

/-- The first byte and the length bytes of strings, binaries, arrays and structs (e.g. `javascript/fastrpc.mjs:272-278`). -/
def header (type n : Nat) : List Nat := (type * 8 + ((encodeInt n).length - 1)) :: encodeInt n

/-- A number without hint (`javascript/fastrpc.mjs:284-299`); `_version == 3` is the new format. -/
def serializeInt (version : Nat) (neg : Bool) (n : Nat) : List Nat :=
  if version = 3 then
    (1 * 8 + ((encodeZigzag neg n).length - 1)) :: encodeZigzag neg n
  else
    ((if neg then 8 else 7) * 8 + ((encodeInt n).length - 1)) :: encodeInt n

/-- A number that need not be an integer, without hint. `NaN` and the infinities leave `_encodeInt` as one byte that is stored as 0; `NaN >= 0` is
false. -/
def serializeNumber (version : Nat) : Number → List Nat
  | .nan => if version = 3 then [8, 0] else [64, 0]
  | .inf neg => if version = 3 then [8, 0] else [if neg then 64 else 56, 0]
  | .fin neg m e =>
    if version = 3 then
      let d := encodeInt (floorOf m (e + 1) + if neg ∧ m ≠ 0 then 1 else 0)
      (8 + (d.length - 1)) :: d
    else serializeInt version (neg ∧ m ≠ 0) (floorOf m e)

/-- The bits of a number from the lowest, as the loops of `_encodeDouble` push them (`javascript/fastrpc.mjs:505-513`): `fraction % 2 ? 1 : 0`, then
`Math.floor(fraction / 2)`. -/
def bitsOf : Nat → Int → List Nat
  | 0, _ => []
  | k + 1, n => (if n % 2 ≠ 0 then 1 else 0) :: bitsOf k (n / 2)

/-- The same for a fraction given by its double, which may be odd (`fraction` ends in a half). -/
def fractionBits (twice : Int) : List Nat := (if twice % 4 ≠ 0 then 1 else 0) :: bitsOf 51 (twice / 4)

/-- Eight bits to a byte (`javascript/fastrpc.mjs:515-526`). -/
def packBits : List Nat → List Nat
  | a :: b :: c :: d :: e :: f :: g :: h :: r => (a + 2 * b + 4 * c + 8 * d + 16 * e + 32 * f + 64 * g + 128 * h) :: packBits r
  | _ => []

/-- `abs * 2^k` of a positive `m * 2^e`, exact or cut. -/
def scaled (m : Nat) (e k : Int) : Nat := floorOf m (e + k)

/-- `_encodeDouble` (`javascript/fastrpc.mjs:471-527`). `Math.pow(2, fracBits - ln)` is infinite when the exponent is beyond 1023, and then so is the fraction,
whose bits all come out 0. -/
def encodeDouble (H : Host) : Number → List Nat
  | .nan => packBits (bitsOf 52 1 ++ bitsOf 11 2047 ++ [0])
  | .inf neg => packBits (bitsOf 52 0 ++ bitsOf 11 2047 ++ [if neg then 1 else 0])
  | .fin neg m e =>
    if m = 0 then packBits (bitsOf 52 0 ++ bitsOf 11 0 ++ [if neg then 1 else 0])
    else if scaled m e 1074 ≥ 2 ^ 52 then
      let ln := min (H.lg m e) 1023
      let fraction := if 52 - ln > 1023 then bitsOf 52 0 else fractionBits ((scaled m e (53 - ln) : Nat) - 2 ^ 53)
      packBits (fraction ++ bitsOf 11 (ln + 1023) ++ [if neg then 1 else 0])
    else
      packBits (bitsOf 52 (scaled m e 1074 : Nat) ++ bitsOf 11 0 ++ [if neg then 1 else 0])

/-- The double of an integer. -/
def Number.ofInt (n : Int) : Number :=
  if n = 0 then .fin false 0 (-1074) else .fin (n < 0) (n.natAbs * 2 ^ (52 - Nat.log2 n.natAbs)) ((Nat.log2 n.natAbs : Int) - 52)

/-- The significand and the exponent of a finite number. -/
def Number.significand : Number → Nat
  | .fin _ m _ => m
  | _ => 0
@[inherit_doc Number.significand] def Number.exponent : Number → Int
  | .fin _ _ e => e
  | _ => 0

/-- `_serializeDate` (`javascript/fastrpc.mjs:392-442`). The zone may have a fraction, which is cut when it is stored as a byte; `Math.round` rounds halves up. -/
def serializeDate (version : Nat) (d : Date) : List Nat :=
  let zone := if d.offset < 0 then ((d.offset + 256 * 15).tdiv 15).toNat else (d.offset.tdiv 15).toNat
  let ts := (d.ms + 500) / 1000
  let stamp :=
    if version = 3 then
      if ts < 0 then [255, 255, 255, 255, 255, 255, 255, 255]
      else encodeInt ts.toNat ++ List.replicate (8 - (encodeInt ts.toNat).length) 0
    else
      let ts := if ts < 0 ∨ ts ≥ 2 ^ 31 then -1 else ts
      let ts := if ts < 0 then ts + 2 ^ 32 else ts
      encodeInt ts.toNat ++ List.replicate (4 - (encodeInt ts.toNat).length) 0
  let year := (min (max (d.year - 1600) 0) 2047).toNat
  let month := d.month + 1
  [5 * 8, zone] ++ stamp ++
  [ ((d.seconds &&& 0x1f) <<< 3) ||| (d.weekDay &&& 0x07),
    ((d.minutes &&& 0x3f) <<< 1) ||| ((d.seconds &&& 0x20) >>> 5) ||| ((d.hours &&& 0x01) <<< 7),
    ((d.hours &&& 0x1e) >>> 1) ||| ((d.day &&& 0x0f) <<< 4),
    ((d.day &&& 0x1f) >>> 4) ||| ((month &&& 0x0f) <<< 1) ||| ((year &&& 0x07) <<< 5),
    (year &&& 0x07f8) >>> 3 ]

/-- The elements of an array given as binary data, which are pushed as they are: what they come to when they are stored as bytes. Only numbers are
modelled: anything else counts as 0. -/
def byteOf : Js → Nat
  | .int n => (n % 256).toNat
  | .num (.fin neg m e) => ((if neg then -(floorOf m e : Int) else floorOf m e) % 256).toNat
  | _ => 0

/-- Text as the numbers of its bytes. -/
def codes (s : Bytes) : List Nat := s.map UInt8.toNat

mutual
/-- `_serializeValue` (`javascript/fastrpc.mjs:265-337`) with `_serializeArrayBuffer`, `_serializeArray`, `_serializeBinary`, `_serializeDouble` and
`_serializeStruct` (338-391). -/
def serialize (H : Host) (version : Nat) (hints : Hints) (path : List Bytes) : Js → List Nat
  | .null => [12 * 8]
  | .str s => header 4 s.length ++ codes s
  | .int n =>
    if getHint hints path = some .float then 3 * 8 :: encodeDouble H (Number.ofInt n)
    else serializeInt version (n < 0) n.natAbs
  | .num x =>
    if getHint hints path = some .float then 3 * 8 :: encodeDouble H x
    else serializeNumber version x
  | .bool b => [2 * 8 + if b then 1 else 0]
  | .buffer b => header 6 b.length ++ codes b
  | .date d => serializeDate version d
  | .arr vs =>
    if getHint hints path = some .binary then header 6 vs.length ++ vs.map byteOf
    else header 11 vs.length ++ serializeItems H version hints path 0 vs
  | .binary b => header 6 b.length ++ b.map byteOf
  | .float x => 3 * 8 :: encodeDouble H x
  | .obj ms => header 10 ms.length ++ serializeMembers H version hints path ms
/-- The loop of `_serializeArray` (`javascript/fastrpc.mjs:352-356`). -/
def serializeItems (H : Host) (version : Nat) (hints : Hints) (path : List Bytes) (i : Nat) : List Js → List Nat
  | [] => []
  | v :: vs => serialize H version hints (path ++ [dec i]) v ++ serializeItems H version hints path (i + 1) vs
/-- The loop of `_serializeStruct` (`javascript/fastrpc.mjs:383-390`). -/
def serializeMembers (H : Host) (version : Nat) (hints : Hints) (path : List Bytes) : List (Bytes × Js) → List Nat
  | [] => []
  | (k, v) :: ms => k.length :: (codes k ++ (serialize H version hints (path ++ [k]) v ++ serializeMembers H version hints path ms))
end

/-- Numbers stored as bytes (`new Uint8Array(result)`, which the transport does). -/
def stored (l : List Nat) : Bytes := l.map UInt8.ofNat

/-- `serializeCall` (`javascript/fastrpc.mjs:546-577`): two bytes are taken off the serialized array. -/
def serializeCall (H : Host) (version : Nat) (hints : Hints) (method : Bytes) (data : Js) : Bytes :=
  stored ([0xCA, 0x11, version, if version = 2 then 1 else 0] ++ [13 * 8, method.length] ++ codes method ++ (serialize H version hints [] data).drop 2)

/-! ## Parsing -/

/-- What `parse` throws: the error it makes of a fault, or another one. -/
inductive JsErr where
  | fault (num msg : Js)
  | error
  | fuel

/-- Reading: the value and the bytes that are left. -/
abbrev P (α : Type) := Except JsErr (α × Bytes)

/-- `_getByte` (`javascript/fastrpc.mjs:215-220`). -/
def getByte : Bytes → P Nat
  | [] => .error .error
  | b :: r => .ok (b.toNat, r)

/-- `_getInt` (`javascript/fastrpc.mjs:206-214`). -/
def getInt : Nat → Bytes → P Nat
  | 0, d => .ok (0, d)
  | k + 1, d =>
    match getByte d with
    | .error e => .error e
    | .ok (b, d) =>
      match getInt k d with
      | .error e => .error e
      | .ok (n, d) => .ok (b + 256 * n, d)

/-- The bytes that `_decodeUTF8` takes (`javascript/fastrpc.mjs:221-227`): beyond the end `undefined` is stored as 0. -/
def take (n : Nat) (d : Bytes) : Bytes := d.take n ++ List.replicate (n - d.length) 0

/-- `_decodeUTF8` (`javascript/fastrpc.mjs:221-227`). -/
def decodeUTF8 (H : Host) (n : Nat) (d : Bytes) : Bytes × Bytes := (H.decode (take n d), d.drop n)

/-- The loops reading `n` bytes with `_getByte`. -/
def getBytes : Nat → Bytes → P Bytes
  | 0, d => .ok ([], d)
  | k + 1, d =>
    match d with
    | [] => .error .error
    | b :: r =>
      match getBytes k r with
      | .error e => .error e
      | .ok (l, r) => .ok (b :: l, r)

/-- `_getZigzag` (`javascript/fastrpc.mjs:199-204`). -/
def unZigzag (n : Nat) : Int := if n % 2 = 1 then -((n / 2 : Nat) + 1 : Int) else (n / 2 : Nat)

/-- The loop of `_getDouble` that sums up the significand (`javascript/fastrpc.mjs:240-253`), times 2^52: the bits of the bytes from the highest of the second
byte's lower half. -/
def mantissa (b1 : Nat) (bs : List Nat) : Nat := bs.foldl (fun acc b => acc * 256 + b) (b1 % 16)

/-- `_getDouble` (`javascript/fastrpc.mjs:228-264`); the bytes are stored from the last. -/
def toDouble : List Nat → Number
  | [c0, c1, c2, c3, c4, c5, b1, b0] =>
    let neg := decide (b0 ≥ 128)
    let exponent := b0 % 128 * 16 + b1 / 16
    let mant := mantissa b1 [c5, c4, c3, c2, c1, c0]
    if exponent = 0 then .fin neg 0 (-1074)
    else if exponent = 2047 then (if mant ≠ 0 then .nan else .inf neg)
    else .fin neg (2 ^ 52 + mant) ((exponent : Int) - 1023 - 52)
  | _ => .nan

/-- Reading a length (e.g. `javascript/fastrpc.mjs:64-71`): the lower bits of the first byte, and one more from version 2 on. -/
def lengthBytes (version first : Nat) : Nat := if version > 1 then first % 8 + 1 else first % 8

/-- `result[name] = value`, for a fresh object. A member of that name is replaced; the name `__proto__` sets the prototype and makes no member. -/
def assign (ms : List (Bytes × Js)) (k : Bytes) (v : Js) : List (Bytes × Js) :=
  if k = asc "__proto__" then ms
  else if ms.any (fun m => m.1 = k) then ms.map (fun m => if m.1 = k then (k, v) else m) else ms ++ [(k, v)]

mutual
/-- `_parseValue` (`javascript/fastrpc.mjs:54-187`). `buffers`: binary data is wanted as a buffer, else it is an array of numbers. -/
def parseValue (H : Host) (version : Nat) (buffers : Bool) : Nat → Bytes → P Js
  | 0, _ => .error .fuel
  | fuel + 1, d =>
    match getByte d with
    | .error e => .error e
    | .ok (first, d) =>
      if first / 8 = 4 then
        if lengthBytes version first = 0 then .error .error
        else
          match getInt (lengthBytes version first) d with
          | .error e => .error e
          | .ok (n, d) => .ok (.str (decodeUTF8 H n d).1, (decodeUTF8 H n d).2)
      else if first / 8 = 10 then
        match getInt (lengthBytes version first) d with
        | .error e => .error e
        | .ok (n, d) =>
          match parseMembers H version buffers fuel n [] d with
          | .error e => .error e
          | .ok (ms, d) => .ok (.obj ms, d)
      else if first / 8 = 11 then
        match getInt (lengthBytes version first) d with
        | .error e => .error e
        | .ok (n, d) =>
          match parseItems H version buffers fuel n d with
          | .error e => .error e
          | .ok (vs, d) => .ok (.arr vs, d)
      else if first / 8 = 2 then
        if first % 8 > 1 then .error .error else .ok (.bool (first % 8 = 1), d)
      else if first / 8 = 1 then
        if version = 3 then
          match getInt (first % 8 + 1) d with
          | .error e => .error e
          | .ok (n, d) => .ok (.int (unZigzag n), d)
        else if first % 8 = 0 then .error .error
        else
          match getInt (first % 8) d with
          | .error e => .error e
          | .ok (n, d) => .ok (.int (if n ≥ 0x80000000 then (n : Int) - 0x80000000 else n), d)
      else if first / 8 = 5 then
        match getByte d with
        | .error e => .error e
        | .ok (_, d) =>
          match getInt (if version = 3 then 8 else 4) d with
          | .error e => .error e
          | .ok (ts, d) =>
            match getBytes 5 d with
            | .error e => .error e
            | .ok (_, d) => .ok (.date (H.date (1000 * ts)), d)
      else if first / 8 = 3 then
        match getBytes 8 d with
        | .error e => .error e
        | .ok (l, d) => .ok (.num (toDouble (codes l)), d)
      else if first / 8 = 6 then
        if lengthBytes version first = 0 then .error .error
        else
          match getInt (lengthBytes version first) d with
          | .error e => .error e
          | .ok (n, d) =>
            match getBytes n d with
            | .error e => .error e
            | .ok (l, d) => .ok (if buffers then .buffer l else .arr ((codes l).map fun (n : Nat) => .int n), d)
      else if first / 8 = 7 then
        match getInt (first % 8 + 1) d with
        | .error e => .error e
        | .ok (n, d) => .ok (.int n, d)
      else if first / 8 = 8 then
        match getInt (first % 8 + 1) d with
        | .error e => .error e
        | .ok (n, d) => .ok (.int (-(n : Int)), d)
      else if first / 8 = 12 then
        if version > 1 then .ok (.null, d) else .error .error
      else .error .error
/-- The loop for the elements of an array (`javascript/fastrpc.mjs:93-95`). -/
def parseItems (H : Host) (version : Nat) (buffers : Bool) : Nat → Nat → Bytes → P (List Js)
  | _, 0, d => .ok ([], d)
  | 0, _ + 1, _ => .error .fuel
  | fuel + 1, n + 1, d =>
    match parseValue H version buffers fuel d with
    | .error e => .error e
    | .ok (v, d) =>
      match parseItems H version buffers fuel n d with
      | .error e => .error e
      | .ok (vs, d) => .ok (v :: vs, d)
/-- The loop for the members of a struct with `_parseMember` (`javascript/fastrpc.mjs:81-83,194-198`). -/
def parseMembers (H : Host) (version : Nat) (buffers : Bool) : Nat → Nat → List (Bytes × Js) → Bytes → P (List (Bytes × Js))
  | _, 0, ms, d => .ok (ms, d)
  | 0, _ + 1, _, _ => .error .fuel
  | fuel + 1, n + 1, ms, d =>
    match getByte d with
    | .error e => .error e
    | .ok (len, d) =>
      match parseValue H version buffers fuel (decodeUTF8 H len d).2 with
      | .error e => .error e
      | .ok (v, d') => parseMembers H version buffers fuel n (assign ms (decodeUTF8 H len d).1 v) d'
end

/-- The parameters of a call (`javascript/fastrpc.mjs:624-627`): values until the end. -/
def parseParams (H : Host) (version : Nat) (buffers : Bool) : Nat → Bytes → Except JsErr (List Js)
  | 0, _ => .error .fuel
  | fuel + 1, d =>
    if d = [] then .ok []
    else
      match parseValue H version buffers fuel d with
      | .error e => .error e
      | .ok (v, d) =>
        match parseParams H version buffers fuel d with
        | .error e => .error e
        | .ok vs => .ok (v :: vs)

/-- What `parse` returns: the value of a response, or a call. -/
inductive Parsed where
  | response (v : Js)
  | call (method : Bytes) (params : List Js)

/-- `parse` (`javascript/fastrpc.mjs:587-638`). The fuel is never used up: every value takes a byte. -/
def parse (H : Host) (buffers : Bool) (data : Bytes) : Except JsErr Parsed :=
  match data with
  | m1 :: m2 :: version :: _ :: d =>
    if m1 ≠ 0xCA ∨ m2 ≠ 0x11 then .error .error
    else
      match getByte d with
      | .error e => .error e
      | .ok (first, d) =>
        if first / 8 = 15 then
          match parseValue H version.toNat buffers (2 * data.length) d with
          | .error e => .error e
          | .ok (num, d) =>
            match parseValue H version.toNat buffers (2 * data.length) d with
            | .error e => .error e
            | .ok (msg, _) => .error (.fault num msg)
        else if first / 8 = 14 then
          match parseValue H version.toNat buffers (2 * data.length) d with
          | .error e => .error e
          | .ok (v, d) => if d = [] then .ok (.response v) else .error .error
        else if first / 8 = 13 then
          match getByte d with
          | .error e => .error e
          | .ok (len, d) =>
            if (decodeUTF8 H len d).1 = [] then .error .error
            else
              match parseParams H version.toNat buffers (2 * data.length) (decodeUTF8 H len d).2 with
              | .error e => .error e
              | .ok vs => .ok (.call (decodeUTF8 H len d).1 vs)
        else .error .error
  | _ => .error .error

end Js
end Frpc
