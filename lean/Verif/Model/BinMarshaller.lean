import Verif.Model.Value
/-!
# `BinMarshaller_t` (`src/frpcbinmarshaller.cc`, `src/frpcinternals.h`)

Every operation yields the list of `writer.write` calls it makes and the
exception, if any, that ends it.
-/
namespace Frpc

/-- What a marshaller operation did: the `Writer_t::write` calls in order and
the exception it ended with. -/
abbrev PackRes := List Bytes × Option Err

/-- Type tags (`src/frpcinternals.h:73-91`). -/
def T_INT : Nat := 1
@[inherit_doc T_INT] def T_BOOL : Nat := 2
@[inherit_doc T_INT] def T_DOUBLE : Nat := 3
@[inherit_doc T_INT] def T_STRING : Nat := 4
@[inherit_doc T_INT] def T_DATETIME : Nat := 5
@[inherit_doc T_INT] def T_BINARY : Nat := 6
@[inherit_doc T_INT] def T_INTP8 : Nat := 7
@[inherit_doc T_INT] def T_INTN8 : Nat := 8
@[inherit_doc T_INT] def T_STRUCT : Nat := 10
@[inherit_doc T_INT] def T_ARRAY : Nat := 11
@[inherit_doc T_INT] def T_NULL : Nat := 12
@[inherit_doc T_INT] def T_CALL : Nat := 13
@[inherit_doc T_INT] def T_RESPONSE : Nat := 14
@[inherit_doc T_INT] def T_FAULT : Nat := 15

namespace BinMarshaller

/-- `getNumberSize` (`src/frpcbinmarshaller.cc:52-56`). -/
def getNumberSize (ver : Version) (size : Nat) : Nat :=
  if ver.major < 2 then size else size + 1

/-- `getNumberType` (`src/frpcbinmarshaller.cc:58-99`).  `!(number & INTk_MASK)`
(masks: `src/frpcinternals.h:104-120`) says that no bit at or above bit `k` of
the two's complement pattern is set.  For major < 2 the number is first cut to
`int32_t`; `OLD_INT32_MASK` is 0, so the last test always succeeds and the
`throw` at line 74 is unreachable. -/
def getNumberType (ver : Version) (number : Int) : Nat :=
  if ver.major < 2 then
    let p := u32 number
    if p < 2 ^ 8 then 0 + 1
    else if p < 2 ^ 16 then 1 + 1
    else if p < 2 ^ 24 then 2 + 1
    else 3 + 1
  else
    let p := u64 number
    if p < 2 ^ 8 then 0
    else if p < 2 ^ 16 then 1
    else if p < 2 ^ 24 then 2
    else if p < 2 ^ 32 then 3
    else if p < 2 ^ 40 then 4
    else if p < 2 ^ 48 then 5
    else if p < 2 ^ 56 then 6
    else 7

/-- `data_type` (`src/frpcbinmarshaller.cc:103-105`). -/
def dataType (type info : Nat) : UInt8 :=
  UInt8.ofNat (((type &&& 0x1f) <<< 3) ||| (info &&& 7))

/-- `zigzagEncode` (`src/frpcbinmarshaller.cc:118-126`). -/
def zigzagEncode (n : Int) : Nat :=
  (((BitVec.ofInt 64 n) <<< 1) ^^^ ((BitVec.ofInt 64 n).sshiftRight 63)).toNat

/-- `safe_abs` (`src/frpcbinmarshaller.cc:44-50`): `~val + 1` in 64 bits. -/
def safeAbs (n : Int) : Nat := if n < 0 then (u64 (-n - 1) + 1) % 2 ^ 64 else u64 n

/-- `Number_t(number).data`, first `k` bytes (`src/frpcinternals.h:122-136`). -/
def number (n : Int) (k : Nat) : Bytes := (leBytes 8 (u64 n)).take k

/-- `Number32_t(number).data`, first `k` bytes (`src/frpcinternals.h:138-151`). -/
def number32 (n : Int) (k : Nat) : Bytes := (leBytes 4 (u32 n)).take k

/-- Tag byte followed by a size (`packArray`, `packStruct`, headers of
`packString`/`packBinary`; e.g. `src/frpcbinmarshaller.cc:142-159`). -/
def sized (ver : Version) (type : Nat) (n : Nat) : List Bytes :=
  let t := getNumberType ver n
  [[dataType type t], number n (getNumberSize ver t)]

/-- `packInt` (`src/frpcbinmarshaller.cc:294-342`). -/
def packInt (ver : Version) (value : Int) : List Bytes :=
  if ver.major > 2 then
    let zig := zigzagEncode value
    let t := getNumberType ver (i64 zig)
    [[dataType T_INT t], number (i64 zig) (getNumberSize ver t)]
  else if ver.major > 1 then
    if value < 0 then
      let t := getNumberType ver (i64 (safeAbs value))
      [[dataType T_INTN8 t], number (i64 (safeAbs value)) (getNumberSize ver t)]
    else
      let t := getNumberType ver value
      [[dataType T_INTP8 t], number value (getNumberSize ver t)]
  else
    let t := getNumberType ver value
    [[dataType T_INT t], number32 value (getNumberSize ver t)]

/-- Low `k` bits of an integer as in `x & ((1 << k) - 1)`. -/
def low (k : Nat) (x : Int) : Nat := (x % (2 : Int) ^ k).toNat

/-- The five bit-packed bytes shared by `DateTimeData_t::pack`
(`src/frpcinternals.h:224-242`) and `DateTimeDataV3_t::pack` (268-286), with
the field masking of `packDateTime` (`src/frpcbinmarshaller.cc:205-216`). -/
def packFields (d : DateTime) : Bytes :=
  let year := if d.year ≤ 1600 then 0 else low 11 (d.year - 1600)
  let month := low 4 d.month
  let day := low 5 d.day
  let hour := low 5 d.hour
  let minute := low 6 d.minute
  let sec := low 6 d.sec
  let weekDay := low 3 d.weekDay
  [ UInt8.ofNat (((sec &&& 0x1f) <<< 3) ||| (weekDay &&& 0x07)),
    UInt8.ofNat (((minute &&& 0x3f) <<< 1) ||| ((sec &&& 0x20) >>> 5) ||| ((hour &&& 0x01) <<< 7)),
    UInt8.ofNat (((hour &&& 0x1e) >>> 1) ||| ((day &&& 0x0f) <<< 4)),
    UInt8.ofNat (((day &&& 0x1f) >>> 4) ||| ((month &&& 0x0f) <<< 1) ||| ((year &&& 0x07) <<< 5)),
    UInt8.ofNat ((year &&& 0x07f8) >>> 3) ]

/-- `static_cast<char>(timeZone / 60 / 15)` (`src/frpcbinmarshaller.cc:218`);
C++ division truncates towards zero. -/
def packZone (tz : Int) : UInt8 := UInt8.ofNat (low 8 ((tz.tdiv 60).tdiv 15))

/-- `packDateTime` (`src/frpcbinmarshaller.cc:194-250`) with
`DateTimeData_t::pack` / `DateTimeDataV3_t::pack` (`src/frpcinternals.h:206-291`).
Below major 3, negating `INT64_MIN` (line 214) is undefined behaviour. -/
def packDateTime (ver : Version) (d : DateTime) : PackRes :=
  if ver.major > 2 then
    ([[dataType T_DATETIME 0],
      packZone d.timeZone :: (leBytes 8 (u64 d.unixTime) ++ packFields d)], none)
  else if d.unixTime = -(2 : Int) ^ 63 then ([], some .ub)
  else
    let unixTimeAbs := if d.unixTime > 0 then d.unixTime else -d.unixTime
    let unixTime : Int := if unixTimeAbs < 2 ^ 32 then i32 (u32 d.unixTime) else -1
    ([[dataType T_DATETIME 0],
      packZone d.timeZone :: (leBytes 4 (u32 unixTime) ++ packFields d)], none)

/-- `packMagic` (`src/frpcbinmarshaller.cc:428-434`). -/
def packMagic (ver : Version) : Bytes := [0xCA, 0x11, ver.major, ver.minor]

/-- `packString` (`src/frpcbinmarshaller.cc:367-385`).  `strOk` is the outcome of
`String_t::validateBytes` (constantly true when the validation policy is off);
it throws `TypeError_t` before anything is written. -/
def packString (strOk : Bytes → Bool) (ver : Version) (s : Bytes) : PackRes :=
  if strOk s then (sized ver T_STRING s.length ++ [s], none) else ([], some .type)

/-- One operation of the binary marshaller (`src/frpcbinmarshaller.cc:142-463`). -/
def pack (strOk : Bytes → Bool) (ver : Version) : PackOp → PackRes
  | .packArray n => (sized ver T_ARRAY n, none)
  | .packBinary s => (sized ver T_BINARY s.length ++ [s], none)
  | .packBool b => ([[dataType T_BOOL (if b then 1 else 0)]], none)
  | .packDateTime d => packDateTime ver d
  | .packDouble bits => ([[dataType T_DOUBLE 0], leBytes 8 bits.toNat], none)
  | .packFault code msg =>
      let r := packString strOk ver msg
      ([packMagic ver, [dataType T_FAULT 0]] ++ packInt ver code ++ r.1, r.2)
  | .packInt n => (packInt ver n, none)
  | .packMethodCall name =>
      if name.length > 255 || name.length == 0 then ([], some .len)
      else ([packMagic ver, [dataType T_CALL 0], [UInt8.ofNat name.length], name], none)
  | .packString s => packString strOk ver s
  | .packStruct n => (sized ver T_STRUCT n, none)
  | .packStructMember name =>
      if name.length > 255 || name.length == 0 then ([], some .len)
      else ([[UInt8.ofNat name.length], name], none)
  | .packMethodResponse => ([packMagic ver, [dataType T_RESPONSE 0]], none)
  | .packNull =>
      if ver.major < 2 || (ver.major == 2 && ver.minor < 1) then ([], some .stream)
      else ([[dataType T_NULL 0]], none)
  | .packBinaryRef cs => (sized ver T_BINARY cs.flatten.length ++ cs, none)

/-- The constructor's check (`src/frpcbinmarshaller.cc:130-136`). -/
def accepts (ver : Version) : Bool := !(ver.major > 3)

/-- A client of the marshaller performing a list of operations, stopping at the
first exception (which propagates). -/
def run (strOk : Bytes → Bool) (ver : Version) : List PackOp → PackRes
  | [] => ([], none)
  | op :: ops =>
    match pack strOk ver op with
    | (ws, some e) => (ws, some e)
    | (ws, none) => let r := run strOk ver ops; (ws ++ r.1, r.2)

end BinMarshaller
end Frpc
