import Verif.Model.BinMarshaller
/-!
# `BinUnMarshaller_t` (`src/frpcbinunmarshaller.cc`, `.h`)

The decoder core never depends on what the builder does (except that an
exception of the builder ends decoding), so a step of the core yields the list
of builder calls it makes; `feed` applies them to a builder.
-/
namespace Frpc

/-- Decoder states (`src/frpcbinunmarshaller.cc:68-92`; the unused enumerators are left out). -/
inductive St where
  | magic | body | methodNameLen | methodName | memberName | valueType | realValueType
  | int | intP8 | intN8 | double | string | stringLen | binary | binaryLen
  | dateTime | struct | array
deriving Repr, DecidableEq, Inhabited

/-- Container kind on the recursion stack (`StackElement_t::type`). -/
inductive Kind where | struct | array
deriving Repr, DecidableEq, Inhabited

/-- `BinUnMarshaller_t::StackElement_t` (`src/frpcbinunmarshaller.h:75-78`). -/
structure Frame where
  members : Nat
  kind : Kind
deriving Repr, DecidableEq, Inhabited

/-- Members of `BinUnMarshaller_t` (`src/frpcbinunmarshaller.h:80-87`) except the
buffer and the builder.  `stack` has the top first. -/
structure Core where
  st : St
  wanted : Nat
  stack : List Frame
  fault : Nat
  errNo : Int
  ver : Version
deriving Repr, DecidableEq, Inhabited

namespace BinUnMarshaller

/-- The `char type` argument of `unMarshall` (`src/frpcunmarshaller.h:49-54`). -/
inductive Req where | call | response | fault | any
deriving Repr, DecidableEq, Inhabited

/-- `d[i]` / `d.data()[i]`: reading beyond the bytes that were waited for is
treated as undefined behaviour (stricter than the code needs). -/
def rd (d : Bytes) (i : Nat) : Except Err UInt8 :=
  match d[i]? with
  | some b => .ok b
  | none => .error .ub

/-- `getInt64` (`src/frpcbinunmarshaller.cc:115-132`): `memcpy` into 8 scratch
bytes; a larger size overflows them, a short source is overread. -/
def getInt64 (d : Bytes) (size : Nat) : Except Err Int :=
  if size > 8 ∨ d.length < size then .error .ub
  else .ok (i64 (leNat (d.take size)))

/-- `getInt32` with size 4 (`src/frpcbinunmarshaller.cc:134-149`). -/
def getInt32 (d : Bytes) (size : Nat) : Except Err Int :=
  if size > 4 ∨ d.length < size then .error .ub
  else .ok (i32 (leNat (d.take size)))

/-- `getDouble` (`src/frpcbinunmarshaller.cc:153-165`). -/
def getDouble (d : Bytes) : Except Err (BitVec 64) :=
  if d.length < 8 then .error .ub
  else .ok (BitVec.ofNat 64 (leNat (d.take 8)))

/-- `zigzagDecode` (`src/frpcbinunmarshaller.cc:96-99`). -/
def zigzagDecode (s : Int) : Int :=
  let n := BitVec.ofInt 64 s
  ((n >>> 1) ^^^ (-(n &&& 1#64))).toInt

/-- `safe_negate` (`src/frpcbinunmarshaller.cc:53-62`). -/
def safeNegate (n : Int) : Int := if n = -(2 : Int) ^ 63 then n else -n

/-- `getVersionedLengthSize` (`src/frpcbinunmarshaller.cc:106-113`). -/
def lengthSize (longer : Bool) (b : UInt8) : Except Err Nat :=
  let v := b.toNat &&& 7
  if longer then .ok (v + 1)
  else if v = 0 ∨ v > 4 then .error .stream
  else .ok v

/-- The shared part of `getDateTime` and `getDateTimeV3`
(`src/frpcbinunmarshaller.cc:168-205`), `f` being the five packed bytes
(`data[5..9]` resp. `data[9..13]`).  `char` is signed: the year's high byte is
sign extended before the shift, then the result is cut to 16 bits; other bytes
are masked, so their sign does not matter. The result's `year` is the raw
`unsigned short`. -/
def getFields (f0 f1 f2 f3 f4 : UInt8) (zone : UInt8) (unixTime : Int) : DateTime :=
  { year := (i8 f4.toNat * 8 + (((f3.toNat &&& 0xe0) >>> 5 : Nat) : Int)) % 65536
    month := ((f3.toNat &&& 0x1e) >>> 1 : Nat)
    day := (((f3.toNat &&& 0x01) <<< 4) ||| ((f2.toNat &&& 0xf0) >>> 4) : Nat)
    hour := (((f2.toNat &&& 0x0f) <<< 1) ||| ((f1.toNat &&& 0x80) >>> 7) : Nat)
    minute := ((f1.toNat &&& 0x7e) >>> 1 : Nat)
    sec := (((f1.toNat &&& 0x01) <<< 5) ||| ((f0.toNat &&& 0xf8) >>> 3) : Nat)
    weekDay := (f0.toNat &&& 0x07 : Nat)
    unixTime := unixTime
    timeZone := i8 zone.toNat }

/-- `getDateTime` (`src/frpcbinunmarshaller.cc:168-180`), 10 bytes. -/
def getDateTime (d : Bytes) : Except Err DateTime := do
  let z ← rd d 0
  let t ← getInt32 (d.drop 1) 4
  let f0 ← rd d 5; let f1 ← rd d 6; let f2 ← rd d 7; let f3 ← rd d 8; let f4 ← rd d 9
  return getFields f0 f1 f2 f3 f4 z t

/-- `getDateTimeV3` (`src/frpcbinunmarshaller.cc:183-205`), 14 bytes. -/
def getDateTimeV3 (d : Bytes) : Except Err DateTime := do
  let z ← rd d 0
  let t ← getInt64 (d.drop 1) 8
  let f0 ← rd d 9; let f1 ← rd d 10; let f2 ← rd d 11; let f3 ← rd d 12; let f4 ← rd d 13
  return getFields f0 f1 f2 f3 f4 z t

/-- Choice of layout (`src/frpcbinunmarshaller.cc:707-709`). -/
def getDate (ver : Version) (d : Bytes) : Except Err DateTime :=
  if ver.major > 2 then getDateTimeV3 d else getDateTime d

/-- The fix-ups of case `S_DATETIME` (`src/frpcbinunmarshaller.cc:711-721`): 1600
is added to the `unsigned short` year (wrapping), which is passed as `short`;
the zone becomes seconds. -/
def finishDate (d : DateTime) : DateTime :=
  let y := if d.year ≠ 0 ∨ d.month ≠ 0 ∨ d.day ≠ 0 ∨ d.hour ≠ 0 ∨ d.minute ≠ 0 ∨ d.sec ≠ 0
    then (d.year + 1600) % 65536 else d.year
  { d with year := i16 y, timeZone := d.timeZone * 15 * 60 }

/-- The call that opens a container. -/
def openEv (k : Kind) (n : Nat) : Event := match k with | .struct => .openStruct n | .array => .openArray n

/-- The call that closes a container (`src/frpcbinunmarshaller.cc:293-304`). -/
def closeEv (k : Kind) : Event := match k with | .struct => .closeStruct | .array => .closeArray

/-- `decrementMember` (`src/frpcbinunmarshaller.cc:282-307`): new stack and the
close calls.  `members` is a `uint32_t`. -/
def closeUp : List Frame → List Frame × List Event
  | [] => ([], [])
  | f :: s =>
    let m := (f.members + (2 ^ 32 - 1)) % 2 ^ 32
    if m ≠ 0 then ({ f with members := m } :: s, [])
    else
      let r := closeUp s
      (r.1, closeEv f.kind :: r.2)

/-- Effect of handing a value-level event to the current `dataBuilder`: the real
builder, or `FaultBuilder_t` (`src/frpcbinunmarshaller.cc:327-431`) once
`faultState` is non-zero (lines 435-436, 474).  Returns the updated core and the
calls the real builder sees. -/
def emit (c : Core) (e : Event) : Except Err (Core × List Event) :=
  if c.fault = 0 then .ok (c, [e])
  else match e with
    | .int n => if c.fault ≠ 1 then .error .stream else .ok ({ c with errNo := n, fault := 2 }, [])
    | .string s =>
      if c.fault ≠ 2 then .error .stream
      else .ok ({ c with fault := 3 }, [.fault (i32 (u32 c.errNo)) s])
    | _ => .error .stream

/-- A value was completed: `finalizeValue = true; newDataWanted = 1; state =
S_VALUE_TYPE`, then `decrementMember` (`src/frpcbinunmarshaller.cc:439,532-534`). -/
def finalize (c : Core) (es : List Event) : Core × List Event :=
  let r := closeUp c.stack
  ({ c with st := .valueType, wanted := 1, stack := r.1 }, es ++ r.2)

/-- A scalar value event followed by finalisation. -/
def scalar (c : Core) (e : Event) : Except Err (Core × List Event) := do
  let (c, es) ← emit c e
  return finalize c es

/-- Cases `S_STRUCT` and `S_ARRAY` (`src/frpcbinunmarshaller.cc:729-784`). -/
def openContainer (c : Core) (k : Kind) (acc : Int) : Except Err (Core × List Event) := do
  if acc < 0 then throw .stream
  if acc ≥ 2 ^ 32 then throw .stream
  if acc ≥ 2 ^ 30 then throw .stream
  let n := acc.toNat
  let (c, es) ← emit c (openEv k n)
  if n ≠ 0 then
    return ({ c with st := .valueType, wanted := 1, stack := ⟨n, k⟩ :: c.stack }, es)
  else
    let (c, es2) ← emit c (closeEv k)
    return finalize c (es ++ es2)

/-- Result of the value-type switch: `none` means the unknown type was met with
`stopOnUnknown` set (the function returns). -/
abbrev StepRes := Except Err (Option (Core × List Event))

/-- Sets the next state and the number of bytes it needs. -/
def goto (c : Core) (st : St) (w : Nat) : StepRes := .ok (some ({ c with st := st, wanted := w }, []))

/-- The inner `switch (getValueType(d[0]))` (`src/frpcbinunmarshaller.cc:525-625`). -/
def valueTag (stop : Bool) (c : Core) (b : UInt8) : StepRes :=
  if b.toNat >>> 3 = T_BOOL then
    if b.toNat &&& 6 ≠ 0 then .error .stream
    else do return some (← scalar c (.bool (b.toNat &&& 1 = 1)))
  else if b.toNat >>> 3 = T_NULL then
    if c.ver.major = 1 then .error .stream
    else do return some (← scalar c .null)
  else if b.toNat >>> 3 = T_INT then do goto c .int (← lengthSize (c.ver.major > 2) b)
  else if b.toNat >>> 3 = T_INTN8 then goto c .intN8 ((b.toNat &&& 7) + 1)
  else if b.toNat >>> 3 = T_INTP8 then goto c .intP8 ((b.toNat &&& 7) + 1)
  else if b.toNat >>> 3 = T_DOUBLE then goto c .double 8
  else if b.toNat >>> 3 = T_DATETIME then goto c .dateTime (if c.ver.major > 2 then 14 else 10)
  else if b.toNat >>> 3 = T_STRING then do goto c .stringLen (← lengthSize (c.ver.major ≥ 2) b)
  else if b.toNat >>> 3 = T_BINARY then do goto c .binaryLen (← lengthSize (c.ver.major ≥ 2) b)
  else if b.toNat >>> 3 = T_ARRAY then do goto c .array (← lengthSize (c.ver.major ≥ 2) b)
  else if b.toNat >>> 3 = T_STRUCT then do goto c .struct (← lengthSize (c.ver.major ≥ 2) b)
  else if stop then .ok none
  else .error .stream

/-- `isInsideStruct` (`src/frpcbinunmarshaller.cc:277-280`). -/
def insideStruct (c : Core) : Bool :=
  match c.stack with
  | f :: _ => f.kind == .struct
  | [] => false

/-- The message-type filter of `S_BODY` (`src/frpcbinunmarshaller.cc:460-468`). -/
def reqAllows (req : Req) (msgType : Nat) : Bool :=
  match req with
  | .any => true
  | .call => msgType == T_CALL
  | .response => msgType == T_RESPONSE || msgType == T_FAULT
  | .fault => msgType == T_FAULT

/-- One pass through the `switch (d.state)` of `unMarshallInternal`
(`src/frpcbinunmarshaller.cc:440-785`), including `decrementMember`; `d` is
exactly the `wanted` bytes. -/
def step (req : Req) (stop : Bool) (c : Core) (d : Bytes) : StepRes :=
  match c.st with
  | .magic => do
      let m0 ← rd d 0; let m1 ← rd d 1
      if m0 ≠ 0xCA ∨ m1 ≠ 0x11 then throw .stream
      let maj ← rd d 2; let min ← rd d 3
      if maj > 3 ∨ maj < 1 then throw .stream
      return some ({ c with ver := ⟨maj, min⟩, wanted := 1, st := .body }, [])
  | .body => do
      let b ← rd d 0
      let t := b.toNat >>> 3
      if !reqAllows req t then throw .stream
      if t = T_FAULT then
        return some ({ c with fault := 1, wanted := 1, st := .valueType }, [])
      else if t = T_RESPONSE then
        let (c, es) ← emit c .methodResponse
        return some ({ c with wanted := 1, st := .valueType }, es)
      else if t = T_CALL then
        return some ({ c with wanted := 1, st := .methodNameLen }, [])
      else throw .stream
  | .methodNameLen => do
      let b ← rd d 0
      if b = 0 then throw .stream
      return some ({ c with wanted := b.toNat, st := .methodName }, [])
  | .methodName => do
      let (c, es) ← emit c (.methodCall d)
      return some ({ c with wanted := 1, st := .valueType }, es)
  | .memberName => do
      let (c, es) ← emit c (.member d)
      return some ({ c with wanted := 1, st := .realValueType }, es)
  | .valueType => do
      let b ← rd d 0
      if insideStruct c then
        if b = 0 then throw .stream
        return some ({ c with wanted := b.toNat, st := .memberName }, [])
      else valueTag stop c b
  | .realValueType => do
      let b ← rd d 0
      valueTag stop c b
  | .stringLen => do
      let n ← getInt64 d c.wanted
      if u64 n ≥ 2 ^ 30 then throw .stream
      return some ({ c with wanted := u64 n, st := .string }, [])
  | .string => do return some (← scalar c (.string d))
  | .binaryLen => do
      let n ← getInt64 d c.wanted
      if u64 n ≥ 2 ^ 30 then throw .stream
      return some ({ c with wanted := u64 n, st := .binary }, [])
  | .binary => do return some (← scalar c (.binary d))
  | .int => do
      let n ← getInt64 d c.wanted
      return some (← scalar c (.int (if c.ver.major > 2 then zigzagDecode n else n)))
  | .intN8 => do
      let n ← getInt64 d c.wanted
      return some (← scalar c (.int (safeNegate n)))
  | .intP8 => do
      let n ← getInt64 d c.wanted
      return some (← scalar c (.int n))
  | .double => do
      let x ← getDouble d
      return some (← scalar c (.double x))
  | .dateTime => do
      let x ← getDate c.ver d
      return some (← scalar c (.dateTime (finishDate x)))
  | .struct => do
      let n ← getInt64 d c.wanted
      return some (← openContainer c .struct n)
  | .array => do
      let n ← getInt64 d c.wanted
      return some (← openContainer c .array n)

/-- A builder: state and reaction to each call (it may throw). -/
structure Builder (β : Type) where
  build : β → Event → Except Err β

/-- Calls a builder with a list of events, stopping at the first exception;
returns the builder as left behind and the exception. -/
def applyEvents {β} (B : Builder β) : β → List Event → β × Option Err
  | b, [] => (b, none)
  | b, e :: es =>
    match B.build b e with
    | .ok b' => applyEvents B b' es
    | .error err => (b, some err)

/-- The whole unmarshaller object (`src/frpcbinunmarshaller.h:80-87`). -/
structure Obj where
  core : Core
  buf : Bytes
deriving Repr, DecidableEq, Inhabited

/-- Constructor (`src/frpcbinunmarshaller.h:52-57`). The protocol version's
initial value (`src/frpc.cc` default 2.1) and the uninitialised `errNo` are
never read before being set. -/
def init : Obj :=
  { core := { st := .magic, wanted := 4, stack := [], fault := 0, errNo := 0, ver := ⟨2, 1⟩ }, buf := [] }

/-- How `unMarshallInternal` came back. -/
inductive Exit where
  | more                 -- ran out of data
  | stopped              -- unknown type with stopOnUnknown
  | threw (e : Err)
  | noFuel               -- the model's iteration budget was exhausted (proved impossible)
deriving Repr, DecidableEq, Inhabited

/-- Outcome of `unMarshallInternal`: object, unread input, builder, iterations. -/
structure Out (β : Type) where
  obj : Obj
  input : Bytes
  builder : β
  exit : Exit
  iters : Nat

/-- The `for` loop of `unMarshallInternal` (`src/frpcbinunmarshaller.cc:439-786`)
with `hasWantedData` (232-234), `data()` (258-263) and `update()` (236-247).
`fuel` bounds the number of iterations. On an exception the model keeps the core as
of the start of the iteration (the code leaves it partly updated; nothing but
`resetToFaultState` may be used on it afterwards). -/
def loop {β} (B : Builder β) (req : Req) (stop : Bool) :
    Nat → Obj → Bytes → β → Nat → Out β
  | 0, o, inp, b, k => ⟨o, inp, b, .noFuel, k⟩
  | fuel + 1, o, inp, b, k =>
    if o.core.wanted ≤ o.buf.length + inp.length then
      let d := (if o.buf = [] then inp else o.buf).take o.core.wanted
      match step req stop o.core d with
      | .error e => ⟨o, inp, b, .threw e, k + 1⟩
      | .ok none => ⟨o, inp, b, .stopped, k + 1⟩
      | .ok (some (c', es)) =>
        match applyEvents B b es with
        | (b', some e) => ⟨o, inp, b', .threw e, k + 1⟩
        | (b', none) =>
          let inp' := if o.buf = [] then inp.drop o.core.wanted else inp
          loop B req stop fuel ⟨c', []⟩ inp' b' (k + 1)
    else ⟨o, inp, b, .more, k⟩

/-- Iteration budget given to `loop` for a call with that many pending bytes. -/
def budget (n : Nat) : Nat := 2 * n + 3

/-- `Driver_t` constructor (`src/frpcbinunmarshaller.cc:211-230`): tops up a
non-empty buffer.  `remains` is a `size_t` subtraction. -/
def topUp (o : Obj) (inp : Bytes) : Obj × Bytes :=
  if o.buf = [] then (o, inp)
  else
    let remains := (o.core.wanted + 2 ^ 64 - o.buf.length) % 2 ^ 64
    let toRead := min remains inp.length
    ({ o with buf := o.buf ++ inp.take toRead }, inp.drop toRead)

/-- `Driver_t::finish` (`src/frpcbinunmarshaller.cc:249-254`). -/
def park (o : Obj) (inp : Bytes) : Obj := { o with buf := o.buf ++ inp }

/-- `unMarshall` (`src/frpcbinunmarshaller.cc:797-809`): the new object and
builder, and the exception if one is thrown. -/
def unMarshall {β} (B : Builder β) (req : Req) (o : Obj) (b : β) (data : Bytes) :
    Obj × β × Option Err :=
  let (o, inp) := topUp o data
  let r := loop B req false (budget (o.buf.length + inp.length)) o inp b 0
  (park r.obj r.input, r.builder,
    match r.exit with | .threw e => some e | .noFuel => some .fuel | _ => none)

/-- Number of passes through the loop body that an `unMarshall` call makes (an observer
for the cost claim; not a function of the code). -/
def iterations {β} (B : Builder β) (req : Req) (o : Obj) (b : β) (data : Bytes) : Nat :=
  let (o, inp) := topUp o data
  (loop B req false (budget (o.buf.length + inp.length)) o inp b 0).iters

/-- What `unMarshallKnown` does after the loop (`src/frpcbinunmarshaller.cc:816-826`). -/
def knownTail {β} (size : Nat) (r : Out β) : Obj × β × Except Err Nat :=
  match r.exit with
  | .threw e => (park r.obj r.input, r.builder, .error e)
  | .noFuel => (park r.obj r.input, r.builder, .error .fuel)
  | _ =>
    if r.obj.core.st = .valueType then (r.obj, r.builder, .ok (size - r.input.length))
    else (park r.obj r.input, r.builder, .ok size)

/-- `unMarshallKnown` (`src/frpcbinunmarshaller.cc:811-827`), also returning the
byte count. -/
def unMarshallKnown {β} (B : Builder β) (req : Req) (o : Obj) (b : β) (data : Bytes) :
    Obj × β × Except Err Nat :=
  let (o, inp) := topUp o data
  knownTail data.length (loop B req true (budget (o.buf.length + inp.length)) o inp b 0)

/-- `finish` (`src/frpcbinunmarshaller.cc:791-795`). -/
def finish (o : Obj) : Except Err Unit :=
  if o.core.st ≠ .valueType ∨ o.core.stack.length > 0 then .error .stream else .ok ()

/-- `resetToFaultState` (`src/frpcbinunmarshaller.cc:829-835`). -/
def resetToFaultState (o : Obj) : Obj :=
  { core := { o.core with stack := [], fault := 1, wanted := 1, st := .valueType }, buf := [] }

/-- A client calling `unMarshall` once per piece, stopping at the first exception. -/
def unMarshallAll {β} (B : Builder β) (req : Req) : Obj → β → List Bytes → Obj × β × Option Err
  | o, b, [] => (o, b, none)
  | o, b, p :: ps =>
    match unMarshall B req o b p with
    | (o', b', none) => unMarshallAll B req o' b' ps
    | r => r

/-- Total number of loop passes of `unMarshallAll` (observer). -/
def iterationsAll {β} (B : Builder β) (req : Req) : Obj → β → List Bytes → Nat
  | _, _, [] => 0
  | o, b, p :: ps =>
    iterations B req o b p + match unMarshall B req o b p with
      | (o', b', none) => iterationsAll B req o' b' ps
      | _ => 0

/-- The recording builder: accepts every call and remembers it. -/
def traceBuilder : Builder (List Event) := ⟨fun es e => .ok (es ++ [e])⟩

end BinUnMarshaller
end Frpc
