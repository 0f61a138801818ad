import Verif.Model.BinMarshaller
import Verif.Model.XmlMarshaller
import Verif.Model.DateTimeMake
import Verif.Model.XmlUnmarshaller
import Verif.Spec.Utf8
/-!
# The Python module: `fastrpc.dumps` and `fastrpc.loads` (`python/`)

Built for Python 3 (`HAVE_BINARY` is defined for Python 2 only, `python/fastrpcmodule.h:44-46`), so `bytes` are binaries and `str` are
strings. CPython itself is not modelled: its objects are the type `Py`, a `str` is given by its UTF-8 encoding, and encoding and decoding
are each other's inverses on well-formed UTF-8 (`decodes`). Running out of memory is not modelled.
-/
namespace Frpc
namespace Python
open BinUnMarshaller (Builder)

/-- A key of a `dict`: a `str` that UTF-8 can encode, a `str` with surrogates in it, or anything else. -/
inductive Key where
  | str (s : Bytes)
  | surrogates
  | other
deriving DecidableEq, Repr

/-- A Python object as `Feeder_t::feedValue` sees it. `boolean` is `fastrpc.Boolean`, `dateTime` is `fastrpc.DateTime` and its two
subclasses, `native` is `datetime.datetime` by its fields, `surrogates` is a `str` that UTF-8 cannot encode, `fault` is `fastrpc.Fault`,
`other` is an object of any other type. A `dict` is its items in order. Objects that contain themselves are not modelled. -/
inductive Py where
  | none
  | bool (b : Bool)
  | boolean (b : Bool)
  | int (n : Int)
  | float (bits : BitVec 64)
  | str (s : Bytes)
  | surrogates
  | bytes (s : Bytes)
  | dateTime (d : DateTime)
  | native (year month day hour minute second : Int)
  | list (xs : List Py)
  | tuple (xs : List Py)
  | dict (ms : List (Key × Py))
  | fault (code : Int) (msg : Bytes)
  | other
deriving Inhabited

/-- A Python exception, or worse: `terminate` is a C++ exception that leaves the extension (the interpreter is gone), `crash` is
undefined behaviour, `system` is a result returned with an exception set, which the interpreter turns into `SystemError`. -/
inductive Exn where
  | type | overflow | unicode | value | runtime
  | fault (code : Int) (msg : Bytes)
  | raised            -- an exception of a Python function supplied by the user
  | system | terminate | crash
deriving DecidableEq, Repr

/-! ## Feeding -/

/-- `PyLong_AsUnsignedLongLong` stored into an `int64_t` for positive numbers of 64 bits, else `PyLong_AsLongLong`
(`python/pythonfeeder.cc:152-162`). -/
def toInt64 (n : Int) : Option Int :=
  if (2 : Int) ^ 63 ≤ n ∧ n < 2 ^ 64 then some (i64 n.toNat)
  else if -(2 : Int) ^ 63 ≤ n ∧ n < 2 ^ 63 then some n
  else .none

/-- A `datetime.datetime` (`datetimeToTm`, `python/pythonfeeder.cc:84-103`, and `feedValue`, 289-303): the fields are those that `mktime`
has put right; the zone of the object is not looked at. -/
def ofNative (L : DateTimeMake.Libc) (year month day hour minute second : Int) : DateTime :=
  let r := L.mktime (DateTimeMake.tmOf year month day hour minute second)
  let wday := if r.1 ≠ -1 then (L.localtime r.1).wday else r.2.wday
  DateTimeMake.fieldsOf { r.2 with wday := wday } r.1 (-1)

/-- `int argc = Py_SIZE(..)` (`python/pythonfeeder.cc:229,237`). -/
def argc (n : Nat) : Int := i32 n

/-- Runs one after the other, the second only if the first raised nothing. -/
def andThen (a b : List PackOp × Option Exn) : List PackOp × Option Exn :=
  match a with
  | (ops, some e) => (ops, some e)
  | (ops, .none) => (ops ++ b.1, b.2)

mutual
/-- `Feeder_t::feedValue` (`python/pythonfeeder.cc:127-322`): the calls made on the marshaller and the exception raised. The order of the
tests matters only for types of which one is derived from another; `Py` has one constructor for each branch. -/
def feedValue (L : DateTimeMake.Libc) : Py → List PackOp × Option Exn
  | .bool b => ([.packBool b], .none)
  | .int n =>
    match toInt64 n with
    | some i => ([.packInt i], .none)
    | .none => ([], some .overflow)
  | .float bits => ([.packDouble bits], .none)
  | .dateTime d => ([.packDateTime d], .none)
  | .boolean b => ([.packBool b], .none)
  | .bytes s => ([.packBinary (s.take (sz32 s.length))], .none)
  | .str s => ([.packString (s.take (sz32 s.length))], .none)
  | .surrogates => ([], some .unicode)
  | .list xs => andThen ([.packArray (u32 (argc xs.length))], .none) (feedItems L (argc xs.length).toNat xs)
  | .tuple xs => andThen ([.packArray (u32 (argc xs.length))], .none) (feedItems L (argc xs.length).toNat xs)
  | .dict ms => andThen ([.packStruct (sz32 ms.length)], .none) (feedMembers L ms)
  | .native y mo d h mi s => ([.packDateTime (ofNative L y mo d h mi s)], .none)
  | .none => ([.packNull], .none)
  | .fault _ _ => ([], some .type)
  | .other => ([], some .type)
/-- `for (int pos = 0; pos < argc; ++pos)` (`python/pythonfeeder.cc:233-234,241-242`, and `feed`, 108-125). -/
def feedItems (L : DateTimeMake.Libc) : Nat → List Py → List PackOp × Option Exn
  | 0, _ => ([], .none)
  | _ + 1, [] => ([], .none)
  | n + 1, x :: xs => andThen (feedValue L x) (feedItems L n xs)
/-- The loop over a `dict` (`python/pythonfeeder.cc:250-286`). -/
def feedMembers (L : DateTimeMake.Libc) : List (Key × Py) → List PackOp × Option Exn
  | [] => ([], .none)
  | (.str k, x) :: ms => andThen ([.packStructMember (k.take (sz32 k.length))], .none) (andThen (feedValue L x) (feedMembers L ms))
  | (.surrogates, _) :: _ => ([], some .unicode)
  | (.other, _) :: _ => ([], some .type)
end

/-! ## `dumps` -/

/-- The `params` argument: a list or tuple; a `Fault` by its two attributes (`faultCode` none: not an integer; `faultString` none: not a `str`
that UTF-8 can encode); anything else. -/
inductive Params where
  | seq (xs : List Py)
  | fault (code : Option Int) (msg : Option Bytes)
  | other

/-- A C++ exception as a Python exception (`python/fastrpcmodule.cc:2427-2444,2544-2563`). -/
def exnOf : Err → Exn
  | .type | .len => .type
  | .ub => .crash
  | .fuel => .crash
  | _ => .runtime

/-- What the marshaller is told (`python/fastrpcmodule.cc:2377-2423`): the calls, the exception raised before the end, and whether one is
left set although the function goes on (`PyInt_AsLong` of a fault code is not checked). -/
def script (L : DateTimeMake.Libc) (method : Option Bytes) : Params → (List PackOp × Option Exn) × Bool
  | .seq xs =>
    match method with
    | some name => (andThen ([.packMethodCall name], .none) (feedItems L (argc xs.length).toNat xs), false)
    | .none =>
      match xs with
      | [] => (([.packMethodResponse], .none), false)
      | x :: _ => (andThen ([.packMethodResponse], .none) (feedValue L x), false)
  | .fault .none _ => (([], some .type), false)
  | .fault (some _) .none => (([], some .unicode), false)
  | .fault (some c) (some m) =>
    if -(2 : Int) ^ 63 ≤ c ∧ c < 2 ^ 63 then (([.packFault (i32 (u32 c)) (m.take (sz32 m.length))], .none), false)
    else (([.packFault (-1) (m.take (sz32 m.length))], .none), true)
  | .other => (([], some .type), false)

/-- The result of a run of a marshaller in `dumps`: its own exception comes first, for the feeder stops at it. -/
def outcome (out : Bytes) (err : Option Err) (raised : Option Exn) (pending : Bool) : Except Exn Bytes :=
  match err with
  | some e => .error (exnOf e)
  | .none =>
    match raised with
    | some x => .error x
    | .none => if pending then .error .system else .ok out

/-- `ProtocolVersion_t(protocolVersionMajor, protocolVersionMinor)`: two `unsigned char`s (`src/frpc.h:115-124`). -/
def versionOf (major minor : Int) : Version := ⟨UInt8.ofNat (u32 major), UInt8.ofNat (u32 minor)⟩

/-- `dumps(params, methodname, useBinary=True, protocolVersionMajor, protocolVersionMinor)` (`python/fastrpcmodule.cc:2333-2447`). The
method name comes from `PyArg_ParseTupleAndKeywords` with `z`, which refuses texts with a NUL. The marshaller is created before
the `try` block. -/
def dumpsBinary (L : DateTimeMake.Libc) (strOk : Bytes → Bool) (major minor : Int) (method : Option Bytes) (params : Params) : Except Exn Bytes :=
  if (method.getD []).contains 0 then .error .value
  else if major < 0 ∨ minor < 0 then .error .runtime
  else if BinMarshaller.accepts (versionOf major minor) = false then .error .terminate
  else
    let s := script L method params
    let r := BinMarshaller.run strOk (versionOf major minor) s.1.1
    outcome r.1.flatten r.2 s.1.2 s.2

/-! ## Building -/

/-- `PyUnicode_DecodeUTF8(.., "strict")` and `PyUnicode_FromStringAndSize` succeed on well-formed UTF-8 only. -/
def decodes (s : Bytes) : Bool := Spec.isUtf8 s

/-- What the caller chose (`python/pythonbuilder.h:78-80,245`): `fastrpc.Boolean` or `bool`, and what makes a date-time (a callable; none:
`newDateTime`), with the C library of the process. `allowSurrogates` is off in `loads`. -/
structure Opts where
  L : DateTimeMake.Libc
  nativeBoolean : Bool
  datetimeBuilder : Option (DateTime → Except Exn Py)

/-- The place of an open container, as in `TreeBuilder.Slot`. -/
inductive Slot where
  | root | item | key (k : Bytes) | lost
deriving DecidableEq

/-- An open container. -/
inductive Cont where
  | list (xs : List Py)
  | dict (ms : List (Key × Py))

/-- As an object. -/
def Cont.val : Cont → Py
  | .list xs => .list xs
  | .dict ms => .dict ms

/-- `Builder_t` (`python/pythonbuilder.h:66-262`). `error` is the exception set when `error` is true. Containers are attached to their
parents when they are opened and filled through a pointer; as in `TreeBuilder`, the model attaches them when they are closed and
`collapse` gives what is seen at any time. -/
structure PB where
  first : Bool
  error : Option Exn
  ret : Py
  memberName : Bytes
  methodName : Option Bytes
  frames : List (Slot × Cont)

/-- Constructor (`python/pythonbuilder.h:78-85`). -/
def init : PB := { first := true, error := .none, ret := .none, memberName := [], methodName := .none, frames := [] }

/-- `PyDict_SetItem`: a key that is there keeps its place. -/
def setItem (k : Key) (v : Py) : List (Key × Py) → List (Key × Py)
  | [] => [(k, v)]
  | (j, w) :: ms => if j = k then (j, v) :: ms else (j, w) :: setItem k v ms

/-- The key for a member name (`python/pythonbuilder.h:149-199`): decoded if a byte of it is not ASCII, else the C string, which ends at the
first NUL. -/
def keyOf (name : Bytes) : Option Bytes :=
  if name.any (fun c => decide (128 ≤ c.toNat)) then (if decodes name then some name else .none)
  else some (name.takeWhile (fun c => c ≠ 0))

/-- `if (!isMember(v)) isFirst(v);` (`python/pythonbuilder.h:115-205`). A second value at the top is dropped. -/
def place (pb : PB) (v : Py) : PB :=
  match pb.error with
  | some _ => pb
  | .none =>
    match pb.frames with
    | (s, .list xs) :: fs => { pb with frames := (s, .list (xs ++ [v])) :: fs }
    | (s, .dict ms) :: fs =>
      match keyOf pb.memberName with
      | some k => { pb with frames := (s, .dict (setItem (.str k) v ms)) :: fs }
      | .none => { pb with error := some .unicode, first := false }
    | [] => if pb.first then { pb with ret := v, first := false } else pb

/-- `setError()` with the exception set (`python/pythonbuilder.h:107-113`). -/
def setError (pb : PB) (e : Exn) : PB := { pb with error := some e, first := false }

/-- `openArray`, `openStruct` (`python/pythonbuilder.cc:305-333`). -/
def openC (pb : PB) (c : Cont) : PB :=
  match pb.error with
  | some _ => pb
  | .none =>
    match pb.frames with
    | (_, .list _) :: _ => { pb with frames := (.item, c) :: pb.frames }
    | (_, .dict _) :: _ =>
      match keyOf pb.memberName with
      | some k => { pb with frames := (.key k, c) :: pb.frames }
      | .none => { pb with error := some .unicode, first := false }
    | [] =>
      if pb.first then { pb with first := false, frames := [(.root, c)] } else { pb with frames := [(.lost, c)] }

/-- The final content of a container at its place. -/
def attach (v : Py) : Slot → Py → List (Slot × Cont) → Py × List (Slot × Cont)
  | .root, _, fs => (v, fs)
  | .lost, r, fs => (r, fs)
  | .item, r, (s, .list xs) :: fs => (r, (s, .list (xs ++ [v])) :: fs)
  | .key k, r, (s, .dict ms) :: fs => (r, (s, .dict (setItem (.str k) v ms)) :: fs)
  | _, r, fs => (r, fs)

/-- `closeArray`, `closeStruct` (`python/pythonbuilder.cc:295-304`); `pop_back` of an empty vector is undefined. -/
def close (pb : PB) : Except Err PB :=
  match pb.error with
  | some _ => .ok pb
  | .none =>
    match pb.frames with
    | [] => .error .ub
    | (s, c) :: fs => .ok { pb with ret := (attach c.val s pb.ret fs).1, frames := (attach c.val s pb.ret fs).2 }

/-- `newDateTime` (`python/fastrpcmodule.cc:690-729`): the time stamp -1 stands for "compute it". -/
def newDateTime (L : DateTimeMake.Libc) (d : DateTime) : DateTime :=
  if d.unixTime ≠ -1 then d
  else
    let t := (L.mktime (DateTimeMake.tmOf d.year d.month d.day d.hour d.minute d.sec)).1
    { d with unixTime := t, weekDay := if t ≠ -1 then i8 (L.localtime t).wday else -1 }

/-- The object made for a date-time (`python/pythonbuilder.cc:121-146`). The callable gets the time stamp through the format `i`, an `int`. -/
def makeDate (o : Opts) (d : DateTime) : Except Exn Py :=
  match o.datetimeBuilder with
  | some f => f { d with unixTime := i32 (u32 d.unixTime) }
  | .none => .ok (.dateTime (newDateTime o.L d))

/-- `buildFault` (`python/pythonbuilder.cc:158-189`). The message is made a `str` by a strict decoding; if that fails, or if making the
exception fails, the arguments of the call are a null pointer. The binary unmarshaller calls the overload with a pointer and a size. -/
def buildFault (pb : PB) (code : Int) (msg : Bytes) : Except Err PB :=
  match pb.error with
  | some _ => .ok pb
  | .none =>
    if decodes msg then
      .ok { pb with ret := .fault code msg, first := true
                    frames := pb.frames.map fun f => (if f.1 = .root then .lost else f.1, f.2) }
    else .error .ub

/-- A call on the builder (`python/pythonbuilder.cc:66-334`). `buildMethodCall` does not test for an error. -/
def build (o : Opts) (pb : PB) : Event → Except Err PB
  | .int n => .ok (place pb (.int n))
  | .bool b => .ok (place pb (if o.nativeBoolean then .bool b else .boolean b))
  | .double x => .ok (place pb (.float x))
  | .null => .ok (place pb .none)
  | .string s => .ok (if pb.error.isSome then pb else if decodes s then place pb (.str s) else setError pb .unicode)
  | .binary s => .ok (place pb (.bytes s))
  | .dateTime d =>
    .ok (if pb.error.isSome then pb
      else match makeDate o d with
        | .ok v => place pb v
        | .error e => setError pb e)
  | .member k => .ok (if pb.error.isSome then pb else { pb with memberName := k })
  | .openArray _ => .ok (openC pb (.list []))
  | .openStruct _ => .ok (openC pb (.dict []))
  | .closeArray => close pb
  | .closeStruct => close pb
  | .methodCall name =>
    .ok (if pb.error.isNone && pb.first then { pb with methodName := some name, first := false, frames := (.root, .list []) :: pb.frames }
      else { pb with methodName := some name, frames := (.lost, .list []) :: pb.frames })
  | .methodResponse => .ok pb
  | .fault code msg => buildFault pb code msg

/-- As a builder. -/
def builder (o : Opts) : Builder PB := ⟨build o⟩

/-- The value with the open containers in their places. -/
def collapse : Nat → Py → List (Slot × Cont) → Py
  | 0, r, _ => r
  | _ + 1, r, [] => r
  | n + 1, r, (s, c) :: fs => collapse n (attach c.val s r fs).1 (attach c.val s r fs).2

/-- `retValue` as seen from outside. -/
def seen (pb : PB) : Py := collapse pb.frames.length pb.ret pb.frames

/-- `PySequence_Tuple`. -/
def toTuple : Py → Except Exn Py
  | .list xs => .ok (.tuple xs)
  | .tuple xs => .ok (.tuple xs)
  | _ => .error .type

/-- `getUnMarshaledData` and what `loads` does with it (`python/pythonbuilder.h:207-228`, `python/fastrpcmodule.cc:2523-2543`): the data and
the name of the method, or the exception. -/
def answer (pb : PB) : Except Exn (Py × Option Bytes) :=
  match pb.error with
  | some e => .error e
  | .none =>
    match pb.methodName with
    | some name =>
      match toTuple (seen pb) with
      | .error e => .error e
      | .ok v => if decodes name then .ok (v, some name) else .error .unicode
    | .none =>
      match seen pb with
      | .fault code msg => .error (.fault code msg)
      | v => .ok (v, .none)

/-- `loads(data, useBinary=True)`, and `loads(data)` for data that starts as a binary message (`python/fastrpcmodule.cc:2458-2563`,
`src/frpcunmarshaller.cc:90-115`). The size is passed as an `unsigned int`. `finish()` is not called. -/
def loadsBinary (o : Opts) (data : Bytes) : Except Exn (Py × Option Bytes) :=
  match BinUnMarshaller.unMarshall (builder o) .any BinUnMarshaller.init init (data.take (sz32 data.length)) with
  | (_, _, some e) => .error (exnOf e)
  | (_, pb, .none) => answer pb

end Python
end Frpc
