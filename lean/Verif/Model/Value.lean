import Verif.Basic.Bytes
/-!
# Values, errors, builder events, marshaller calls

Models `src/frpcvalue.h`, the value classes and the two abstract interfaces
`DataBuilder_t` and `Marshaller_t`.
-/

namespace Frpc

deriving instance DecidableEq for Except

/-- Exception classes that the modelled code throws, plus `ub` (the C++ would
have undefined behaviour at this point) and `fuel` (the model's loop bound was
exhausted; proved unreachable where it matters).
Models `src/frpcerror.h`, `frpcstreamerror.h`, `frpclenerror.h`,
`frpctypeerror.h`, `frpcindexerror.h`, `frpckeyerror.h`, `frpcfault.h`,
`frpcencodingerror.h`, `frpchttperror.h`. Texts of the messages are dropped,
except for faults where they are part of the protocol. -/
inductive Err where
  | stream | len | type | index | key | encoding | http | other
  | fault (code : Int) (msg : Bytes)
  | ub | fuel
deriving Repr, DecidableEq, Inhabited

/-- Models the fields of `DateTime_t` (`src/frpcdatetime.h:214-223`):
`int16_t year; char month, day, hour, minute, sec, weekDay; time_t unixTime;
int timeZone`.  Kept as unbounded integers; the representable ranges are
`DateTime.Repr`. -/
structure DateTime where
  year : Int
  month : Int
  day : Int
  hour : Int
  minute : Int
  sec : Int
  weekDay : Int
  unixTime : Int
  timeZone : Int
deriving Repr, DecidableEq, Inhabited

/-- The value tree: models `Value_t` and its subclasses (`src/frpcvalue.h:47-61`
type tags; `frpcint.h`, `frpcbool.h`, `frpcdouble.h`, `frpcstring.h`,
`frpcdatetime.h`, `frpcbinary.h`, `frpcstruct.h`, `frpcarray.h`, `frpcnull.h`,
`frpcbinaryref.h`, `frpcstring_view.h`, `frpcsecret.h`).
Simplifications: doubles are their 64-bit patterns; a struct (`std::map`) is
its in-order list of members; a `BinaryRef_t` is the list of the non-null
chunks its feeder yields, its announced size being their total size; trees
own their children (no sharing, no cycles; `Model/Heap` has the objects and their pointers). -/
inductive Value where
  | int (n : Int)
  | bool (b : Bool)
  | double (bits : BitVec 64)
  | string (s : Bytes)
  | dateTime (d : DateTime)
  | binary (s : Bytes)
  | struct (ms : List (Bytes × Value))
  | array (vs : List Value)
  | null
  | binaryRef (chunks : List Bytes)
  | stringView (s : Bytes)
  | secret (v : Value)
deriving Inhabited

/-- A call on the `DataBuilder_t` interface (`src/frpcdatabuilder.h:48-112`),
plus `null` for `buildNull` of `DataBuilderWithNull_t`. -/
inductive Event where
  | methodCall (name : Bytes)
  | methodResponse
  | fault (code : Int) (msg : Bytes)
  | int (n : Int)
  | bool (b : Bool)
  | double (bits : BitVec 64)
  | string (s : Bytes)
  | dateTime (d : DateTime)
  | binary (s : Bytes)
  | null
  | openStruct (n : Nat)
  | closeStruct
  | openArray (n : Nat)
  | closeArray
  | member (name : Bytes)
deriving Repr, DecidableEq, Inhabited

/-- A call on the `Marshaller_t` interface (`src/frpcmarshaller.h:48-190`), plus
the non-virtual `packNull` / `packBinaryRef` of the concrete marshallers. -/
inductive PackOp where
  | packArray (n : Nat)
  | packBinary (s : Bytes)
  | packBool (b : Bool)
  | packDateTime (d : DateTime)
  | packDouble (bits : BitVec 64)
  | packFault (code : Int) (msg : Bytes)
  | packInt (n : Int)
  | packMethodCall (name : Bytes)
  | packString (s : Bytes)
  | packStruct (n : Nat)
  | packStructMember (name : Bytes)
  | packMethodResponse
  | packNull
  | packBinaryRef (chunks : List Bytes)
deriving Repr, DecidableEq, Inhabited

/-- Models `ProtocolVersion_t` (`src/frpc.h:115-124`), two unsigned chars. -/
structure Version where
  major : UInt8
  minor : UInt8
deriving Repr, DecidableEq, Inhabited

end Frpc
