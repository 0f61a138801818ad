import Verif.Model.TreeFeeder
/-!
# A tree fed into a marshaller of the user (`src/frpctreefeeder.cc:60-70,181-241,245-368`)

`feedValue` knows the marshallers of the library by `dynamic_cast`; any other class derived from `Marshaller_t` has only the
virtual methods, which are told neither nulls nor references to binary data.
-/
namespace Frpc
namespace OwnMarshaller

/-- A marshaller of the user: what a call makes of its state, and the exception with which the call ends, if it does. -/
structure Own (σ : Type) where
  call : σ → PackOp → σ × Option Err

/-- Going on unless an exception flies. -/
def andThen {σ : Type} (r : σ × Option Err) (k : σ → σ × Option Err) : σ × Option Err :=
  match r.2 with
  | none => k r.1
  | some e => (r.1, some e)

mutual
/-- `feedValueImpl` with a marshaller that `has_non_virtual_api` does not hold of (`src/frpctreefeeder.cc:277-340`); `packNull` (181-186), `packBinaryRef` (206-211). -/
def feedOwn {σ : Type} (M : Own σ) (s : σ) : Value → σ × Option Err
  | .int n => M.call s (.packInt n)
  | .bool b => M.call s (.packBool b)
  | .null => (s, some .other)
  | .double d => M.call s (.packDouble d)
  | .string t => M.call s (.packString (t.take (sz32 t.length)))
  | .stringView t => M.call s (.packString (t.take (sz32 t.length)))
  | .binaryRef _ => (s, some .other)
  | .binary t => M.call s (.packBinary (t.take (sz32 t.length)))
  | .dateTime d => M.call s (.packDateTime d)
  | .struct ms => andThen (M.call s (.packStruct (sz32 ms.length))) fun s => ownMembers M s ms
  | .array vs => andThen (M.call s (.packArray (sz32 vs.length))) fun s => ownItems M s vs
  | .secret v => feedOwn M s v
/-- The loop of `packArray` (`src/frpctreefeeder.cc:269-272`). -/
def ownItems {σ : Type} (M : Own σ) (s : σ) : List Value → σ × Option Err
  | [] => (s, none)
  | v :: vs => andThen (feedOwn M s v) fun s => ownItems M s vs
/-- The loop of `packStruct` (`src/frpctreefeeder.cc:253-257`). -/
def ownMembers {σ : Type} (M : Own σ) (s : σ) : List (Bytes × Value) → σ × Option Err
  | [] => (s, none)
  | (k, v) :: ms => andThen (M.call s (.packStructMember (k.take (sz32 k.length)))) fun s => andThen (feedOwn M s v) fun s => ownMembers M s ms
end

end OwnMarshaller
end Frpc
