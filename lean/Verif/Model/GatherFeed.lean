import Verif.Model.OwnMarshaller
import Verif.Model.Secrets
/-!
# Feeding and gathering secrets in one pass (`src/frpctreefeeder.cc:97-172,245-386`)

`Model/TreeFeeder` has the calls and `Model/Secrets` the pointers; here they are made as the code makes them: one pass with a stack
of segments that is pushed and popped, and with a marshaller that may throw at any call.
-/
namespace Frpc
namespace GatherFeed
open OwnMarshaller Secrets

/-- The marshaller, `Secrets_t::secrets` and `Secrets_t::pointer` (`src/frpctreefeeder.cc:143-144`). -/
structure St (σ : Type) where
  m : σ
  secrets : List Bytes
  pointer : List Seg

/-- A call of the marshaller. -/
def call {σ : Type} (M : Own σ) (s : St σ) (op : PackOp) : St σ × Option Err :=
  ({ s with m := (M.call s.m op).1 }, (M.call s.m op).2)

/-- `packNull` and `packBinaryRef` (`src/frpctreefeeder.cc:181-221`): `lib` says whether the marshaller is one of the library (`has_non_virtual_api`). -/
def callLib {σ : Type} (lib : Bool) (M : Own σ) (s : St σ) (op : PackOp) : St σ × Option Err :=
  if lib then call M s op else (s, some .other)

/-- `push` by the constructor of `PointerExtender_t` (`src/frpctreefeeder.cc:109-111,156-160`). -/
def push {σ : Type} (s : St σ) (x : Seg) : St σ := { s with pointer := s.pointer ++ [x] }
/-- `pop` by its destructor, which is run by exceptions too (`src/frpctreefeeder.cc:113-115,169`). -/
def pop {σ : Type} (r : St σ × Option Err) : St σ × Option Err := ({ r.1 with pointer := r.1.pointer.dropLast }, r.2)
/-- `secret_found` (`src/frpctreefeeder.cc:117-119`). -/
def found {σ : Type} (s : St σ) : St σ := { s with secrets := s.secrets ++ [str s.pointer] }

mutual
/-- `feedValueImpl` with `Secrets_t` (`src/frpctreefeeder.cc:277-340`). Simplified: arrays have less than 2^32 elements (`auto i = 0u`). -/
def feedG {σ : Type} (lib : Bool) (M : Own σ) (s : St σ) : Value → St σ × Option Err
  | .int n => call M s (.packInt n)
  | .bool b => call M s (.packBool b)
  | .null => callLib lib M s .packNull
  | .double d => call M s (.packDouble d)
  | .string t => call M s (.packString (t.take (sz32 t.length)))
  | .stringView t => call M s (.packString (t.take (sz32 t.length)))
  | .binaryRef cs => callLib lib M s (.packBinaryRef cs)
  | .binary t => call M s (.packBinary (t.take (sz32 t.length)))
  | .dateTime d => call M s (.packDateTime d)
  | .struct ms => andThen (call M s (.packStruct (sz32 ms.length))) fun s => membersG lib M s ms
  | .array vs => andThen (call M s (.packArray (sz32 vs.length))) fun s => itemsG lib M s 0 vs
  | .secret v => feedG lib M (found s) v
/-- The loop of `packArray` (`src/frpctreefeeder.cc:262-273`). -/
def itemsG {σ : Type} (lib : Bool) (M : Own σ) (s : St σ) (i : Nat) : List Value → St σ × Option Err
  | [] => (s, none)
  | v :: vs => andThen (pop (feedG lib M (push s (.index i)) v)) fun s => itemsG lib M s (i + 1) vs
/-- The loop of `packStruct` (`src/frpctreefeeder.cc:245-258`). -/
def membersG {σ : Type} (lib : Bool) (M : Own σ) (s : St σ) : List (Bytes × Value) → St σ × Option Err
  | [] => (s, none)
  | (k, v) :: ms =>
    andThen (pop (andThen (call M (push s (.key k)) (.packStructMember (k.take (sz32 k.length)))) fun s => feedG lib M s v)) fun s => membersG lib M s ms
end

/-- `feedValueAndGatherSecrets` (`src/frpctreefeeder.cc:342-360,371-381`): the marshaller afterwards, and the exception or the pointers. -/
def feedValueAndGatherSecrets {σ : Type} (lib : Bool) (M : Own σ) (s : σ) (v : Value) : σ × Except Err (List Bytes) :=
  match feedG lib M ⟨s, [], []⟩ v with
  | (t, none) => (t.m, .ok t.secrets)
  | (t, some e) => (t.m, .error e)

end GatherFeed
end Frpc
