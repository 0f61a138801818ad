import Verif.Model.Value
/-!
# `TreeFeeder_t::feedValue` (`src/frpctreefeeder.cc`)
-/
namespace Frpc

/-- `static_cast<uint32_t>(x.size())` as used by the feeder. -/
def sz32 (n : Nat) : Nat := n % 2 ^ 32

mutual
/-- Models `feedValueImpl` with `VoidSecrets_t` (`src/frpctreefeeder.cc:277-340`):
the sequence of calls made on the marshaller.  Size arguments are truncated to
32 bits as in the code (`packString` 199-202, `packBinary` 224-226,
`packStruct` 246-258, `packArray` 262-273); when the size is truncated only
that many bytes of the string are passed.  Every value type of the model is
known, so the final `throw` is unreachable. -/
def feed : Value → List PackOp
  | .int n => [.packInt n]
  | .bool b => [.packBool b]
  | .null => [.packNull]
  | .double d => [.packDouble d]
  | .string s => [.packString (s.take (sz32 s.length))]
  | .stringView s => [.packString (s.take (sz32 s.length))]
  | .binaryRef cs => [.packBinaryRef cs]
  | .binary s => [.packBinary (s.take (sz32 s.length))]
  | .dateTime d => [.packDateTime d]
  | .struct ms => .packStruct (sz32 ms.length) :: feedMembers ms
  | .array vs => .packArray (sz32 vs.length) :: feedItems vs
  | .secret v => feed v
/-- The loop of `packArray` (`src/frpctreefeeder.cc:269-272`). -/
def feedItems : List Value → List PackOp
  | [] => []
  | v :: vs => feed v ++ feedItems vs
/-- The loop of `packStruct` (`src/frpctreefeeder.cc:253-257`). -/
def feedMembers : List (Bytes × Value) → List PackOp
  | [] => []
  | (k, v) :: ms => .packStructMember (k.take (sz32 k.length)) :: (feed v ++ feedMembers ms)
end

end Frpc
