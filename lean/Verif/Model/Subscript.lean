import Verif.Model.Array
import Verif.Model.Struct
/-!
# Subscripts of values (`src/frpcvalue.cc:40-64`, `src/frpcarray.cc:143-159`, `src/frpcstruct.cc:174-190`)
-/
namespace Frpc
namespace Subscript

/-- What stands in the brackets. -/
inductive Step where
  | idx (i : Nat)
  | key (k : Bytes)
deriving DecidableEq, Repr

/-- `value[x]` of a `Value_t&`: the virtual `operator[]`, which arrays override for numbers and structs for names; all others, secrets too, have that of `Value_t`, which throws `TypeError_t` (`src/frpcvalue.cc:40-64`). -/
def subscript : Value → Step → Except Err Value
  | .array vs, .idx i => Arr.index vs i
  | .struct ms, .key k => SMap.index k ms
  | _, _ => .error .type

/-- `value[x][y]...`. -/
def walk (v : Value) : List Step → Except Err Value
  | [] => .ok v
  | s :: p =>
    match subscript v s with
    | .error e => .error e
    | .ok w => walk w p

end Subscript
end Frpc
