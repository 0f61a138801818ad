import Verif.Model.TreeBuilder
/-!
# `Value_t::clone`
-/
namespace Frpc
namespace Clone
open TreeBuilder (Cfg)

mutual
/-- `clone(newPool)`: `frpcint.cc:39`, `frpcbool.cc:45`, `frpcdouble.cc:44`, `frpcnull.cc:45`,
`frpcbinary.cc:84-87`, `frpcstring.cc:157-160` (constructor validates), `frpcstring_view.cc:45-47`,
`frpcdatetime.cc:238-242` (constructor validates, `frpcdatetime.cc:45-67`), `frpcsecret.cc:39-41`,
`frpcbinaryref.h:144-146`, `frpcarray.cc:51-59`, `frpcstruct.cc:56-65`.
Simplification: the feeder of a `BinaryRef_t` is the list of its chunks, so copying it is copying
the list; a feeder with shared mutable state is not modelled. -/
def clone (cfg : Cfg) : Value → Except Err Value
  | .int n => .ok (.int n)
  | .bool b => .ok (.bool b)
  | .double b => .ok (.double b)
  | .null => .ok .null
  | .binary s => .ok (.binary s)
  | .binaryRef cs => .ok (.binaryRef cs)
  | .string s => if cfg.strOk s then .ok (.string s) else .error .type
  | .stringView s => if cfg.strOk s then .ok (.stringView s) else .error .type
  | .dateTime d => .ok (.dateTime (cfg.date d))
  | .secret v => do return .secret (← clone cfg v)
  | .array vs => do return .array (← cloneItems cfg [] vs)
  | .struct ms => do return .struct (← cloneMembers cfg [] ms)
/-- The loop of `Array_t::clone` (`src/frpcarray.cc:55-56`). -/
def cloneItems (cfg : Cfg) (acc : List Value) : List Value → Except Err (List Value)
  | [] => .ok acc
  | v :: vs => do
      let v' ← clone cfg v
      cloneItems cfg (acc ++ [v']) vs
/-- The loop of `Struct_t::clone` (`src/frpcstruct.cc:59-62`). -/
def cloneMembers (cfg : Cfg) (acc : List (Bytes × Value)) : List (Bytes × Value) → Except Err (List (Bytes × Value))
  | [] => .ok acc
  | (k, v) :: ms => do
      let v' ← clone cfg v
      cloneMembers cfg (SMap.insert k v' acc).1 ms
end

end Clone
end Frpc
