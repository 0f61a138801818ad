import Verif.Model.Base64
import Verif.Model.TreeFeeder
import Verif.Basic.Hex
/-!
# `JSONMarshaller_t` (`src/frpcjsonmarshaller.cc`)

Every operation yields the list of `writer.write` calls it makes and the exception that ends it.
Text of doubles (`ostringstream` with 17 digits) is the parameter `dbl`.
-/
namespace Frpc
namespace JsonMarshaller

/-- `ctx` (`src/frpcjsonmarshaller.h:91-94`): closing bracket and count, innermost first. -/
abbrev Ctx := List (UInt8 × Nat)

/-- `dec` (`src/frpcjsonmarshaller.cc:63-80`). A count of one is decremented to zero and `dec` is called again,
which closes the container: the two cases are one here. The returned truth value is whether the context is empty. -/
def decr : Ctx → List Bytes × Ctx
  | [] => ([], [])
  | (c, n + 2) :: r => ([[44]], (c, n + 1) :: r)
  | (c, _) :: r => let q := decr r; ([c] :: q.1, q.2)

/-- `iscntrl` in the C locale; false for the bytes above 127, whose argument is negative. -/
def iscntrl (c : UInt8) : Bool := decide (c.toNat < 32 ∨ c.toNat = 127)

/-- `escape` (`src/frpcjsonmarshaller.cc:82-90`). -/
def escape (ch : Nat) : Bytes := asc "\\u" ++ List.replicate (4 - (hex ch).length) 48 ++ hex ch

/-- One character of `quote` (`src/frpcjsonmarshaller.cc:94-118`). -/
def quoteChar (c : UInt8) : Bytes :=
  if c = 34 then asc "\\\""
  else if c = 92 then asc "\\\\"
  else if c = 13 then asc "\\r"
  else if c = 10 then asc "\\n"
  else if c = 9 then asc "\\t"
  else if iscntrl c then (escape c.toNat).take 6
  else [c]

/-- `quote` (`src/frpcjsonmarshaller.cc:92-120`). -/
def quote (s : Bytes) : List Bytes := [34] :: s.map quoteChar ++ [[34]]

/-- The base64 text of a binary between quotes (`src/frpcjsonmarshaller.cc:186-192,238-244`). The writes are of one
byte, or of two for the padding; here each is of one byte. -/
def quoteBase64 (chunks : List Bytes) : List Bytes := [34] :: (Base64.writeEncodeBase64 false chunks).map (fun c => [c]) ++ [[34]]

/-- A finished value: its writes and then `dec`. -/
def item (ws : List Bytes) (ctx : Ctx) : List Bytes × Ctx × Option Err :=
  let q := decr ctx
  (ws ++ q.1, q.2, none)

/-- One call (`src/frpcjsonmarshaller.cc:137-244`). -/
def pack (dbl : BitVec 64 → Bytes) (ctx : Ctx) : PackOp → List Bytes × Ctx × Option Err
  | .packMethodCall _ => ([], ctx, some .other)
  | .packMethodResponse => ([], ctx, none)
  | .packFault code msg =>
    ((asc "{ \"failure\": " ++ decInt code ++ asc ", \"failureMessage\": ") :: quote msg ++ [asc " }"], ctx, none)
  | .packArray n => if n = 0 then item [asc "[]"] ctx else ([asc "["], (93, n) :: ctx, none)
  | .packStruct n => if n = 0 then item [asc "{}"] ctx else ([asc "{"], (125, n) :: ctx, none)
  | .packStructMember k => (quote k ++ [asc ":"], ctx, none)
  | .packBinary s => item (quoteBase64 [s]) ctx
  | .packBool b => item [if b then asc "true" else asc "false"] ctx
  | .packDouble x => item [dbl x] ctx
  | .packInt n => item [decInt n] ctx
  | .packString s => item (quote s) ctx
  | .packDateTime d => item [decInt d.unixTime] ctx
  | .packNull => item [asc "null"] ctx
  | .packBinaryRef cs => item (quoteBase64 cs) ctx

/-- Calls in order until one throws. -/
def packAll (dbl : BitVec 64 → Bytes) : Ctx → List PackOp → List Bytes × Ctx × Option Err
  | ctx, [] => ([], ctx, none)
  | ctx, op :: ops =>
    match pack dbl ctx op with
    | (ws, ctx, some e) => (ws, ctx, some e)
    | (ws, ctx, none) => let q := packAll dbl ctx ops; (ws ++ q.1, q.2)

/-- `flush` (`src/frpcjsonmarshaller.cc:132-135`): `dec` until the context is empty. -/
def flushLoop : Nat → Ctx → List Bytes
  | 0, _ => []
  | f + 1, ctx => let q := decr ctx; if q.2 = [] then q.1 else q.1 ++ flushLoop f q.2

/-- `flush`: each turn of the loop lowers a count or closes a container. -/
def flush (ctx : Ctx) : List Bytes := flushLoop ((ctx.map (·.2 + 1)).foldr (· + ·) 0 + 1) ctx

/-- A new marshaller, the calls, `flush`. -/
def run (dbl : BitVec 64 → Bytes) (ops : List PackOp) : List Bytes × Option Err :=
  match packAll dbl [] ops with
  | (ws, _, some e) => (ws, some e)
  | (ws, ctx, none) => (ws ++ flush ctx, none)

end JsonMarshaller
end Frpc
