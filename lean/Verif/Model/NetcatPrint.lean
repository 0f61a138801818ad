import Verif.Model.Python
import Verif.Basic.Decimal
import Verif.Model.Struct
/-!
# How the console prints results (`netcat/fastrpc-netcat3:186-213`, `216-305`, `334-339`)

Texts are their UTF-8 bytes. The texts of floats, of `bytes`, of `fastrpc.DateTime` and of objects of other types are those of Python: parameters.
-/
namespace Frpc
namespace NetcatPrint
open Python (Py Key)

/-- What Python's `format` gives. -/
structure Texts where
  float : BitVec 64 → Bytes
  bytes : Bytes → Bytes
  dateTime : DateTime → Bytes
  other : Py → Bytes
  key : Key → Bytes

/-- `_type` (`netcat/fastrpc-netcat3:186-213`). `True` and `False` are instances of `int`. -/
def typeName : Py → Bytes
  | .bool _ => asc "int"
  | .int _ => asc "int"
  | .str _ => asc "string"
  | .bytes _ => asc "string"
  | .surrogates => asc "string"
  | .float _ => asc "float"
  | .dict _ => asc "struct"
  | .list _ => asc "array"
  | .dateTime _ => asc "datetime"
  | .native _ _ _ _ _ _ => asc "datetime"
  | .boolean _ => asc "boolean"
  | .none => []
  | _ => asc "???"

/-- `"{}".format(k)` of a key. -/
def keyText (T : Texts) : Key → Bytes
  | .str s => s
  | k => T.key k

/-- The text before a value: `{type} {name} = ` or `{name} = ` (`netcat/fastrpc-netcat3:231-239,243-250`). -/
def memberHead (T : Texts) (k : Key) (v : Py) : Bytes :=
  if typeName v = [] then keyText T k ++ asc " = " else typeName v ++ asc " " ++ keyText T k ++ asc " = "

/-- The text before an item: `[{idx}] {type} = ` or `[{idx}] = ` (`netcat/fastrpc-netcat3:285-295`). -/
def itemHead (i : Nat) (v : Py) : Bytes :=
  if typeName v = [] then asc "[" ++ dec i ++ asc "] = " else asc "[" ++ dec i ++ asc "] " ++ typeName v ++ asc " = "

/-- A `fastrpc.DateTime` (`netcat/fastrpc-netcat3:255-264`). -/
def dateText (T : Texts) (d : DateTime) : Bytes :=
  decInt d.day ++ asc "." ++ decInt d.month ++ asc "." ++ decInt d.year ++ asc " " ++ decInt d.hour ++ asc ":" ++ decInt d.minute ++ asc ":" ++ decInt d.sec ++ asc " " ++
  (if 0 ≤ d.timeZone then asc "+" else asc "-") ++ decInt (d.timeZone * 100) ++ asc " (" ++ T.dateTime d ++ asc ")"

mutual
/-- `_write_out` (`netcat/fastrpc-netcat3:216-279`), the members in the order they are in. `None` is what it returns for `None`, and the text of it is `None`. -/
def writeOut (T : Texts) (indent : Bytes) : Py → Bytes
  | .bool b => if b then asc "True" else asc "False"
  | .int n => decInt n
  | .str s => asc "\"" ++ s ++ asc "\""
  | .bytes s => asc "\"" ++ T.bytes s ++ asc "\""
  | .float b => T.float b
  | .dict ms => asc "{\n" ++ writeMembers T indent ms ++ indent ++ asc "}"
  | .list xs => asc "(\n" ++ writeItems T indent 0 xs ++ indent ++ asc ")"
  | .dateTime d => dateText T d
  | .boolean b => if b then asc "True" else asc "False"
  | .none => asc "None"
  | v => T.other v
/-- The loop of `_write_out` over a struct (`netcat/fastrpc-netcat3:242-250`). -/
def writeMembers (T : Texts) (indent : Bytes) : List (Key × Py) → Bytes
  | [] => []
  | (k, v) :: ms => indent ++ asc "    " ++ memberHead T k v ++ writeOut T (indent ++ asc "    ") v ++ asc "\n" ++ writeMembers T indent ms
/-- The loop of `write_out_list` (`netcat/fastrpc-netcat3:282-297`). -/
def writeItems (T : Texts) (indent : Bytes) : Nat → List Py → Bytes
  | _, [] => []
  | i, v :: xs => indent ++ asc "    " ++ itemHead i v ++ writeOut T (indent ++ asc "    ") v ++ asc "\n" ++ writeItems T indent (i + 1) xs
end

/-- The order of `keys.sort()`: that of UTF-8 is that of the code points. Keys that are not strings are not ordered; such structs do not come from the library. -/
def keyLe : Key × Py → Key × Py → Bool
  | (.str a, _), (.str b, _) => !keyLt b a
  | _, _ => true

mutual
/-- The members of all structs in the order in which the loop with `sys.AUTOSORT` takes them (`netcat/fastrpc-netcat3:226-239`). -/
def arranged : Py → Py
  | .dict ms => .dict ((arrangedMembers ms).mergeSort keyLe)
  | .list xs => .list (arrangedItems xs)
  | v => v
@[inherit_doc arranged] def arrangedMembers : List (Key × Py) → List (Key × Py)
  | [] => []
  | (k, v) :: ms => (k, arranged v) :: arrangedMembers ms
@[inherit_doc arranged] def arrangedItems : List Py → List Py
  | [] => []
  | v :: xs => arranged v :: arrangedItems xs
end

/-- `write_out` (`netcat/fastrpc-netcat3:334-339`): the line or lines printed. -/
def printed (T : Texts) (autosort : Bool) (v : Py) : Bytes :=
  asc "result = " ++ (if typeName v = [] then [] else typeName v ++ asc " ") ++ writeOut T [] (if autosort then arranged v else v) ++ asc "\n"

end NetcatPrint
end Frpc
