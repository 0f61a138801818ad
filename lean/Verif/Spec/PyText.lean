import Verif.Spec.Python
import Verif.Spec.XmlRpc
/-!
# Specification: Python objects that XML can carry
-/
namespace Frpc
namespace Spec
namespace Python
open Frpc.Python (Py Key)

mutual
/-- The object is built of those types alone that have a form in XML-RPC, and its integers, texts, floating-point numbers and date-times
are so; the keys of a `dict` are texts of 1 to 255 bytes that are so too. -/
def Carried (N : XmlRpc.Need) : Py → Prop
  | .int n => N.int n
  | .str s => N.str s
  | .float x => N.dbl x
  | .dateTime d => N.date d
  | .list xs | .tuple xs => CarriedItems N xs
  | .dict ms => CarriedMembers N ms
  | .none | .bool _ | .boolean _ | .bytes _ => True
  | .surrogates | .native .. | .fault .. | .other => False
/-- For the elements. -/
def CarriedItems (N : XmlRpc.Need) : List Py → Prop
  | [] => True
  | x :: xs => Carried N x ∧ CarriedItems N xs
/-- For the members. -/
def CarriedMembers (N : XmlRpc.Need) : List (Key × Py) → Prop
  | [] => True
  | (.str k, x) :: ms => (1 ≤ k.length ∧ k.length ≤ 255) ∧ N.str k ∧ Carried N x ∧ CarriedMembers N ms
  | (.surrogates, _) :: _ | (.other, _) :: _ => False
end

end Python

namespace Xml

/-- The parser reports a document of this part of XML correctly as soon as it has got it whole, in one piece, without being told that
this was all. -/
def Prompt (P : Parser) : Prop :=
  ∀ (doc : Bytes) (evs : List Sax), read xmlChar doc = some evs → (P [] doc).2 = false ∧ canon (P [] doc).1 = canon evs

end Xml
end Spec
end Frpc
