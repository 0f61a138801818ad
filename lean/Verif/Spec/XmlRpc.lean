import Verif.Spec.Xml
import Verif.Spec.Base64
import Verif.Basic.Decimal
import Verif.Model.Value
/-!
# Specification: XML-RPC documents

Which XML elements stand for which values, calls, responses and faults, after the XML-RPC specification with the extensions
`i8` and `nil`. Blank text between elements does not matter.
-/
namespace Frpc
namespace Spec.XmlRpc
open Spec.Xml

/-- What the text of a document leaves open: how a string comes out of the document (`str s t`: `t` is what a reader gets where `s`
was written), and which texts denote which double and which date-time. -/
structure Texts where
  str : Bytes → Bytes → Prop
  dbl : BitVec 64 → Bytes → Prop
  date : DateTime → Bytes → Prop

/-- `<value><tag>text</tag></value>`. -/
def Typed (tag : Bytes) (t : Bytes) (n : Node) : Prop :=
  ∃ c d, n = .elem (asc "value") c ∧ parts c = [.elem tag d] ∧ IsText d t

/-- A string: `<value><string>text</string></value>` or, "if no type is indicated, the type is string", `<value>text</value>`. -/
def Stringy (t : Bytes) (n : Node) : Prop := Typed (asc "string") t n ∨ ∃ c, n = .elem (asc "value") c ∧ IsText c t

/-- Two digits. -/
def two (n : Int) : Bytes := decPad 2 n.natAbs

/-- Sign and distance from UTC of a zone in seconds to the west. -/
def zoneText (tz : Int) : Bytes :=
  [if tz ≤ 0 then 43 else 45] ++ decPad 2 (tz.natAbs / 3600) ++ decPad 2 (tz.natAbs / 60 % 60)

/-- `YYYYMMDDThh:mm:ss±hhmm`. -/
def isoText (d : DateTime) : Bytes :=
  decPad 4 d.year.natAbs ++ two d.month ++ two d.day ++ asc "T" ++ two d.hour ++ asc ":" ++ two d.minute ++ asc ":" ++ two d.sec ++
    zoneText d.timeZone

/-- The fields fit into that text: four digits for the year, two for the others, a zone of whole minutes below 100 hours. -/
def Dated (d : DateTime) : Prop :=
  (0 ≤ d.year ∧ d.year ≤ 9999) ∧ (0 ≤ d.month ∧ d.month ≤ 99) ∧ (0 ≤ d.day ∧ d.day ≤ 99) ∧ (0 ≤ d.hour ∧ d.hour ≤ 99) ∧
  (0 ≤ d.minute ∧ d.minute ≤ 99) ∧ (0 ≤ d.sec ∧ d.sec ≤ 99) ∧ (-(100 * 3600) < d.timeZone ∧ d.timeZone < 100 * 3600) ∧ d.timeZone % 60 = 0

/-- `s` without white space. -/
def squeezed (s : Bytes) : Bytes := s.filter (fun c => !decide (IsSpace c))

mutual
/-- The `value` element stands for the value. -/
def Stands (T : Texts) : Value → Node → Prop
  | .int v, n => ∃ tag, (tag = asc "i4" ∨ tag = asc "i8" ∨ tag = asc "int") ∧ Typed tag (decInt v) n
  | .bool v, n => Typed (asc "boolean") (if v then asc "1" else asc "0") n
  | .double x, n => ∃ t, T.dbl x t ∧ Typed (asc "double") t n
  | .string s, n => ∃ t, T.str s t ∧ Stringy t n
  | .stringView s, n => ∃ t, T.str s t ∧ Stringy t n
  | .dateTime d, n => ∃ t, T.date d t ∧ Typed (asc "dateTime.iso8601") t n
  | .binary s, n => ∃ t, squeezed t = base64 s ∧ Typed (asc "base64") t n
  | .binaryRef cs, n => ∃ t, squeezed t = base64 cs.flatten ∧ Typed (asc "base64") t n
  | .null, n => Typed (asc "nil") [] n
  | .secret v, n => Stands T v n
  | .array vs, n => ∃ c a d, n = .elem (asc "value") c ∧ parts c = [.elem (asc "array") a] ∧ parts a = [.elem (asc "data") d] ∧
      StandsItems T vs (parts d)
  | .struct ms, n => ∃ c a, n = .elem (asc "value") c ∧ parts c = [.elem (asc "struct") a] ∧ StandsMembers T ms (parts a)
/-- The `value` elements stand for the values, in order. -/
def StandsItems (T : Texts) : List Value → List Node → Prop
  | [], ns => ns = []
  | v :: vs, ns => ∃ n r, ns = n :: r ∧ Stands T v n ∧ StandsItems T vs r
/-- The `member` elements stand for the members, in order. -/
def StandsMembers (T : Texts) : List (Bytes × Value) → List Node → Prop
  | [], ns => ns = []
  | (k, v) :: ms, ns => ∃ c r t val kt, ns = .elem (asc "member") c :: r ∧ parts c = [.elem (asc "name") t, val] ∧ T.str k kt ∧
      IsText t kt ∧ Stands T v val ∧ StandsMembers T ms r
end

/-- The `param` elements stand for the arguments, in order. -/
def StandsParams (T : Texts) : List Value → List Node → Prop
  | [], ns => ns = []
  | v :: vs, ns => ∃ c r val, ns = .elem (asc "param") c :: r ∧ parts c = [val] ∧ Stands T v val ∧ StandsParams T vs r

/-- A method call. -/
def IsCall (T : Texts) (name : Bytes) (args : List Value) (n : Node) : Prop :=
  ∃ c m p t, n = .elem (asc "methodCall") c ∧ parts c = [.elem (asc "methodName") m, .elem (asc "params") p] ∧
    T.str name t ∧ IsText m t ∧ StandsParams T args (parts p)

/-- A response with a value. -/
def IsResponse (T : Texts) (v : Value) (n : Node) : Prop :=
  ∃ c p, n = .elem (asc "methodResponse") c ∧ parts c = [.elem (asc "params") p] ∧ StandsParams T [v] (parts p)

/-- A fault: a struct of the code and the message. -/
def IsFault (T : Texts) (code : Int) (msg : Bytes) (n : Node) : Prop :=
  ∃ c f val, n = .elem (asc "methodResponse") c ∧ parts c = [.elem (asc "fault") f] ∧ parts f = [val] ∧
    Stands T (.struct [(asc "faultCode", .int code), (asc "faultString", .string msg)]) val

/-- What is sent. -/
inductive Message where
  | call (name : Bytes) (args : List Value)
  | response (v : Value)
  | fault (code : Int) (msg : Bytes)

/-- The root element stands for the message. -/
def Message.Is (T : Texts) : Message → Node → Prop
  | .call name args, n => IsCall T name args n
  | .response v, n => IsResponse T v n
  | .fault code msg, n => IsFault T code msg n

/-! ## Trees -/

/-- What is asked of the integers, strings, doubles and date-times of a tree. -/
structure Need where
  int : Int → Prop
  str : Bytes → Prop
  dbl : BitVec 64 → Prop
  date : DateTime → Prop

mutual
/-- All leaves are so; names of members are so too and have 1 to 255 bytes. -/
def Leaves (N : Need) : Value → Prop
  | .int n => N.int n
  | .string s | .stringView s => N.str s
  | .double x => N.dbl x
  | .dateTime d => N.date d
  | .secret v => Leaves N v
  | .array vs => LeavesItems N vs
  | .struct ms => LeavesMembers N ms
  | _ => True
/-- For the elements. -/
def LeavesItems (N : Need) : List Value → Prop
  | [] => True
  | v :: vs => Leaves N v ∧ LeavesItems N vs
/-- For the members. -/
def LeavesMembers (N : Need) : List (Bytes × Value) → Prop
  | [] => True
  | (k, v) :: ms => (1 ≤ k.length ∧ k.length ≤ 255) ∧ N.str k ∧ Leaves N v ∧ LeavesMembers N ms
end

/-- For a message; the name of a method has 1 to 255 bytes. -/
def Message.Leaves (N : Need) : Message → Prop
  | .call name args => (1 ≤ name.length ∧ name.length ≤ 255) ∧ N.str name ∧ LeavesItems N args
  | .response v => XmlRpc.Leaves N v
  | .fault code msg => N.int code ∧ N.str msg

mutual
/-- All integers are so. -/
def IntsAll (P : Int → Prop) : Value → Prop
  | .int n => P n
  | .secret v => IntsAll P v
  | .array vs => IntsAllItems P vs
  | .struct ms => IntsAllMembers P ms
  | _ => True
/-- In the elements. -/
def IntsAllItems (P : Int → Prop) : List Value → Prop
  | [] => True
  | v :: vs => IntsAll P v ∧ IntsAllItems P vs
/-- In the members. -/
def IntsAllMembers (P : Int → Prop) : List (Bytes × Value) → Prop
  | [] => True
  | (_, v) :: ms => IntsAll P v ∧ IntsAllMembers P ms
end

/-- In a message; the code of a fault has 32 bits. -/
def Message.IntsAll (P : Int → Prop) : Message → Prop
  | .call _ args => IntsAllItems P args
  | .response v => XmlRpc.IntsAll P v
  | .fault code _ => IsI32 code

/-! ## What a reader tells -/

/-- The date-time as far as its text tells. -/
def undated (d : DateTime) : DateTime := { d with weekDay := -1, unixTime := -1 }

mutual
/-- The value as builder calls; sizes of containers are not known in advance (0). -/
def calls : Value → List Event
  | .int v => [.int v]
  | .bool v => [.bool v]
  | .double x => [.double x]
  | .string s | .stringView s => [.string s]
  | .binary s => [.binary s]
  | .binaryRef cs => [.binary cs.flatten]
  | .dateTime d => [.dateTime (undated d)]
  | .null => [.null]
  | .secret v => calls v
  | .array vs => .openArray 0 :: (callsItems vs ++ [.closeArray])
  | .struct ms => .openStruct 0 :: (callsMembers ms ++ [.closeStruct])
/-- The elements. -/
def callsItems : List Value → List Event
  | [] => []
  | v :: vs => calls v ++ callsItems vs
/-- The members. -/
def callsMembers : List (Bytes × Value) → List Event
  | [] => []
  | (k, v) :: ms => .member k :: (calls v ++ callsMembers ms)
end

/-- A message as builder calls. -/
def Message.calls : Message → List Event
  | .call name args => .methodCall name :: callsItems args
  | .response v => .methodResponse :: XmlRpc.calls v
  | .fault code msg => [.fault code msg]

end Spec.XmlRpc
end Frpc
