import Verif.Model.BinMarshaller
import Verif.Model.XmlMarshaller
import Verif.Model.BinUnmarshaller
/-!
# Texts given as C strings (`src/frpcmarshaller.cc:79-98`, `src/frpcdatabuilder.cc:42-60`)

A `const char *` is the memory from where it points to the end of the object it points into.
-/
namespace Frpc
namespace CStr

/-- `strlen`: none if there is no NUL in the object, which is read past its end. -/
def strlen : Bytes → Option Nat
  | [] => none
  | c :: m => if c = 0 then some 0 else (strlen m).map (· + 1)

/-- `auto size = static_cast<uint32_t>(strlen(value))` and the text of that size (`src/frpcmarshaller.cc:80-81,85-86,90-91,95-96`, `src/frpcdatabuilder.cc:44-45,48-49,53-54,58-59`). -/
def text (p : Bytes) : Except Err Bytes :=
  match strlen p with
  | none => .error .ub
  | some n => .ok (p.take (n % 2 ^ 32))

/-- A call of the marshaller: one of those with sizes, or one with a C string. -/
inductive Op where
  | sized (op : PackOp)
  | member (p : Bytes)
  | string (p : Bytes)
  | fault (code : Int) (p : Bytes)
  | call (p : Bytes)

/-- `packStructMember`, `packString`, `packFault`, `packMethodCall` of a C string (`src/frpcmarshaller.cc:79-98`). -/
def lower : Op → Except Err PackOp
  | .sized op => .ok op
  | .member p => (text p).map .packStructMember
  | .string p => (text p).map .packString
  | .fault code p => (text p).map (.packFault code)
  | .call p => (text p).map .packMethodCall

/-- Several of them: the operations that the marshaller is given. -/
def lowerAll : List Op → Except Err (List PackOp)
  | [] => .ok []
  | o :: os =>
    match lower o with
    | .error e => .error e
    | .ok p => (lowerAll os).map (p :: ·)

/-- The binary message that they make. -/
def binary (strOk : Bytes → Bool) (ver : Version) (os : List Op) : Except Err PackRes := (lowerAll os).map (BinMarshaller.run strOk ver)
/-- The XML that they make. -/
def xml (dbl : BitVec 64 → Bytes) (ver : Version) (os : List Op) : Except Err (List Bytes × Option Err) := (lowerAll os).map (XmlMarshaller.run dbl ver)

/-- A call of a builder through `DataBuilder_t&`: one of those with sizes, or one with a C string. (Through classes that override `buildString`
the overloads with a C string are hidden, and the text is made a `std::string`.) -/
inductive BuildOp where
  | sized (e : Event)
  | fault (code : Int) (p : Bytes)
  | call (p : Bytes)
  | string (p : Bytes)
  | member (p : Bytes)

/-- `buildFault`, `buildMethodCall`, `buildString`, `buildStructMember` of a C string (`src/frpcdatabuilder.cc:43-61`). -/
def buildLower : BuildOp → Except Err Event
  | .sized e => .ok e
  | .fault code p => (text p).map (.fault code)
  | .call p => (text p).map .methodCall
  | .string p => (text p).map .string
  | .member p => (text p).map .member

/-- Calls of a builder one after another, up to the first exception. -/
def build {β : Type} (B : BinUnMarshaller.Builder β) (b : β) : List BuildOp → β × Option Err
  | [] => (b, none)
  | o :: os =>
    match buildLower o with
    | .error e => (b, some e)
    | .ok e =>
      match B.build b e with
      | .error x => (b, some x)
      | .ok b' => build B b' os

end CStr
end Frpc
