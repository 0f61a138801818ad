import Verif.Model.PyDate
/-!
# `fastrpc.Boolean` and `fastrpc.boolean()` (`python/fastrpcmodule.cc:908-1211,2243-2287`), in Python 3
-/
namespace Frpc
namespace PyBool
open Python (Py)
open PyDate (Op)

/-- Exceptions. -/
inductive Exc where
  | type | attribute | index
  | raised    -- by a method of the user
deriving DecidableEq, Repr

/-- `PyObject_IsTrue` on the objects of the model. A `fastrpc.Boolean` is asked by `BooleanObject_nonzero` (`python/fastrpcmodule.cc:1186-1190`); `other` is what an object of some other class
says (`none`: an exception). -/
def isTrue (other : Option Bool) : Py → Option Bool
  | .none => some false
  | .bool b => some b
  | .boolean b => some b
  | .int n => some (decide (n ≠ 0))
  | .float x => some (decide (x.toNat % 2 ^ 63 ≠ 0))
  | .str s => some (!s.isEmpty)
  | .surrogates => some true
  | .bytes s => some (!s.isEmpty)
  | .dateTime _ => some true
  | .native .. => some true
  | .list xs => some (!xs.isEmpty)
  | .tuple xs => some (!xs.isEmpty)
  | .dict ms => some (!ms.isEmpty)
  | .fault .. => some true
  | .other => other

/-- What the truth of an object makes. -/
def ofTruth : Option Bool → Except Exc Py
  | none => .error .raised
  | some b => .ok (.boolean b)

/-- `BooleanObject_new` and `BooleanObject_init` (`python/fastrpcmodule.cc:1037-1075`). -/
def new (other : Option Bool) : List Py → Except Exc Py
  | [] => .ok (.boolean false)
  | [v] => ofTruth (isTrue other v)
  | _ => .error .type

/-- `PySequence_GetItem` on what `PySequence_Check` lets through; the items of a text are texts of one character, those of `bytes` are numbers. A text of the model that is not empty has a first
character; `rest` says whether it has a second one. `none`: no sequence. -/
def item (rest : Bytes → Bool) (i : Nat) : Py → Option (Except Exc Py)
  | .list xs => some (match xs[i]? with | some x => .ok x | none => .error .index)
  | .tuple xs => some (match xs[i]? with | some x => .ok x | none => .error .index)
  | .bytes s => some (match s[i]? with | some c => .ok (.int c.toNat) | none => .error .index)
  | .str s => some (if (if i = 0 then !s.isEmpty else rest s) then .ok .surrogates else .error .index)
  | .surrogates => some (.ok .surrogates)
  | _ => none

/-- `fastrpc_boolean` (`python/fastrpcmodule.cc:2246-2285`); the item of a text stands for a text of one character, and all of those are true. -/
def boolean (other : Option Bool) (rest : Bytes → Bool) (v : Py) (truefalse : Option Py) : Except Exc Py :=
  match isTrue other v with
  | none => .error .raised
  | some b =>
    match truefalse with
    | none => .ok (.boolean b)
    | some tf =>
      match item rest (if b then 1 else 0) tf with
      | none => .error .type
      | some (.error e) => .error e
      | some (.ok x) => ofTruth (isTrue other x)

/-- `BooleanObject_getattr` (`python/fastrpcmodule.cc:1077-1088`). -/
def getattr (b : Bool) (name : Bytes) : Except Exc Py := if name = asc "value" then .ok (.bool b) else .error .attribute

/-- What an assignment comes to. -/
inductive Put where
  | ok (b : Bool) | raised (e : Exc) | crash
deriving DecidableEq, Repr

/-- `BooleanObject_setattr` (`python/fastrpcmodule.cc:1090-1113`); `none` is `del`, for which the value is a null pointer. -/
def setattr (other : Option Bool) (self : Bool) (name : Bytes) (v : Option Py) : Put :=
  if name = asc "value" then
    match v with
    | none => .crash
    | some x =>
      match isTrue other x with
      | none => .raised .raised
      | some val => if (self && !val) || (!self && val) then .ok val else .ok self
  else .raised .attribute

/-- What is a truth value for the comparison. -/
def asBool : Py → Option Bool
  | .boolean b => some b
  | .bool b => some b
  | _ => none

/-- Something else. -/
def foreign : Op → Except Exc Bool
  | .eq => .ok false
  | .ne => .ok true
  | _ => .error .type

/-- `BooleanObject_richcmp` (`python/fastrpcmodule.cc:1118-1170`). -/
def compare (self that : Py) (op : Op) : Except Exc Bool :=
  match asBool self with
  | none => foreign op
  | some a =>
    match asBool that with
    | none => foreign op
    | some b => .ok (op.apply (if a then 1 else 0) (if b then 1 else 0))

/-- `BooleanObject_repr` (`python/fastrpcmodule.cc:1175-1179`). -/
def repr (b : Bool) : Bytes := if b then asc "Boolean: TRUE" else asc "Boolean: FALSE"
/-- `BooleanObject_str` (`python/fastrpcmodule.cc:1181-1184`). -/
def str (b : Bool) : Bytes := if b then asc "1" else asc "0"
/-- `BooleanObject_int` (`python/fastrpcmodule.cc:1192-1195`). -/
def int (b : Bool) : Int := if b then 1 else 0

end PyBool
end Frpc
