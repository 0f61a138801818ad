import Verif.Basic.Bytes
/-! # The exceptions of the Python module (`python/pyerrors.cc`, `python/fastrpcmodule.cc:2833-2896`)

Objects are what the C code can ask them: whether they are a number, a `str`, `None` or a bound method of a
proxy. The interpreter is a parameter only through what `%d` and `%s` make of an object. The model counts
the references that the exception object adds to and takes from every other object; the tuple `args` of the
base class and the instance's dictionary belong to the interpreter and are not in it. `s#` is the one of
Python before 3.10. -/
namespace Frpc
namespace PyErrors

/-- What the code asks an object for: `PyNumber_Check`, `PyUnicode_Check`, `== Py_None`, and whether it is a `MethodObject` (`python/fastrpcmodule.cc:1423-1432`) with its name and the address of its proxy. -/
inductive Kind where
  | number
  | str
  | nothing
  | method (name url : Bytes)
  | other
deriving DecidableEq, Repr

/-- A Python object: its identity, what it is, and what `%d` and `%s` print for it (`none` when they raise `TypeError`). -/
structure Obj where
  id : Nat
  kind : Kind
  decimal : Option Bytes
  shown : Option Bytes
deriving DecidableEq, Repr

/-- `Py_None`. -/
def pyNone : Obj := ⟨0, .nothing, none, some (asc "None")⟩

/-- The three classes with members (`python/pyerrors.cc:200-201`, `:310`, `:384-385`). -/
inductive Cls where
  | protocolError
  | fault
  | responseError
deriving DecidableEq, Repr

/-- The members of an instance (`python/pyerrors.cc:107-109`, `:211-213`, `:317-318`): `status`/`faultCode`, `statusMessage`/`faultString`, `method`. `ResponseError` has no first one. -/
inductive Slot where
  | status
  | message
  | method
deriving DecidableEq, Repr

/-- An instance and the references taken (`refs i`, by identity) since it was made. -/
structure St where
  status : Option Obj
  message : Option Obj
  method : Option Obj
  refs : Nat → Int

/-- `tp_new` gives an object of zeros. -/
def fresh : St := ⟨none, none, none, fun _ => 0⟩

/-- `Py_INCREF` (`d = 1`) and `Py_DECREF` (`d = -1`). -/
def bump (o : Obj) (d : Int) (r : Nat → Int) : Nat → Int := fun i => if i = o.id then r i + d else r i

/-- `Py_CLEAR`, `Py_XDECREF`. -/
def release : Option Obj → (Nat → Int) → (Nat → Int)
  | none, r => r
  | some o, r => bump o (-1) r

/-- The member. -/
def St.get (s : St) : Slot → Option Obj
  | .status => s.status
  | .message => s.message
  | .method => s.method

/-- The member replaced, no reference touched. -/
def St.put (s : St) : Slot → Option Obj → St
  | .status, o => { s with status := o }
  | .message, o => { s with message := o }
  | .method, o => { s with method := o }

/-- Does the class have the member (`python/pyerrors.cc:190-198`, `:300-308`, `:376-382`)? -/
def has : Cls → Slot → Bool
  | .responseError, .status => false
  | _, _ => true

/-- How an operation ends. `ub` is undefined behaviour. -/
inductive Outcome where
  | done
  | text (t : Bytes)
  | value (o : Obj)
  | typeError
  | attributeError
  | ub
deriving DecidableEq, Repr

/-- `self->method = Py_None`, a borrowed reference that is not counted (`python/pyerrors.cc:119`, `:223`, `:327`). -/
def borrowNone (s : St) : St := { s with method := some pyNone }

/-- The three references are taken (`python/pyerrors.cc:124-126`, `:228-230`); the old values of the members are overwritten. -/
def store3 (a b m : Obj) (s : St) : St :=
  { status := some a, message := some b, method := some m, refs := bump m 1 (bump b 1 (bump a 1 s.refs)) }

/-- The two references of `ResponseError` (`python/pyerrors.cc:332-333`). -/
def store2 (b m : Obj) (s : St) : St :=
  { s with message := some b, method := some m, refs := bump m 1 (bump b 1 s.refs) }

/-- The checks of `ProtocolError` and `Fault` (`python/pyerrors.cc:128-146`, `:232-252`). -/
def check3 (a b : Obj) : Outcome :=
  if a.kind ≠ .number then .typeError else if b.kind ≠ .str then .typeError else .done

/-- The check of `ResponseError` (`python/pyerrors.cc:335-344`). -/
def check2 (b : Obj) : Outcome := if b.kind ≠ .str then .typeError else .done

/-- `PyArg_ParseTuple` with `OO|O` and what follows (`python/pyerrors.cc:119-147`, `:223-253`). -/
def init3 (args : List Obj) (s : St) : Outcome × St :=
  match args with
  | [a, b] => (check3 a b, store3 a b pyNone s)
  | [a, b, m] => (check3 a b, store3 a b m s)
  | _ => (.typeError, borrowNone s)

/-- `PyArg_ParseTuple` with `O|O` and what follows (`python/pyerrors.cc:327-345`). -/
def init2 (args : List Obj) (s : St) : Outcome × St :=
  match args with
  | [b] => (check2 b, store2 b pyNone s)
  | [b, m] => (check2 b, store2 b m s)
  | _ => (.typeError, borrowNone s)

/-- `__init__` (`python/pyerrors.cc:113-147`, `:217-253`, `:321-345`). The base class refuses keywords. -/
def init (c : Cls) (kw : Bool) (args : List Obj) (s : St) : Outcome × St :=
  if kw then (.typeError, s)
  else if c = .responseError then init2 args s else init3 args s

/-- Reading a member (`T_OBJECT_EX`). -/
def getAttr (s : St) (x : Slot) : Outcome :=
  match s.get x with
  | none => .attributeError
  | some o => .value o

/-- Setting a member: the new reference is taken, the old one given back. -/
def setAttr (x : Slot) (o : Obj) (s : St) : St :=
  { s.put x (some o) with refs := release (s.get x) (bump o 1 s.refs) }

/-- Deleting a member: `AttributeError` when there is none. -/
def delAttr (x : Slot) (s : St) : Outcome × St :=
  match s.get x with
  | none => (.attributeError, s)
  | some o => (.done, { s.put x none with refs := release (some o) s.refs })

/-- The name in the text (`python/pyerrors.cc:186`, `:297`, `:372`). -/
def clsName : Cls → Bytes
  | .protocolError => asc "ProtocolError"
  | .fault => asc "Fault"
  | .responseError => asc "ResponseError"

/-- Where the exception came from: `[method NAME() @ URL]` (`python/fastrpcmodule.cc:2867-2870`). -/
def source (name url : Bytes) : Bytes := asc " [method " ++ name ++ asc "() @ " ++ url ++ asc "]"

/-- `PyUnicode_Format` with a status (`python/fastrpcmodule.cc:2848-2857`, `:2876-2884`). -/
def format3 (c : Cls) (a b : Option Obj) (tail : Bytes) : Outcome :=
  match a, b with
  | some a, some b =>
    match a.decimal, b.shown with
    | some d, some t => .text (asc "<fastrpc." ++ clsName c ++ asc ": " ++ d ++ asc ", " ++ t ++ tail ++ asc ">")
    | _, _ => .typeError
  | _, _ => .attributeError

/-- `PyUnicode_Format` without a status (`python/fastrpcmodule.cc:2858-2860`, `:2885-2890`). -/
def format2 (c : Cls) (b : Option Obj) (tail : Bytes) : Outcome :=
  match b with
  | some b =>
    match b.shown with
    | some t => .text (asc "<fastrpc." ++ clsName c ++ asc ": " ++ t ++ tail ++ asc ">")
    | none => .typeError
  | none => .attributeError

/-- Both. -/
def format (c : Cls) (s : St) (tail : Bytes) : Outcome :=
  if c = .responseError then format2 c s.message tail else format3 c s.status s.message tail

/-- `errorRepr` (`python/fastrpcmodule.cc:2834-2895`), for `repr` and `str` alike (`python/pyerrors.cc:69-71`). The member `method` is taken for a `MethodObject` whatever it is (`:2864`). -/
def repr (c : Cls) (s : St) : Outcome :=
  match s.method with
  | none => format c s []
  | some m =>
    match m.kind with
    | .nothing => format c s []
    | .method name url => format c s (source name url)
    | _ => .ub

/-- What a program can do with the exception. Setting and deleting are for members of its class. -/
inductive Op where
  | init (kw : Bool) (args : List Obj)
  | get (x : Slot)
  | set (x : Slot) (o : Obj)
  | del (x : Slot)
  | repr
deriving DecidableEq, Repr

/-- One of them. A member the class has not is kept by the interpreter in the instance's dictionary. -/
def step (c : Cls) (s : St) : Op → Outcome × St
  | .init kw args => init c kw args s
  | .get x => (getAttr s x, s)
  | .set x o => if has c x then (.done, setAttr x o s) else (.done, s)
  | .del x => if has c x then delAttr x s else (.attributeError, s)
  | .repr => (repr c s, s)

/-- All of them, in order. -/
def run (c : Cls) (s : St) (ops : List Op) : St := ops.foldl (fun s op => (step c s op).2) s

/-- The collector or the last reference (`python/pyerrors.cc:150-164`, `:256-271`, `:347-359`): every member is cleared. -/
def dealloc (s : St) : St :=
  ⟨none, none, none, release s.method (release s.message (release s.status s.refs))⟩

end PyErrors
end Frpc
