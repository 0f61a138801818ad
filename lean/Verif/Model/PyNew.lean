import Verif.Model.PyServer
/-!
# Making and dropping a Python server (`python/pythonserver.cc:1292-1404`, `2034-2128`)

Built for Python 3.10 or later. The arguments are those of `PyArg_ParseTupleAndKeywords` after the interpreter has matched them with their names; an argument with
another name is its `TypeError` and is not modelled.
-/
namespace Frpc
namespace PyNew
open Python (Py Exn)
open PyServer (Fn Exc Reg)

/-- A Python callable, which may be called with the keywords of the postprocessor. -/
abbrev Callable (σ : Type) := σ → List Py → Option Py → Option Py → Option Exc → Except Exc Py × σ

/-- A value of the dictionary `callbacks`. -/
inductive Hook (σ : Type) where
  | callable (f : Callable σ)
  | bad

/-- The argument `callbacks`: a `dict` with these `str` keys, or any other object. -/
inductive Callbacks (σ : Type) where
  | missing
  | dict (ms : List (Bytes × Hook σ))
  | other

/-- The arguments of `fastrpc.Server` (`python/pythonserver.cc:2051-2080`). -/
structure Args (σ : Type) where
  readTimeout : Option Py := none
  writeTimeout : Option Py := none
  keepAlive : Option Py := none
  maxKeepalive : Option Py := none
  introspection : Option Py := none
  callbacks : Callbacks σ := .missing
  stringMode : Option Py := none
  useBinary : Option Py := none
  allowSurrogates : Option Py := none

/-- `StringMode_t`. -/
inductive Mode where
  | mixed | string | unicode
deriving DecidableEq, Repr

/-- `ServerObject` (`python/pythonserver.cc:281-299`). -/
structure Server (σ : Type) where
  readTimeout : Int
  writeTimeout : Int
  keepAlive : Int
  maxKeepalive : Int
  stringMode : Mode
  useBinary : Bool
  allowSurrogates : Bool
  registry : Reg σ

/-- The format `i`. -/
def argI : Py → Except Exn Int
  | .int n => if -(2 : Int) ^ 31 ≤ n ∧ n < 2 ^ 31 then .ok n else .error .overflow
  | .bool b => .ok (if b then 1 else 0)
  | _ => .error .type

/-- The same, with the value it has when it is not given. -/
def argIOr (d : Int) : Option Py → Except Exn Int
  | none => .ok d
  | some p => argI p

/-- The format `s`, with nothing when it is not given. -/
def argSOr : Option Py → Except Exn (Option Bytes)
  | none => .ok none
  | some p =>
    match PyServer.asName p with
    | .ok s => .ok (some s)
    | .error e => .error e

/-- `parseStringMode` (`python/pythonbuilder.cc:44-59`). -/
def parseMode : Option Bytes → Except Exn Mode
  | none => .ok .mixed
  | some s =>
    if s = asc "string" then .ok .string
    else if s = asc "unicode" then .ok .unicode
    else if s = asc "mixed" then .ok .mixed
    else .error .value

/-- `if (useBinary) self->useBinary = PyObject_IsTrue(useBinary)` (`python/pythonserver.cc:2083-2087`): the value, and whether an exception is left behind; -1 counts as true. -/
def flag (truth : Py → Option Bool) (d : Bool) : Option Py → Bool × Bool
  | none => (d, false)
  | some p =>
    match truth p with
    | some b => (b, false)
    | none => (true, true)

/-- `PyDict_GetItemString(callbacks, name)` (`python/pythonserver.cc:2097-2110`), which is a null pointer for anything but a `dict`. -/
def Callbacks.get {σ} (name : Bytes) : Callbacks σ → Option (Hook σ)
  | .dict ms => SMap.find? name ms
  | _ => none

/-- `callableOrNone` (`python/pythonserver.cc:1309-1320`). -/
def callableOrNone {σ} : Option (Hook σ) → Except Exn (Option (Callable σ))
  | none => .ok none
  | some (.callable f) => .ok (some f)
  | some .bad => .error .type

/-- A callable called without keywords. -/
def plain {σ} (f : Callable σ) : Fn σ := fun st args => f st args none none none

/-- `MethodRegistryObject_new` (`python/pythonserver.cc:1332-1407`). -/
def newRegistry {σ} (introspection : Option Py) (c : Callbacks σ) : Except Exn (Reg σ) := do
  let i ← argIOr 1 introspection
  let pre ← callableOrNone (c.get (asc "preProcess"))
  let post ← callableOrNone (c.get (asc "postProcess"))
  let read ← callableOrNone (c.get (asc "preRead"))
  return PyServer.new σ (pre.map plain) post (read.map plain) (decide (i ≠ 0))

/-- `ServerObject_new` (`python/pythonserver.cc:2041-2128`). An exception left behind by `PyObject_IsTrue` becomes a `SystemError` when the server is returned; that
`introspectionEnabled=-1` then raises it at once is left out. -/
def newServer {σ} (truth : Py → Option Bool) (a : Args σ) : Except Exn (Server σ) := do
  let readTimeout ← argIOr 10000 a.readTimeout
  let writeTimeout ← argIOr 1000 a.writeTimeout
  let keepAlive ← argIOr 0 a.keepAlive
  let maxKeepalive ← argIOr 0 a.maxKeepalive
  let text ← argSOr a.stringMode
  let mode ← parseMode text
  let registry ← newRegistry a.introspection a.callbacks
  if (flag truth true a.useBinary).2 || (flag truth false a.allowSurrogates).2 then .error .system
  else .ok ⟨readTimeout, writeTimeout, keepAlive, maxKeepalive, mode, (flag truth true a.useBinary).1, (flag truth false a.allowSurrogates).1, registry⟩

/-- Whether a method holds a reference to its registry: the built-in ones have it as their callback (`registerInternalMethod`, `python/pythonserver.cc:1322-1329`, and
`Method_t::Method_t`, 2217-2221). -/
def holdsRegistry {σ} (m : PyServer.Method σ) : Bool :=
  match m.callback with
  | .user _ => false
  | _ => true

/-- The references to a registry that its own methods hold. -/
def ownRefs {σ} (r : Reg σ) : Nat := (r.lookup.filter (fun e => holdsRegistry e.2)).length

/-- The references left when the server, which holds one, is gone (`ServerObject_dealloc`, `python/pythonserver.cc:2034-2039`), and the program holds `n` of them:
`MethodRegistryObject_dealloc` (1295-1306), which lets go of the callbacks and the methods, runs when there are none. The type takes no part in garbage collection
(`Py_TPFLAGS_DEFAULT`). -/
def refsAfter {σ} (r : Reg σ) (n : Nat) : Nat := ownRefs r + n

end PyNew
end Frpc
