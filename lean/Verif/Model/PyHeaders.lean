import Verif.Model.HttpHeader
import Verif.Model.PyServer
import Verif.Spec.Utf8
/-!
# The header functions of `fastrpc.Server`

`getInHeaders`, `getOutHeaders`, `getInHeadersFor`, `getOutHeadersFor`, `addOutHeader` (`python/pythonserver.cc:1223-1287,2148-2191`) over the life of one server object:
requests (on any number of connections), responses, and calls of user functions in between. Memory is never short.
-/
namespace Frpc
namespace PyHeaders
open HttpHeader (Fields)
open Python (Py)

/-- `MemoryError`, `ValueError`. -/
inductive Exc where
  | memory | value
deriving DecidableEq, Repr

/-- What happens to the reference count of a new tuple. -/
inductive RefOp where
  | new      -- `PyTuple_New`: the count is one, and the wrapper has it
  | inc      -- `aTuple.inc()`
  | append   -- `PyList_Append` takes a reference of its own
  | gone     -- the destructor of the wrapper
deriving DecidableEq, Repr

/-- The count after an operation (`python/pyobjectwrapper.h:43-81`). -/
def RefOp.apply (n : Nat) : RefOp → Nat
  | .new => 1
  | .inc => n + 1
  | .append => n + 1
  | .gone => n - 1

/-- The operations on each tuple (`python/pythonserver.cc:1237,1252,1257`), in order. -/
def tupleOps : List RefOp := [.new, .inc, .append, .gone]

/-- The operations on the name and on the value (`python/pythonserver.cc:1231-1232,1242,1247,1257`): `PyTuple_SetItem` takes over the reference that `inc()` has made. -/
def textOps : List RefOp := [.new, .inc, .gone]

/-- A pair of the list: name and value, and the reference count of the tuple. -/
structure Item where
  name : Bytes
  value : Bytes
  refs : Nat
deriving DecidableEq, Repr

/-- `std::string::c_str()` read as a C string. -/
def cstr (s : Bytes) : Bytes := s.takeWhile (fun c => c != 0)

/-- The loop of `headersToPyList` (`python/pythonserver.cc:1229-1258`). `PyUnicode_FromString` fails if the text is not UTF-8. -/
def listLoop (name : Bytes) : Fields → Except Exc (List Item)
  | [] => .ok []
  | (k, v) :: h =>
    if name.isEmpty || name == k then
      if Spec.isUtf8 (cstr k) && Spec.isUtf8 (cstr v) then
        match listLoop name h with
        | .ok l => .ok (⟨cstr k, cstr v, tupleOps.foldl RefOp.apply 0⟩ :: l)
        | .error e => .error e
      else .error .memory
    else listLoop name h

/-- The argument format `s` of `PyArg_ParseTuple`: a string without NUL. -/
def argS : Py → Option Bytes
  | .str s => if (0 : UInt8) ∈ s then none else some s
  | _ => none

/-- `headersIn` and `headersOut` (`python/pythonserver.cc:537-540`). -/
structure State where
  hin : Fields
  hout : Fields

/-- A new server object (`python/pythonserver.cc:459-468`). -/
def new : State := ⟨[], []⟩

/-- A call of a user function. -/
inductive Call where
  | getIn | getOut
  | getInFor (name : Py) | getOutFor (name : Py)
  | add (name value : Py)

/-- What it gives. -/
inductive Got where
  | list (l : List Item)
  | none
  | raised (e : Exc)
deriving DecidableEq, Repr

/-- A list or the exception. -/
def gotList : Except Exc (List Item) → Got
  | .ok l => .list l
  | .error e => .raised e

/-- `getInHeadersFor`, `getOutHeadersFor` (`python/pythonserver.cc:2158-2177`): the name as it is, no empty name. -/
def getFor (h : Fields) (name : Py) : Got :=
  match argS name with
  | some n => if n.isEmpty then .raised .value else gotList (listLoop n h)
  | none => .raised .value

/-- `addOutHeader` (`python/pythonserver.cc:1283-1285,2180-2191`). -/
def addOut (s : State) (name value : Py) : Got × State :=
  match argS name, argS value with
  | some k, some v => if k.isEmpty || v.isEmpty then (.raised .value, s) else (.none, { s with hout := HttpHeader.add s.hout k v })
  | _, _ => (.raised .value, s)

/-- One call (`python/pythonserver.cc:1263-1285,2148-2191`). -/
def call (s : State) : Call → Got × State
  | .getIn => (gotList (listLoop [] s.hin), s)
  | .getOut => (gotList (listLoop [] s.hout), s)
  | .getInFor n => (getFor s.hin n, s)
  | .getOutFor n => (getFor s.hout n, s)
  | .add n v => addOut s n v

/-- What happens to a server object: it reads the header of a request (`fields`: all of it, or what there is before an error), the header of a response has been sent, a user
function (a hook, a method) calls. -/
inductive Ev where
  | request (fields : Fields)
  | sent
  | call (c : Call)

/-- One event: `readRequest` clears and reads `headersIn` (`python/pythonserver.cc:932,988`; names as `HTTPHeader_t::add` stores them), `sendResponse` clears `headersOut`
(`python/pythonserver.cc:1181`). -/
def step (s : State) : Ev → State
  | .request fs => { s with hin := fs.foldl (fun h f => HttpHeader.add h f.1 f.2) [] }
  | .sent => { s with hout := [] }
  | .call c => (call s c).2

/-- A history of a server object. -/
def after (evs : List Ev) : State := evs.foldl step new

end PyHeaders
end Frpc
