import Verif.Model.Registry
/-!
# Logging of calls by the client (`src/frpc.cc:613-716`, `src/frpcserverproxy.cc:577-625`)

The logger function is the user's and does not throw. Names are C strings.
-/
namespace Frpc
namespace CallLog
open Registry (cstr)

/-- What a call comes to: a value (none if the user's builder has it), a fault, another exception. -/
inductive Outcome where
  | value (v : Option Value)
  | fault (code : Int) (msg : Bytes)
  | error (e : Err)

/-- A call of the logger function: the event and its data (`src/frpclogging.h:38-78`) without the URL and the response headers. -/
inductive Logged where
  | start (name : Bytes) (params : Option (List Value))
  | success (name : Option Bytes) (params : Option (List Value)) (response : Option Value)
  | fault (name : Option Bytes) (params : Option (List Value)) (code : Int) (msg : Bytes)
  | error (name : Bytes) (params : Option (List Value)) (e : Err)

/-- `methodNameP` (`src/frpc.cc:661-667`). -/
def subName (call : List (Bytes × Value)) : Option Bytes :=
  match SMap.find? (asc "methodName") call with
  | some (.string s) => some (cstr s)
  | _ => none

/-- `paramsArrayP` (`src/frpc.cc:669-675`): the condition has `||` where `&&` was meant, so that without the member `end()` is dereferenced, and
a member that is no array makes `Array()` throw. -/
def subParams (call : List (Bytes × Value)) : Except Err (List Value) :=
  match SMap.find? (asc "params") call with
  | none => .error .ub
  | some (.array ps) => .ok ps
  | some _ => .error .type

/-- `Int(*faultCodeIt->second).getValue()` as an `int` (`src/frpc.cc:683-684`). -/
def subCode : Value → Except Err Int
  | .int n => .ok (i32 (u32 n))
  | _ => .error .type

/-- `String(responseStruct.get("faultString", dummyString))` (`src/frpc.cc:685`). -/
def subMessage (response : List (Bytes × Value)) : Except Err Bytes :=
  match SMap.find? (asc "faultString") response with
  | none => .ok []
  | some (.string s) => .ok s
  | some _ => .error .type

/-- The body of the loop for two structs (`src/frpc.cc:657-703`). -/
def logSub (call response : List (Bytes × Value)) : Except Err Logged := do
  let params ← subParams call
  match SMap.find? (asc "faultCode") response with
  | some code => do
    let c ← subCode code
    let m ← subMessage response
    return .fault (subName call) (some params) c m
  | none => return .success (subName call) (some params) (some (.struct response))

/-- The loop (`src/frpc.cc:647-704`): what was logged before an exception, and the exception. -/
def logPairs : List Value → List Value → List Logged × Option Err
  | .struct c :: cs, .struct r :: rs =>
    match logSub c r with
    | .error e => ([], some e)
    | .ok l => let x := logPairs cs rs; (l :: x.1, x.2)
  | _ :: cs, _ :: rs => logPairs cs rs
  | _, _ => ([], none)

/-- `logStructuredCalls` (`src/frpc.cc:629-705`). -/
def logStructured (name : Bytes) (params : Option (List Value)) (response : Option Value) : List Logged × Option Err :=
  if name = asc "system.multicall" ∨ name = asc "system.parallelcall" then
    match params, response with
    | some (.array calls :: _), some (.array responses) => logPairs calls responses
    | _, _ => ([], none)
  else ([], none)

/-- `with_logger` (`src/frpcserverproxy.cc:587-624`) with `callLoggerCallback` (`src/frpc.cc:711-716`): what is logged and what the caller gets.
`params` is none for calls with variable arguments (`src/frpcserverproxy.cc:634-645`). -/
def withLogger (name : Bytes) (params : Option (List Value)) (outcome : Outcome) : List Logged × Outcome :=
  let first := Logged.start (cstr name) params
  match outcome with
  | .fault c m => ([first, .fault (some (cstr name)) params c m], outcome)
  | .error e => ([first, .error (cstr name) params e], outcome)
  | .value v =>
    match logStructured (cstr name) params v with
    | (ls, some e) => (first :: ls, .error e)
    | (ls, none) => (first :: ls ++ [.success (some (cstr name)) params v], outcome)

end CallLog
end Frpc
