import Verif.Model.Registry
/-!
# Specification of the method registry

From the documentation: a call runs the method registered last under its name, else the default
method, else it is the fault -506; the fault codes of the exceptions; `system.multicall` is the same
as calling one by one. The vocabulary of methods, entries and histories is that of
`Verif/Model/Registry.lean`.
-/
namespace Frpc
namespace Spec
namespace Registry
open Frpc.Registry
variable {σ : Type}

/-- The four methods every registry with introspection begins with. -/
def system : List (Bytes × Entry σ) :=
  [(asc "system.listMethods", ⟨.listMethods, asc "A:", asc "List all registered methods"⟩),
   (asc "system.methodHelp", ⟨.methodHelp, asc "s:s", asc "Return given method help"⟩),
   (asc "system.methodSignature", ⟨.methodSignature, asc "A:s", asc "Return given method signature"⟩),
   (asc "system.multicall", ⟨.multicall, asc "A:A", asc "Call given methods"⟩)]

/-- All registrations of methods in the order they were made. -/
def registrations (introspection : Bool) (ops : List (Op σ)) : List (Bytes × Entry σ) :=
  (if introspection then system else []) ++ ops.filterMap (fun op => match op with
    | .method n e => some (n, e)
    | .default _ => none)

/-- `e` is what was registered last under `name`. -/
def Latest (introspection : Bool) (ops : List (Op σ)) (name : Bytes) (e : Entry σ) : Prop :=
  ∃ pre post, registrations introspection ops = pre ++ (name, e) :: post ∧ name ∉ post.map (·.1)

/-- Nothing was registered under `name`. -/
def Unregistered (introspection : Bool) (ops : List (Op σ)) (name : Bytes) : Prop :=
  name ∉ (registrations introspection ops).map (·.1)

/-- The default method registered last. -/
def lastDefault : List (Op σ) → Option (σ → Bytes → List Value → Res σ)
  | [] => none
  | ops => (ops.filterMap (fun op => match op with
    | .default d => some d
    | .method _ _ => none)).getLast?.getD none

/-- The documented codes: what a caller in the same process gets for an exception of a method. -/
inductive Documented : Exn → Exn → Prop
  | type (m) : Documented (.type m) (.fault (-501) m)
  | len (m) : Documented (.len m) (.fault (-501) m)
  | key (m) : Documented (.key m) (.fault (-502) m)
  | index (m) : Documented (.index m) (.fault (-502) m)
  | stream (m) : Documented (.stream m) (.fault (-503) m)
  | fault (c m) : Documented (.fault c m) (.fault c m)
  | protocol (c m) : Documented (.protocol c m) (.protocol c m)
  | std (m) : Documented (.std m) (.std m)
  | unknown : Documented .unknown .unknown
  | fuel : Documented .fuel .fuel

/-- What a C string function sees of a message: it ends at the first NUL. -/
def visible (m : Bytes) : Bytes := m.takeWhile (fun c => c != 0)

/-- The fault a remote caller gets. Messages printed by the library are cut to 1023 bytes. -/
inductive WireFault : Exn → Int → Bytes → Prop
  | type (m) : WireFault (.type m) (-501) (visible m)
  | len (m) : WireFault (.len m) (-501) (visible m)
  | key (m) : WireFault (.key m) (-502) (visible m)
  | index (m) : WireFault (.index m) (-502) (visible m)
  | stream (m) : WireFault (.stream m) (-503) (visible m)
  | fault (c m) : WireFault (.fault c m) c (visible m)
  | std (m) : WireFault (.std m) (-500) (visible ((asc "Caught std::exception<" ++ visible m ++ asc "> while dispatching method call.").take 1023))
  | unknown : WireFault .unknown (-500) (visible (asc "Caught unknown exception while dispatching method call."))

/-- The exceptions `system.multicall` turns into a fault struct, with their codes. -/
inductive Isolated : Exn → Int → Bytes → Prop
  | type (m) : Isolated (.type m) (-501) m
  | len (m) : Isolated (.len m) (-501) m
  | key (m) : Isolated (.key m) (-502) m
  | index (m) : Isolated (.index m) (-502) m
  | fault (c m) : Isolated (.fault c m) c m

/-- An element of a multicall that is a call. -/
def IsCall (v : Value) (name : Bytes) (params : List Value) : Prop :=
  ∃ ms, v = .struct ms ∧ SMap.find? (asc "methodName") ms = some (.string name) ∧ SMap.find? (asc "params") ms = some (.array params)

/-- The struct that tells of a fault. -/
def faultValue (code : Int) (m : Bytes) : Value := .struct [(asc "faultCode", .int code), (asc "faultString", .string m)]

/-- What one element of a multicall gives, in terms of the call `call` made alone: its value, or its
fault, or a fault of -501, -502 or -506 without a call when it is not one. -/
inductive One (call : σ → Bytes → List Value → Res σ) : σ → Value → Value → σ → Prop
  | value {st st' v name params r} : IsCall v name params → call st name params = (.ok r, st') → One call st v r st'
  | fault {st st' v name params e c m} : IsCall v name params → call st name params = (.error e, st') → Isolated e c m →
      One call st v (faultValue c m) st'
  | malformed {st v c m} : (¬ ∃ name params, IsCall v name params) → c ∈ ([-501, -502, -506] : List Int) → One call st v (faultValue c m) st

/-- Elements one after another, each with its own result. -/
inductive Each (call : σ → Bytes → List Value → Res σ) : σ → List Value → List Value → σ → Prop
  | nil {st} : Each call st [] [] st
  | cons {st st1 st2 v r vs rs} : One call st v r st1 → Each call st1 vs rs st2 → Each call st (v :: vs) (r :: rs) st2

/-- The documented letters of signatures. -/
def letters : List (String × String) :=
  [("A", "array"), ("S", "struct"), ("B", "binary"), ("D", "dateTime"), ("b", "bool"), ("d", "double"), ("i", "int"), ("s", "string")]

/-- The type a letter stands for. -/
def letterType (c : UInt8) : Option Bytes := (letters.find? (fun p => asc p.1 == [c])).map (fun p => asc p.2)

/-- The types of one signature, e.g. of `s:iA`. -/
def typesOf (s : Bytes) : List Value := s.filterMap (fun c => (letterType c).map .string)

/-- Signatures separated by commas. -/
def joined : List Bytes → Bytes
  | [] => []
  | [s] => s
  | s :: t :: l => s ++ asc "," ++ joined (t :: l)

end Registry
end Spec
end Frpc
