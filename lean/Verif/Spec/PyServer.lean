import Verif.Model.PyServer
import Verif.Model.Registry
/-!
# Specification of the Python server's registry

From its documentation and from that of XML-RPC introspection. The vocabulary of objects, callables and exceptions is that of
`Verif/Model/PyServer.lean`.
-/
namespace Frpc
namespace Spec
namespace PyServer
open Frpc.PyServer
open Python (Py Key Exn)

/-- The letters of signatures. -/
def letters : List (UInt8 × Bytes) :=
  [(65, asc "array"), (83, asc "struct"), (66, asc "binary"), (68, asc "dateTime"), (98, asc "bool"), (100, asc "double"), (105, asc "int"),
   (115, asc "string")]

/-- Letters and the names of their types. -/
inductive Types : Bytes → List Bytes → Prop
  | nil : Types [] []
  | cons (c t s ts) : (c, t) ∈ letters → Types s ts → Types (c :: s) (t :: ts)

/-- One signature: the letter of the result, a colon, the letters of the parameters. -/
inductive Part : Bytes → List Bytes → Prop
  | mk (c t s ts) : (c, t) ∈ letters → Types s ts → Part (c :: 58 :: s) (t :: ts)

/-- One or more of them, separated by commas. -/
inductive Signatures : Bytes → List (List Bytes) → Prop
  | one (s ts) : Part s ts → Signatures s [ts]
  | more (s ts rest ps) : Part s ts → Signatures rest ps → Signatures (s ++ 44 :: rest) (ts :: ps)

/-- The same with a last one that is not finished: nothing at all or the letter of a result. -/
inductive Unfinished : Bytes → List (List Bytes) → Prop
  | nothing : Unfinished [] [[]]
  | result (c t) : (c, t) ∈ letters → Unfinished [c] [[t]]
  | more (s ts rest ps) : Part s ts → Unfinished rest ps → Unfinished (s ++ 44 :: rest) (ts :: ps)

/-- A signature as it is given to `register`, and what is kept: a `str` is in the notation above, nothing is the empty tuple, any other
object is kept. (The notation may be unfinished, see `C109_violated`.) -/
inductive SignatureGiven : Option Py → Py → Prop
  | missing : SignatureGiven none (.tuple [])
  | text (s ps) : Signatures s ps ∨ Unfinished s ps → SignatureGiven (some (.str s)) (.list (ps.map (fun p => .list (p.map .str))))
  | object (p) : (∀ s, p ≠ .str s) → p ≠ .surrogates → SignatureGiven (some p) p

/-- A registration that is accepted, and what it registers: the name is a string without NUL, the method can be called, the help is `bytes`. -/
structure Accepted {σ : Type} (a : RegisterArgs σ) (name : Bytes) (m : Method σ) : Prop where
  isName : a.name = .str name
  noNul : (0 : UInt8) ∉ name
  method : ∃ f, a.method = some f ∧ m.callback = .user f
  doc : (a.doc = none ∧ m.help = .str []) ∨ (∃ s, a.doc = some (.bytes s) ∧ m.help = .bytes s)
  signature : SignatureGiven a.signature m.signature
  context : m.context = a.context
  names : m.names = a.names
  pos : m.pos = a.pos

/-- `m` is what was registered last under `name`, after the registry `r` was made. -/
def Latest {σ : Type} (ops : List (Op σ)) (name : Bytes) (m : Method σ) : Prop :=
  ∃ before a later, ops = before ++ .method a :: later ∧ Accepted a name m ∧ ∀ a' m', Op.method a' ∈ later → ¬ Accepted a' name m'

/-- Nothing was registered under `name`. -/
def Unregistered {σ : Type} (ops : List (Op σ)) (name : Bytes) : Prop := ∀ a m, Op.method a ∈ ops → ¬ Accepted a name m

/-- What the caller of a method is given for what the method did: its result; a fault it raised; for any other exception the fault -500
with a text that says where and what. -/
inductive Gives (what : Bytes) : Except Exc Py → Py → Prop
  | value (v) : Gives what (.ok v) v
  | fault (v) : Gives what (.error (.fault v)) v
  | other (t) : Gives what (.error (.other (some t))) (.fault (-500) (what ++ t))

/-- What the postprocessor is told of the outcome of a call: `result`, `fault`, `exc`. -/
inductive Told : Except Exc Py → Option Py → Option Py → Option Exc → Prop
  | result (v) : (∀ c m, v ≠ .fault c m) → Told (.ok v) (some v) none none
  | fault (c m) : Told (.ok (.fault c m)) none (some (.fault c m)) none
  | raisedFault (v) : Told (.error (.fault v)) none (some v) none
  | raised (t) : Told (.error (.other t)) none none (some (.other t))

/-- The end of a call, after the method did `o` and left the state `s`: without a postprocessor the outcome is the answer; a postprocessor is
called with the arguments `args` and what the method did, once; what it returns is the answer, unless it is `None`. -/
inductive Finished {σ : Type} (post : Option (σ → List Py → Option Py → Option Py → Option Exc → Except Exc Py × σ)) (args : List Py) (o : Except Exc Py) (s : σ) :
    Py → σ → Prop
  | plain (v) : post = none → Gives (asc "Unhandled exception ") o v → Finished post args o s v s
  | silent (g r f e s' v) : post = some g → Told o r f e → g s args r f e = (.ok .none, s') → Gives (asc "Unhandled exception ") o v → Finished post args o s v s'
  | replaced (g r f e s' v) : post = some g → Told o r f e → g s args r f e = (.ok v, s') → v ≠ .none → Finished post args o s v s'
  | failed (g r f e s' x v) : post = some g → Told o r f e → g s args r f e = (.error x, s') → Gives (asc "Unhandled exception in postprocessor ") (.error x) v →
      Finished post args o s v s'

/-- The preprocessor, if there is one, lets the call through and leaves the state `s'`. The method's `names` and `pos` are passed on if it has them. -/
inductive Passed {σ : Type} (pre : Option (Fn σ)) (args : List Py) (s : σ) : σ → Prop
  | none : pre = none → Passed pre args s s
  | some (p v s') : pre = some p → p s args = (.ok v, s') → Passed pre args s s'

/-- The arguments of the preprocessor. -/
def preArgs {σ : Type} (m : Option (Method σ)) (name : Bytes) (ip : Py) (xs : List Py) : List Py :=
  match m with
  | some ⟨_, _, _, _, some ns, pos⟩ => [.str name, ip, .tuple xs, ns, .int pos]
  | _ => [.str name, ip, .tuple xs]

/-- The value of a key of a dictionary. -/
def Item (ms : List (Key × Py)) (k : Bytes) (v : Py) : Prop := ∃ a b, ms = a ++ (.str k, v) :: b ∧ ∀ m ∈ a, m.1 ≠ .str k

/-- A dictionary without it. -/
def NoItem (ms : List (Key × Py)) (k : Bytes) : Prop := ∀ m ∈ ms, m.1 ≠ .str k

/-- An object that is a call in a multicall: a dictionary with a name and an array of arguments. -/
def IsCall (x : Py) (name : Bytes) (args : List Py) : Prop :=
  ∃ ms, x = .dict ms ∧ Item ms (asc "methodName") (.str name) ∧ (Item ms (asc "params") (.list args) ∨ Item ms (asc "params") (.tuple args))

/-- An object that is not, and what is wrong with it: not a dictionary, or without arguments, or with arguments that are no array, or without a name. -/
inductive Malformed : Py → Bytes → Prop
  | object (x) : (∀ ms, x ≠ .dict ms) → Malformed x (asc "Expected structure with method call.")
  | noParams (ms) : NoItem ms (asc "params") → Malformed (.dict ms) (asc "Cannot get params.")
  | noArray (ms p) : Item ms (asc "params") p → (∀ l, p ≠ .list l) → (∀ l, p ≠ .tuple l) → Malformed (.dict ms) (asc "Params must be an array.")
  | noName (ms p l) : Item ms (asc "params") p → p = .list l ∨ p = .tuple l → NoItem ms (asc "methodName") → Malformed (.dict ms) (asc "Cannot get methodName.")

/-- A fault in the answer of a multicall. -/
def faultItem (c : Int) (m : Bytes) : Py := .dict [(.str (asc "faultCode"), .int c), (.str (asc "faultString"), .str m)]

/-- What stands for the outcome of a call in the answer of a multicall: a fault is a struct. -/
inductive Stands : Py → Py → Prop
  | fault (c m) : Stands (.fault c m) (faultItem c m)
  | value (v) : (∀ c m, v ≠ .fault c m) → Stands v v

/-- Calls one after the other, each in the state that the one before left; `run` is a call on its own. What is no call is answered with the
fault -501 in its place, and changes nothing. -/
inductive OneByOne {σ : Type} (run : World σ → Bytes → List Py → Py → World σ → Prop) : World σ → List Py → List Py → World σ → Prop
  | nil (w) : OneByOne run w [] [] w
  | call (w w' w'' x name args v r xs rs) : IsCall x name args → (0 : UInt8) ∉ name → run w name args v w' → Stands v r → OneByOne run w' xs rs w'' →
      OneByOne run w (x :: xs) (r :: rs) w''
  | malformed (w w' x text xs rs) : Malformed x text → OneByOne run w xs rs w' → OneByOne run w (x :: xs) (faultItem (-501) text :: rs) w'

end PyServer
end Spec
end Frpc
