import Verif.Basic.Ascii
import Verif.Model.Value
/-!
# `HTTPHeader_t` (`src/frpchttp.cc:48-184`)

The field list in order of insertion. `unsigned int current` is a natural number: a header with
2^32 fields of one name is out of scope. `isalnum`, `tolower`, `toupper` are those of the C locale.
-/
namespace Frpc
namespace HttpHeader

/-- Loop of `polishName` (`src/frpchttp.cc:51-68`); the flag says whether the previous character
exists and is alphanumeric. -/
def polishLoop : Bool → Bytes → Bytes
  | _, [] => []
  | prev, c :: s => (if isAlnum c then (if prev then toLower c else toUpper c) else c) :: polishLoop (isAlnum c) s

/-- `polishName`. -/
def polishName (name : Bytes) : Bytes := polishLoop false name

/-- The stored fields. -/
abbrev Fields := List (Bytes × Bytes)

/-- Loop of `get` (`src/frpchttp.cc:72-91,93-104`). -/
def getLoop (name : Bytes) (index : Nat) : Nat → Fields → Option Bytes
  | _, [] => none
  | current, (n, v) :: h =>
    if name = n then if index = current then some v else getLoop name index (current + 1) h
    else getLoop name index current h

/-- `get`. -/
def get (h : Fields) (name : Bytes) (index : Nat) : Option Bytes := getLoop (polishName name) index 0 h

/-- Loop of `getList` (`src/frpchttp.cc:106-118`). -/
def getListLoop (name : Bytes) : Fields → List Bytes
  | [] => []
  | (n, v) :: h => if name = n then v :: getListLoop name h else getListLoop name h

/-- `getList`. -/
def getList (h : Fields) (name : Bytes) : List Bytes := getListLoop (polishName name) h

/-- Loop of `set` (`src/frpchttp.cc:120-141`): `none` when the loop ends without a match. -/
def setLoop (name value : Bytes) (index : Nat) : Nat → Fields → Option Fields
  | _, [] => none
  | current, (n, v) :: h =>
    if name = n then
      if index = current then some ((n, value) :: h)
      else (setLoop name value index (current + 1) h).map ((n, v) :: ·)
    else (setLoop name value index current h).map ((n, v) :: ·)

/-- `set` (`src/frpchttp.cc:120-141`). -/
def set (h : Fields) (name value : Bytes) (create : Bool) (index : Nat) : Fields :=
  match setLoop (polishName name) value index 0 h with
  | some h' => h'
  | none => if create then h ++ [(polishName name, value)] else h

/-- `add` (`src/frpchttp.cc:143-147`). -/
def add (h : Fields) (name value : Bytes) : Fields := h ++ [(polishName name, value)]

/-- Loop of `remove` (`src/frpchttp.cc:149-167`). -/
def removeLoop (name : Bytes) (index : Nat) : Nat → Fields → Option Fields
  | _, [] => none
  | current, (n, v) :: h =>
    if name = n then
      if index = current then some h else (removeLoop name index (current + 1) h).map ((n, v) :: ·)
    else (removeLoop name index current h).map ((n, v) :: ·)

/-- `remove`: new fields and the result, 0 or -1. -/
def remove (h : Fields) (name : Bytes) (index : Nat) : Fields × Int :=
  match removeLoop (polishName name) index 0 h with
  | some h' => (h', 0)
  | none => (h, -1)

/-- `appendValue` (`src/frpchttp.cc:169-174`). -/
def appendValue (h : Fields) (value : Bytes) : Except Err Fields :=
  match h.getLast? with
  | none => .error .http
  | some (n, v) => .ok (h.dropLast ++ [(n, v ++ value)])

/-- `operator<<` (`src/frpchttp.cc:176-184`). -/
def render (h : Fields) : Bytes := h.flatMap (fun f => f.1 ++ asc ": " ++ f.2 ++ asc "\r\n")

/-- A call changing the header. -/
inductive Op where
  | add (name value : Bytes)
  | set (name value : Bytes) (create : Bool) (index : Nat)
  | remove (name : Bytes) (index : Nat)

/-- One call. -/
def step (h : Fields) : Op → Fields
  | .add n v => add h n v
  | .set n v c i => set h n v c i
  | .remove n i => (remove h n i).1

/-- A history from the empty header. -/
def history (ops : List Op) : Fields := ops.foldl step []

end HttpHeader
end Frpc
