import Verif.Model.Value
/-!
# `Struct_t` (`src/frpcstruct.cc`): a `std::map<std::string, Value_t*>`

Modelled as the in-order list of members.  Generic in the value type.
-/
namespace Frpc

/-- `std::string::operator<` (bytewise lexicographic, `unsigned char` order). -/
def keyLt : Bytes → Bytes → Bool
  | _, [] => false
  | [], _ :: _ => true
  | a :: as, b :: bs => if a.toNat < b.toNat then true else if b.toNat < a.toNat then false else keyLt as bs

namespace SMap
variable {α : Type _}

/-- `structData.find(key)` as used by `get`, `has_key`, `operator[]`
(`src/frpcstruct.cc:67-69,134-190`). -/
def find? (k : Bytes) : List (Bytes × α) → Option α
  | [] => none
  | (k', v) :: ms => if k = k' then some v else find? k ms

/-- `structData.insert(pair)`: new map and whether insertion happened; an
existing key keeps its value (`src/frpcstruct.cc:71-80`). -/
def insert (k : Bytes) (v : α) : List (Bytes × α) → List (Bytes × α) × Bool
  | [] => ([(k, v)], true)
  | (k', v') :: ms =>
    if keyLt k k' then ((k, v) :: (k', v') :: ms, true)
    else if k = k' then ((k', v') :: ms, false)
    else let r := insert k v ms; ((k', v') :: r.1, r.2)

/-- `res.first->second = value` on the existing entry. -/
def assign (k : Bytes) (v : α) : List (Bytes × α) → List (Bytes × α)
  | [] => []
  | (k', v') :: ms => if k = k' then (k', v) :: ms else (k', v') :: assign k v ms

/-- `append(pair)` (`src/frpcstruct.cc:111-117`): insert, else overwrite. -/
def append (k : Bytes) (v : α) (ms : List (Bytes × α)) : List (Bytes × α) :=
  let r := insert k v ms
  if r.2 then r.1 else assign k v r.1

/-- `append(key, value)` (`src/frpcstruct.cc:119-132`) with the name length check. -/
def appendChecked (k : Bytes) (v : α) (ms : List (Bytes × α)) : Except Err (List (Bytes × α)) :=
  if k.length > 255 then .error .len else .ok (append k v ms)

/-- `erase(key)` (`src/frpcstruct.cc:197-199`): new map and number erased. -/
def erase (k : Bytes) : List (Bytes × α) → List (Bytes × α) × Nat
  | [] => ([], 0)
  | (k', v') :: ms => if k = k' then (ms, 1) else let r := erase k ms; ((k', v') :: r.1, r.2)

/-- `has_key` (`src/frpcstruct.cc:67-69`). -/
def hasKey (k : Bytes) (ms : List (Bytes × α)) : Bool := (find? k ms).isSome

/-- `get(key, defaultValue)` (`src/frpcstruct.cc:153-172`). -/
def getD (k : Bytes) (d : α) (ms : List (Bytes × α)) : α :=
  match find? k ms with
  | none => d
  | some v => v

/-- `operator[]` (`src/frpcstruct.cc:174-190`). -/
def index (k : Bytes) (ms : List (Bytes × α)) : Except Err α :=
  match find? k ms with
  | none => .error .key
  | some v => .ok v

/-- What the caller sees of one call. -/
inductive Outcome where
  | done
  | lenError
  | inserted (b : Bool)
  | erased (n : Nat)
deriving DecidableEq, Repr

/-- A call that changes a struct. -/
inductive Op (α : Type _) where
  | append (k : Bytes) (v : α)
  | insert (k : Bytes) (v : α)
  | erase (k : Bytes)
  | clear

/-- One mutating call (`src/frpcstruct.cc:71-80,111-132,192-199`). -/
def step (ms : List (Bytes × α)) : Op α → List (Bytes × α) × Outcome
  | .append k v =>
    match appendChecked k v ms with
    | .ok ms' => (ms', .done)
    | .error _ => (ms, .lenError)
  | .insert k v => let r := insert k v ms; (r.1, .inserted r.2)
  | .erase k => let r := erase k ms; (r.1, .erased r.2)
  | .clear => ([], .done)

/-- A history of calls. -/
def history (ms : List (Bytes × α)) : List (Op α) → List (Bytes × α) × List Outcome
  | [] => (ms, [])
  | op :: ops =>
    let r := step ms op
    let q := history r.1 ops
    (q.1, r.2 :: q.2)

end SMap
end Frpc
