import Verif.Model.Compare
/-!
# `Array_t` (`src/frpcarray.cc`): a bounds-checked `std::vector<Value_t*>`

Modelled as the list of elements; capacity and `reserve` are not modelled.
-/
namespace Frpc
namespace Arr
variable {α : Type _}

/-- `push_back` / `append` (`src/frpcarray.cc:117-127`). -/
def append (vs : List α) (v : α) : List α := vs ++ [v]

/-- `replace` (`src/frpcarray.cc:129-136`). -/
def replace (vs : List α) (i : Nat) (v : α) : Except Err (List α) :=
  if i ≥ vs.length then .error .index else .ok (vs.set i v)

/-- `operator[]` (`src/frpcarray.cc:143-159`); the access after the check cannot fail. -/
def index (vs : List α) (i : Nat) : Except Err α :=
  if i ≥ vs.length then .error .index
  else match vs[i]? with
    | some v => .ok v
    | none => .error .ub

/-- `clear` (`src/frpcarray.cc:102-105`). -/
def clear (_ : List α) : List α := []

/-- A call that changes an array. -/
inductive Op (α : Type _) where
  | append (v : α)
  | replace (i : Nat) (v : α)
  | clear

/-- One mutating call and whether it threw `IndexError_t` (the array is then unchanged). -/
def step (vs : List α) : Op α → List α × Bool
  | .append v => (append vs v, false)
  | .replace i v =>
    match replace vs i v with
    | .ok vs' => (vs', false)
    | .error _ => (vs, true)
  | .clear => (clear vs, false)

/-- A history of calls. -/
def history (vs : List α) : List (Op α) → List α × List Bool
  | [] => (vs, [])
  | op :: ops =>
    let r := step vs op
    let q := history r.1 ops
    (q.1, r.2 :: q.2)

/-- The `switch` of `checkItems` (`src/frpcarray.cc:184-234`): the type wanted by a letter; other
characters accept every type. -/
def wanted (c : UInt8) : Option Nat :=
  if c = 105 then some 0x01        -- 'i'
  else if c = 115 then some 0x04   -- 's'
  else if c = 100 then some 0x03   -- 'd'
  else if c = 98 then some 0x02    -- 'b'
  else if c = 68 then some 0x05    -- 'D'
  else if c = 66 then some 0x06    -- 'B'
  else if c = 83 then some 0x0A    -- 'S'
  else if c = 65 then some 0x0B    -- 'A'
  else none

/-- The loop over the elements (`src/frpcarray.cc:176-237`).  `items[items.size()]` is the
terminating NUL; reading beyond it is undefined.  `itemNum` is an `unsigned int`, taken as
unbounded (formats are shorter than `2^32`). -/
def checkLoop (items : Bytes) : Nat → List Value → Except Err Unit
  | _, [] => .ok ()
  | n, v :: vs =>
    let canBeNull := decide (n < items.length - 1) && (items[n + 1]? == some 63)
    if canBeNull && Compare.typeTag v == 0x0C then checkLoop items (n + 2) vs
    else
      let ch : Option UInt8 := if n = items.length then some 0 else items[n]?
      match ch with
      | none => .error .ub
      | some c =>
        match wanted c with
        | some t => if Compare.typeTag v ≠ t then .error .type
                    else checkLoop items (n + if canBeNull then 2 else 1) vs
        | none => checkLoop items (n + if canBeNull then 2 else 1) vs

/-- `checkItems` (`src/frpcarray.cc:161-238`). -/
def checkItems (items : Bytes) (vs : List Value) : Except Err Unit :=
  if vs.length ≠ (items.filter (· ≠ 63)).length then .error .len
  else checkLoop items 0 vs

end Arr
end Frpc
