import Verif.Model.Struct
/-!
# Comparison of values (`src/frpccompare.cc`)
-/
namespace Frpc
namespace Compare

/-- `getType()`: the type tags (`src/frpcvalue.h:49-62`). -/
def typeTag : Value → Nat
  | .int _ => 0x01
  | .bool _ => 0x02
  | .double _ => 0x03
  | .string _ => 0x04
  | .dateTime _ => 0x05
  | .binary _ => 0x06
  | .struct _ => 0x0A
  | .array _ => 0x0B
  | .null => 0x0C
  | .binaryRef _ => 0x0D
  | .stringView _ => 0x0E
  | .secret _ => 0x3E

/-- `compareValue` (`src/frpccompare.cc:97-109`): `-1`, `1` or `0` from the operator `<` of the
compared type. -/
def byLess {α : Type} (less : α → α → Bool) (x y : α) : Int :=
  if less x y then -1 else if less y x then 1 else 0

/-- The bit pattern is a NaN (IEEE 754 binary64). -/
def isNaN (b : BitVec 64) : Bool := decide (b.toNat % 2 ^ 63 > 0x7FF0000000000000)

/-- Position of a non-NaN bit pattern on the number line (IEEE 754 binary64 is sign and magnitude). -/
def dblKey (b : BitVec 64) : Int :=
  if b.toNat < 2 ^ 63 then (b.toNat : Int) else -((b.toNat : Int) - 2 ^ 63)

/-- The built-in `<` on doubles, on bit patterns: false if an operand is a NaN; `-0 < +0` is false. -/
def dblLess (x y : BitVec 64) : Bool := !isNaN x && !isNaN y && decide (dblKey x < dblKey y)

mutual
/-- `compare(const Value_t&, const Value_t&)` (`src/frpccompare.cc:156-184`); `DateTime_t` by
`getUnixTime` (`:111-119`).  `std::runtime_error` is `Err.other`. -/
def compare (l r : Value) : Except Err Int :=
  let t := byLess (fun a b : Nat => decide (a < b)) (typeTag l) (typeTag r)
  if t ≠ 0 then .ok t
  else match l, r with
  | .bool x, .bool y => .ok (byLess (fun a b : Bool => !a && b) x y)
  | .int x, .int y => .ok (byLess (fun a b : Int => decide (a < b)) x y)
  | .double x, .double y => .ok (byLess dblLess x y)
  | .string x, .string y => .ok (byLess keyLt x y)
  | .binary x, .binary y => .ok (byLess keyLt x y)
  | .dateTime x, .dateTime y => .ok (byLess (fun a b : Int => decide (a < b)) x.unixTime y.unixTime)
  | .struct x, .struct y => compareMembers x y
  | .array x, .array y => compareItems x y
  | .null, .null => .ok 0
  | _, _ => .error .other
/-- `compare(const Struct_t&, const Struct_t&)` (`src/frpccompare.cc:121-138`).
`std::string::compare` is taken as its sign. -/
def compareMembers : List (Bytes × Value) → List (Bytes × Value) → Except Err Int
  | (k, v) :: ms, (k', v') :: ms' =>
    let c := byLess keyLt k k'
    if c ≠ 0 then .ok c
    else do
      let r ← compare v v'
      if r ≠ 0 then return r else compareMembers ms ms'
  | _ :: _, [] => .ok 1
  | [], _ :: _ => .ok (-1)
  | [], [] => .ok 0
/-- `compare(const Array_t&, const Array_t&)` (`src/frpccompare.cc:140-154`). -/
def compareItems : List Value → List Value → Except Err Int
  | v :: vs, v' :: vs' => do
      let r ← compare v v'
      if r ≠ 0 then return r else compareItems vs vs'
  | _ :: _, [] => .ok 1
  | [], _ :: _ => .ok (-1)
  | [], [] => .ok 0
end

/-- `operator==` (`src/frpccompare.cc:43-45`). -/
def opEq (l r : Value) : Except Err Bool := do return (← compare l r) == 0
/-- `operator!=` (`src/frpccompare.cc:53-55`). -/
def opNe (l r : Value) : Except Err Bool := do return (← compare l r) != 0
/-- `operator<` (`src/frpccompare.cc:63-65`). -/
def opLt (l r : Value) : Except Err Bool := do return decide ((← compare l r) < 0)
/-- `operator>` (`src/frpccompare.cc:73-75`). -/
def opGt (l r : Value) : Except Err Bool := do return decide ((← compare l r) > 0)
/-- `operator<=` (`src/frpccompare.cc:83-85`). -/
def opLe (l r : Value) : Except Err Bool := do return decide ((← compare l r) ≤ 0)
/-- `operator>=` (`src/frpccompare.cc:93-95`). -/
def opGe (l r : Value) : Except Err Bool := do return decide ((← compare l r) ≥ 0)

end Compare
end Frpc
