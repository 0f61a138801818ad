import Verif.Model.Python
/-!
# Specification: Python objects and the values they stand for

Only the types of the two sides and UTF-8 are used: which value of the protocol a Python object stands for, which Python object a value
becomes, and what comes back of an object that is sent and received.
-/
namespace Frpc
namespace Spec
namespace Python
open Frpc.Python (Py Key)

mutual
/-- The value a Python object stands for; none if there is none. Integers are 64-bit, names of members are texts. -/
def means : Py → Option Value
  | .none => some .null
  | .bool b | .boolean b => some (.bool b)
  | .int n => if -(2 : Int) ^ 63 ≤ n ∧ n < 2 ^ 63 then some (.int n) else .none
  | .float x => some (.double x)
  | .str s => some (.string s)
  | .bytes s => some (.binary s)
  | .dateTime d => some (.dateTime d)
  | .list xs | .tuple xs => (meansItems xs).map .array
  | .dict ms => (meansMembers ms).map .struct
  | .surrogates | .native .. | .fault .. | .other => .none
/-- For the elements. -/
def meansItems : List Py → Option (List Value)
  | [] => some []
  | x :: xs =>
    match means x, meansItems xs with
    | some v, some vs => some (v :: vs)
    | _, _ => .none
/-- For the members. -/
def meansMembers : List (Key × Py) → Option (List (Bytes × Value))
  | [] => some []
  | (.str k, x) :: ms =>
    match means x, meansMembers ms with
    | some v, some vs => some ((k, v) :: vs)
    | _, _ => .none
  | (.surrogates, _) :: _ | (.other, _) :: _ => .none
end

mutual
/-- The Python object stands for the value, a struct being sorted by its names. -/
def Stands : Py → Value → Prop
  | .none, v => v = .null
  | .bool b, v => v = .bool b
  | .boolean b, v => v = .bool b
  | .int n, v => v = .int n
  | .float x, v => v = .double x
  | .str s, v => v = .string s
  | .bytes s, v => v = .binary s
  | .dateTime d, v => v = .dateTime d
  | .list xs, v => ∃ vs, v = .array vs ∧ StandsItems xs vs
  | .tuple xs, v => ∃ vs, v = .array vs ∧ StandsItems xs vs
  | .dict ms, v => ∃ ns, v = .struct ns ∧ ns.Pairwise (fun a b => keyLt a.1 b.1 = true) ∧ StandsMembers ms ns
  | .surrogates, _ => False
  | .native .., _ => False
  | .fault .., _ => False
  | .other, _ => False
/-- For the elements, in order. -/
def StandsItems : List Py → List Value → Prop
  | [], vs => vs = []
  | x :: xs, vs => ∃ w ws, vs = w :: ws ∧ Stands x w ∧ StandsItems xs ws
/-- For the members, in any order. -/
def StandsMembers : List (Key × Py) → List (Bytes × Value) → Prop
  | [], ms => ms = []
  | (.str k, x) :: xs, ms => ∃ w ws, ms.Perm ((k, w) :: ws) ∧ Stands x w ∧ StandsMembers xs ws
  | (.surrogates, _) :: _, _ => False
  | (.other, _) :: _, _ => False
end

mutual
/-- The Python object for a value. -/
def shows : Value → Py
  | .null => .none
  | .bool b => .bool b
  | .int n => .int n
  | .double x => .float x
  | .string s | .stringView s => .str s
  | .binary s => .bytes s
  | .binaryRef cs => .bytes cs.flatten
  | .dateTime d => .dateTime d
  | .array vs => .list (showsItems vs)
  | .struct ms => .dict (showsMembers ms)
  | .secret v => shows v
/-- For the elements. -/
def showsItems : List Value → List Py
  | [] => []
  | v :: vs => shows v :: showsItems vs
/-- For the members. -/
def showsMembers : List (Bytes × Value) → List (Key × Py)
  | [] => []
  | (k, v) :: ms => (.str k, shows v) :: showsMembers ms
end

mutual
/-- What should come back of an object that is sent and received: tuples are lists, `Boolean`s are `bool`s, the rest is as it was. -/
def back : Py → Py
  | .boolean b => .bool b
  | .list xs | .tuple xs => .list (backItems xs)
  | .dict ms => .dict (backMembers ms)
  | x => x
/-- For the elements. -/
def backItems : List Py → List Py
  | [] => []
  | x :: xs => back x :: backItems xs
/-- For the members. -/
def backMembers : List (Key × Py) → List (Key × Py)
  | [] => []
  | (k, x) :: ms => (k, back x) :: backMembers ms
end

mutual
/-- What every Python object satisfies: texts are well-formed, the keys of a `dict` are different, time stamps are 64-bit. -/
def Proper : Py → Prop
  | .str s => isUtf8 s = true
  | .dateTime d => IsI64 d.unixTime
  | .list xs | .tuple xs => ProperItems xs
  | .dict ms => (ms.map Prod.fst).Nodup ∧ ProperMembers ms
  | _ => True
/-- For the elements. -/
def ProperItems : List Py → Prop
  | [] => True
  | x :: xs => Proper x ∧ ProperItems xs
/-- For the members. -/
def ProperMembers : List (Key × Py) → Prop
  | [] => True
  | (k, x) :: ms => (∀ s, k = .str s → isUtf8 s = true) ∧ Proper x ∧ ProperMembers ms
end

mutual
/-- Every text, `bytes`, name, list, tuple and `dict` has fewer than `2^30` bytes or items. -/
def Small : Py → Prop
  | .str s | .bytes s => s.length < 2 ^ 30
  | .list xs | .tuple xs => xs.length < 2 ^ 30 ∧ SmallItems xs
  | .dict ms => ms.length < 2 ^ 30 ∧ SmallMembers ms
  | _ => True
/-- For the elements. -/
def SmallItems : List Py → Prop
  | [] => True
  | x :: xs => Small x ∧ SmallItems xs
/-- For the members. -/
def SmallMembers : List (Key × Py) → Prop
  | [] => True
  | (k, x) :: ms => (∀ s, k = .str s → s.length < 2 ^ 30) ∧ Small x ∧ SmallMembers ms
end

/-- What is asked of the integers, the `fastrpc.DateTime`s and the keys of an object, and whether `datetime.datetime`s may be in it. -/
structure Need where
  int : Int → Prop
  date : DateTime → Prop
  key : Bytes → Prop
  native : Prop

mutual
/-- All are so. -/
def Each (N : Need) : Py → Prop
  | .int n => N.int n
  | .dateTime d => N.date d
  | .native .. => N.native
  | .list xs | .tuple xs => EachItems N xs
  | .dict ms => EachMembers N ms
  | _ => True
/-- For the elements. -/
def EachItems (N : Need) : List Py → Prop
  | [] => True
  | x :: xs => Each N x ∧ EachItems N xs
/-- For the members. -/
def EachMembers (N : Need) : List (Key × Py) → Prop
  | [] => True
  | (k, x) :: ms => (∀ s, k = .str s → N.key s) ∧ Each N x ∧ EachMembers N ms
end

mutual
/-- Python can hold the value: texts and names are well-formed UTF-8, no name has a NUL in it, no two members of a struct have one name. -/
def Loadable : Value → Prop
  | .string s | .stringView s => isUtf8 s = true
  | .array vs => LoadableItems vs
  | .struct ms => (ms.map Prod.fst).Nodup ∧ LoadableMembers ms
  | .secret v => Loadable v
  | _ => True
/-- For the elements. -/
def LoadableItems : List Value → Prop
  | [] => True
  | v :: vs => Loadable v ∧ LoadableItems vs
/-- For the members. -/
def LoadableMembers : List (Bytes × Value) → Prop
  | [] => True
  | (k, v) :: ms => (isUtf8 k = true ∧ (0 : UInt8) ∉ k) ∧ Loadable v ∧ LoadableMembers ms
end

end Python
end Spec
end Frpc
