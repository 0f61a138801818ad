import Verif.Model.Python
import Verif.Model.IsoDate
import Verif.Spec.Utf8
/-!
# Specification: the text of a Python object for logs
-/
namespace Frpc
namespace Spec.PyDump
open Python (Py Key)

/-- The objects differ only in values of `dict`s under one of the names, at any depth, and in items of the top list or tuple at one of the positions. -/
inductive AlikeBut (names : List Bytes) : (Nat → Prop) → Py → Py → Prop
  | same (pos : Nat → Prop) (v : Py) : AlikeBut names pos v v
  | list (pos : Nat → Prop) (vs ws : List Py) (hl : vs.length = ws.length)
      (h : ∀ (i : Nat) v w, vs[i]? = some v → ws[i]? = some w → ¬ pos i → AlikeBut names (fun _ => False) v w) : AlikeBut names pos (.list vs) (.list ws)
  | tuple (pos : Nat → Prop) (vs ws : List Py) (hl : vs.length = ws.length)
      (h : ∀ (i : Nat) v w, vs[i]? = some v → ws[i]? = some w → ¬ pos i → AlikeBut names (fun _ => False) v w) : AlikeBut names pos (.tuple vs) (.tuple ws)
  | dict (pos : Nat → Prop) (ms ns : List (Key × Py)) (hk : ms.map (·.1) = ns.map (·.1))
      (h : ∀ (i : Nat) k v w, ms[i]? = some (k, v) → ns[i]? = some (k, w) → (∀ s ∈ names, k ≠ .str s) → AlikeBut names (fun _ => False) v w) :
      AlikeBut names pos (.dict ms) (.dict ns)

/-- The objects differ only in what is inside containers that are more than `n` containers deep. -/
inductive AlikeTo : Nat → Py → Py → Prop
  | same (n : Nat) (v : Py) : AlikeTo n v v
  | list0 (vs ws : List Py) : AlikeTo 0 (.list vs) (.list ws)
  | tuple0 (vs ws : List Py) : AlikeTo 0 (.tuple vs) (.tuple ws)
  | dict0 (ms ns : List (Key × Py)) : AlikeTo 0 (.dict ms) (.dict ns)
  | list (n : Nat) (vs ws : List Py) (hl : vs.length = ws.length)
      (h : ∀ (i : Nat) v w, vs[i]? = some v → ws[i]? = some w → AlikeTo n v w) : AlikeTo (n + 1) (.list vs) (.list ws)
  | tuple (n : Nat) (vs ws : List Py) (hl : vs.length = ws.length)
      (h : ∀ (i : Nat) v w, vs[i]? = some v → ws[i]? = some w → AlikeTo n v w) : AlikeTo (n + 1) (.tuple vs) (.tuple ws)
  | dict (n : Nat) (ms ns : List (Key × Py)) (hk : ms.map (·.1) = ns.map (·.1))
      (h : ∀ (i : Nat) k v w, ms[i]? = some (k, v) → ns[i]? = some (k, w) → AlikeTo n v w) : AlikeTo (n + 1) (.dict ms) (.dict ns)

/-- The parts with a comma and a space between them. -/
def commas : List Bytes → Bytes
  | [] => []
  | [p] => p
  | p :: q :: ps => p ++ asc ", " ++ commas (q :: ps)

/-- A text in quotes: what is longer than nine bytes is cut to ten. -/
def quoted (s : Bytes) : Bytes := asc "\"" ++ (if s.length ≤ 9 then s else s.take 10 ++ asc "...") ++ asc "\""

/-- `Shows names dbl level pos v t`: the text `t` shows `v`. Containers deeper than the level (if there is one) are `(...)` and `{...}`; values under a hidden name, and items of the
top list at a hidden position, are `-hidden-`. -/
inductive Shows (names : List Bytes) (dbl : BitVec 64 → Bytes) : Int → (Nat → Prop) → Py → Bytes → Prop
  | bool (l pos) (b : Bool) : Shows names dbl l pos (.bool b) (if b then asc "true" else asc "false")
  | boolean (l pos) (b : Bool) : Shows names dbl l pos (.boolean b) (if b then asc "true" else asc "false")
  | int (l pos) (n : Int) (h : -(2 : Int) ^ 63 ≤ n ∧ n < 2 ^ 63) : Shows names dbl l pos (.int n) (decInt n)
  | float (l pos) (x : BitVec 64) : Shows names dbl l pos (.float x) (dbl x)
  | str (l pos) (s : Bytes) : Shows names dbl l pos (.str s) (quoted s)
  | dateTime (l pos) (d : DateTime) : Shows names dbl l pos (.dateTime d) (IsoDate.format d.year d.month d.day d.hour d.minute d.sec d.timeZone)
  | list0 (pos) (vs : List Py) : Shows names dbl 0 pos (.list vs) (asc "(...)")
  | tuple0 (pos) (vs : List Py) : Shows names dbl 0 pos (.tuple vs) (asc "(...)")
  | dict0 (pos) (ms : List (Key × Py)) : Shows names dbl 0 pos (.dict ms) (asc "{...}")
  | list (l pos) (hl : l ≠ 0) (vs : List Py) (ts : List Bytes) (hn : ts.length = vs.length)
      (hh : ∀ (i : Nat) t, ts[i]? = some t → pos i → t = asc "-hidden-")
      (h : ∀ (i : Nat) v t, vs[i]? = some v → ts[i]? = some t → ¬ pos i → Shows names dbl (l - 1) (fun _ => False) v t) :
      Shows names dbl l pos (.list vs) (asc "(" ++ commas ts ++ asc ")")
  | tuple (l pos) (hl : l ≠ 0) (vs : List Py) (ts : List Bytes) (hn : ts.length = vs.length)
      (hh : ∀ (i : Nat) t, ts[i]? = some t → pos i → t = asc "-hidden-")
      (h : ∀ (i : Nat) v t, vs[i]? = some v → ts[i]? = some t → ¬ pos i → Shows names dbl (l - 1) (fun _ => False) v t) :
      Shows names dbl l pos (.tuple vs) (asc "(" ++ commas ts ++ asc ")")
  | dict (l pos) (hl : l ≠ 0) (ms : List (Bytes × Py)) (ts : List Bytes) (hn : ts.length = ms.length) (h0 : ∀ m ∈ ms, (0 : UInt8) ∉ m.1)
      (hh : ∀ (i : Nat) m t, ms[i]? = some m → ts[i]? = some t → m.1 ∈ names → t = asc "-hidden-")
      (h : ∀ (i : Nat) m t, ms[i]? = some m → ts[i]? = some t → m.1 ∉ names → Shows names dbl (l - 1) (fun _ => False) m.2 t) :
      Shows names dbl l pos (.dict (ms.map fun m => (.str m.1, m.2))) (asc "{" ++ commas (List.zipWith (fun m t => quoted m.1 ++ asc ": " ++ t) ms ts) ++ asc "}")

/-- A text that stays UTF-8 when it is cut. -/
def Cut (s : Bytes) : Prop := isUtf8 (if s.length ≤ 9 then s else s.take 10) = true

mutual
/-- All the texts in the object are such. -/
def Whole : Py → Prop
  | .str s => Cut s
  | .list xs => WholeItems xs
  | .tuple xs => WholeItems xs
  | .dict ms => WholeMembers ms
  | _ => True
/-- Items. -/
def WholeItems : List Py → Prop
  | [] => True
  | x :: xs => Whole x ∧ WholeItems xs
/-- Members. -/
def WholeMembers : List (Key × Py) → Prop
  | [] => True
  | (k, x) :: ms => (∀ s, k = .str s → Cut s) ∧ Whole x ∧ WholeMembers ms
end

/-- What stands between the quotes `q` of a literal of bytes in Python, in printable ASCII, and the bytes that it stands for. -/
inductive Literal (q : UInt8) : Bytes → Bytes → Prop
  | nil : Literal q [] []
  | plain {t s : Bytes} (c : UInt8) (h : 32 ≤ c.toNat ∧ c.toNat ≤ 126) (hq : c ≠ q) (hb : c ≠ 92) (r : Literal q t s) : Literal q (c :: t) (c :: s)
  | itself {t s : Bytes} (c : UInt8) (h : c = 92 ∨ c = 39 ∨ c = 34) (r : Literal q t s) : Literal q (92 :: c :: t) (c :: s)
  | tab {t s : Bytes} (r : Literal q t s) : Literal q (92 :: 116 :: t) (9 :: s)
  | newline {t s : Bytes} (r : Literal q t s) : Literal q (92 :: 110 :: t) (10 :: s)
  | return {t s : Bytes} (r : Literal q t s) : Literal q (92 :: 114 :: t) (13 :: s)
  | hex {t s : Bytes} (a b : Nat) (ha : a < 16) (hb : b < 16) (r : Literal q t s) :
      Literal q (92 :: 120 :: (if a < 10 then UInt8.ofNat (48 + a) else UInt8.ofNat (87 + a)) :: (if b < 10 then UInt8.ofNat (48 + b) else UInt8.ofNat (87 + b)) :: t)
        (UInt8.ofNat (16 * a + b) :: s)

end Spec.PyDump
end Frpc
