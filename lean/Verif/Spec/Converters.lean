import Verif.Model.Converters
/-!
# What a native container is as a value, for C123

`Wanted` is not made of the model's loops: an array has the values of the items, one by one; a struct has, under every name, the value of the first item of that name.
-/
namespace Frpc
namespace Spec
namespace Converters
open Frpc.Converters (Cnvt Native Env)

/-- One by one. -/
def Each {A B : Type} (R : A → B → Prop) : List A → List B → Prop
  | [], [] => True
  | x :: xs, y :: ys => R x y ∧ Each R xs ys
  | _, _ => False

/-- The first item of that name. -/
def First {A : Type} (k : Bytes) (x : A) (xs : List (Bytes × A)) : Prop := ∃ before after, xs = before ++ (k, x) :: after ∧ ∀ e ∈ before, e.1 ≠ k

/-- The value that should come of the data. Of a wide string it is known only that it has a byte at least for each of its characters. -/
def Wanted (E : Env) : (c : Cnvt) → Native c → Value → Prop
  | .int, n, v => v = .int n
  | .double, x, v => v = .double x
  | .string, s, v => v = .string s
  | .wstring, s, v => ∃ t, v = .string t ∧ s.length ≤ t.length
  | .bool, b, v => v = .bool b
  | .binary, s, v => v = .binary s
  | .dateTime, s, v => ∃ d, DateTimeMake.ofIso E.L s = .ok d ∧ v = .dateTime d
  | .localTime, t, v => v = .dateTime (DateTimeMake.localTime E.L t)
  | .utcTime, t, v => v = .dateTime (DateTimeMake.utcStamp E.L t)
  | .array c, xs, v => ∃ vs, v = .array vs ∧ Each (Wanted E c) xs vs
  | .map c, xs, v => ∃ ms, v = .struct ms ∧ ms.Pairwise (fun a b => a.1 ≠ b.1) ∧ (∀ k w, (k, w) ∈ ms → ∃ x, First k x xs ∧ Wanted E c x w) ∧ ∀ k x, (k, x) ∈ xs → ∃ w, (k, w) ∈ ms

/-- Every text is valid and every date-time is in the format. -/
def Convertible (E : Env) : (c : Cnvt) → Native c → Prop
  | .string, s => E.strOk s = true
  | .dateTime, s => ∃ d, DateTimeMake.ofIso E.L s = .ok d
  | .array c, xs => ∀ x ∈ xs, Convertible E c x
  | .map c, xs => ∀ x ∈ xs, Convertible E c x.2
  | _, _ => True

/-- No wide strings. -/
def Narrow : Cnvt → Prop
  | .wstring => False
  | .array c => Narrow c
  | .map c => Narrow c
  | _ => True

end Converters
end Spec
end Frpc
