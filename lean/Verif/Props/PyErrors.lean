import Verif.Model.PyErrors
/-! # C140: the exceptions of the Python module

A program makes `fastrpc.Fault(code, text[, method])`, `fastrpc.ProtocolError(code, text[, method])` and
`fastrpc.ResponseError(text[, method])`, reads and changes their members and prints them. -/
namespace Frpc
open PyErrors

/-- What the arguments have to be. -/
def PyErrors.Fits : Cls → List Obj → Prop
  | .responseError, [t] => t.kind = .str
  | .responseError, [t, _] => t.kind = .str
  | .responseError, _ => False
  | _, [n, t] => n.kind = .number ∧ t.kind = .str
  | _, [n, t, _] => n.kind = .number ∧ t.kind = .str
  | _, _ => False

/-- How many of them there can be. -/
def PyErrors.CountFits (c : Cls) (n : Nat) : Prop :=
  if c = .responseError then n = 1 ∨ n = 2 else n = 2 ∨ n = 3

/-- The member that an argument becomes. -/
def PyErrors.argOf (c : Cls) (args : List Obj) : Slot → Option Obj
  | .status => if c = .responseError then none else args[0]?
  | .message => if c = .responseError then args[0]? else args[1]?
  | .method => if c = .responseError then some (args[1]?.getD pyNone) else some (args[2]?.getD pyNone)

/-- The last thing a history of operations left in a member that began as `v`. -/
def PyErrors.lastIn (x : Slot) : Option Obj → List Op → Option Obj
  | v, [] => v
  | v, .set y o :: ops => if y = x then lastIn x (some o) ops else lastIn x v ops
  | v, .del y :: ops => if y = x then lastIn x none ops else lastIn x v ops
  | v, _ :: ops => lastIn x v ops

/-- How many of the three members are the object `i`. -/
def PyErrors.holds (i : Nat) (a b m : Option Obj) : Int :=
  (if (a.map Obj.id) = some i then 1 else 0) + (if (b.map Obj.id) = some i then 1 else 0) +
    (if (m.map Obj.id) = some i then 1 else 0)

namespace PyErrors

def five : Obj := ⟨5, .number, some (asc "5"), some (asc "5")⟩
def bad : Obj := ⟨6, .str, none, some (asc "bad")⟩
def ping : Obj := ⟨7, .method (asc "ping") (asc "http://h/"), none, none⟩
def name : Obj := ⟨8, .str, none, some (asc "ping")⟩

/-- **C140** Making an exception succeeds exactly when the arguments are what the class asks for; otherwise it is a
`TypeError`. -/
theorem _root_.Frpc.C140_made (c : Cls) (kw : Bool) (args : List Obj) (s : St) :
    ((init c kw args s).1 = .done ↔ kw = false ∧ Fits c args) ∧
    ((init c kw args s).1 ≠ .done → (init c kw args s).1 = .typeError) := by
  cases kw
  · cases c <;> rcases args with _ | ⟨a, _ | ⟨b, _ | ⟨m, _ | ⟨d, l⟩⟩⟩⟩ <;>
      simp [init, init2, init3, Fits, check2, check3] <;> grind
  · simp [init]

example : Fits .fault [five, bad] ∧ Fits .responseError [bad, ping] ∧ ¬ Fits .fault [bad, five] := by
  simp [Fits, five, bad]

/-- **C140** The members of a new exception are its arguments, `method` being `None` when it was not given. -/
theorem _root_.Frpc.C140_members (c : Cls) (args : List Obj) (x : Slot) (h : Fits c args) :
    getAttr (init c false args fresh).2 x =
      (match argOf c args x with | some o => .value o | none => .attributeError) := by
  cases c <;> rcases args with _ | ⟨a, _ | ⟨b, _ | ⟨m, _ | ⟨d, l⟩⟩⟩⟩ <;>
    first | (simp [Fits] at h; done) | (cases x <;> rfl)

example : getAttr (init .fault false [five, bad] fresh).2 .method = .value pyNone := by decide

theorem step_get (c : Cls) (s : St) (op : Op) (hop : ∀ kw args, op ≠ .init kw args) (x : Slot) (hx : has c x = true) :
    (step c s op).2.get x = lastIn x (s.get x) [op] := by
  cases op with
  | init kw args => exact absurd rfl (hop kw args)
  | get y => rfl
  | repr => rfl
  | set y o =>
    by_cases e : y = x
    · subst e
      simp only [step, hx, if_true, lastIn]
      cases y <;> rfl
    · simp only [step, lastIn, e, if_false]
      split
      · cases x <;> cases y <;> first | exact absurd rfl e | rfl
      · rfl
  | del y =>
    by_cases e : y = x
    · subst e
      simp only [step, hx, if_true, lastIn, delAttr]
      cases h : s.get y with
      | none => exact h
      | some o => cases y <;> rfl
    · simp only [step, lastIn, e, if_false]
      split
      · simp only [delAttr]
        cases s.get y with
        | none => rfl
        | some o => cases x <;> cases y <;> first | exact absurd rfl e | rfl
      · rfl

theorem lastIn_cons (x : Slot) (v : Option Obj) (op : Op) (ops : List Op) :
    lastIn x v (op :: ops) = lastIn x (lastIn x v [op]) ops := by
  cases op <;> simp only [lastIn] <;> split <;> rfl

/-- **C140** A member is what was last put into it: the argument of the constructor, until the program sets or
deletes the member. Printing and reading change nothing. -/
theorem _root_.Frpc.C140_kept (c : Cls) (ops : List Op) (hops : ∀ op ∈ ops, ∀ kw args, op ≠ .init kw args)
    (s : St) (x : Slot) (hx : has c x = true) :
    (run c s ops).get x = lastIn x (s.get x) ops := by
  induction ops generalizing s with
  | nil => rfl
  | cons op ops ih =>
    show (run c (step c s op).2 ops).get x = _
    rw [ih (fun o ho => hops o (.tail _ ho)), step_get c s op (hops op (.head _)) x hx, ← lastIn_cons]

example : (run .fault (init .fault false [five, bad] fresh).2 [.set .status bad, .repr, .del .method]).get .status = some bad ∧
    (run .fault (init .fault false [five, bad] fresh).2 [.set .status bad, .repr, .del .method]).get .method = none := by decide

/-- **C140** The text of a `Fault` or `ProtocolError` that the library or a program has made of a number and a string:
its class, the number, the string, and the method that failed with the address of its server when one was given. -/
theorem _root_.Frpc.C140_text (c : Cls) (hc : c ≠ .responseError) (n t : Obj) (rest : List Obj) (d w : Bytes)
    (hd : n.decimal = some d) (hw : t.shown = some w) (s : St) :
    (rest = [] ∨ (∃ m, rest = [m] ∧ m.kind = .nothing) →
      repr c (init c false (n :: t :: rest) s).2 = .text (asc "<fastrpc." ++ clsName c ++ asc ": " ++ d ++ asc ", " ++ w ++ asc ">")) ∧
    (∀ m name url, rest = [m] → m.kind = .method name url →
      repr c (init c false (n :: t :: rest) s).2 =
        .text (asc "<fastrpc." ++ clsName c ++ asc ": " ++ d ++ asc ", " ++ w ++ asc " [method " ++ name ++ asc "() @ " ++ url ++ asc "]>")) := by
  have e : asc "]>" = asc "]" ++ asc ">" := by decide
  constructor
  · rintro (rfl | ⟨m, rfl, hm⟩)
    · cases c <;> first | exact absurd rfl hc | simp [init, init3, store3, PyErrors.repr, format, format3, pyNone, hd, hw]
    · cases c <;> first | exact absurd rfl hc | simp [init, init3, store3, PyErrors.repr, format, format3, hm, hd, hw]
  · rintro m name url rfl hm
    cases c <;> first | exact absurd rfl hc | simp [init, init3, store3, PyErrors.repr, format, format3, source, hm, hd, hw, e]

/-- **C140** The same for `ResponseError`, that has no number. -/
theorem _root_.Frpc.C140_response (t : Obj) (rest : List Obj) (w : Bytes) (hw : t.shown = some w) (s : St) :
    (rest = [] ∨ (∃ m, rest = [m] ∧ m.kind = .nothing) →
      repr .responseError (init .responseError false (t :: rest) s).2 = .text (asc "<fastrpc.ResponseError: " ++ w ++ asc ">")) ∧
    (∀ m name url, rest = [m] → m.kind = .method name url →
      repr .responseError (init .responseError false (t :: rest) s).2 =
        .text (asc "<fastrpc.ResponseError: " ++ w ++ asc " [method " ++ name ++ asc "() @ " ++ url ++ asc "]>")) := by
  have e : asc "]>" = asc "]" ++ asc ">" := by decide
  have f : asc "<fastrpc.ResponseError: " = asc "<fastrpc." ++ asc "ResponseError" ++ asc ": " := by decide
  constructor
  · rintro (rfl | ⟨m, rfl, hm⟩)
    · simp [init, init2, store2, PyErrors.repr, format, format2, pyNone, hw, f, clsName]
    · simp [init, init2, store2, PyErrors.repr, format, format2, hm, hw, f, clsName]
  · rintro m name url rfl hm
    simp [init, init2, store2, PyErrors.repr, format, format2, source, hm, hw, e, f, clsName]

example : repr .fault (init .fault false [five, bad] fresh).2 = .text (asc "<fastrpc.Fault: 5, bad>") := by decide
example : repr .protocolError (init .protocolError false [five, bad, ping] fresh).2 =
    .text (asc "<fastrpc.ProtocolError: 5, bad [method ping() @ http://h/]>") := by decide +kernel

/-- **C140, violated.** Printing is undefined behaviour exactly when the member `method` is something else than `None`
or a bound method of a proxy, which nothing checks: `repr(Fault(5, "bad", "ping"))` is enough. -/
theorem _root_.Frpc.C140_print_violated :
    (∀ c s, repr c s = .ub ↔ ∃ m, s.method = some m ∧ m.kind ≠ .nothing ∧ ∀ n u, m.kind ≠ .method n u) ∧
    ∃ args, Fits .fault args ∧ (init .fault false args fresh).1 = .done ∧ repr .fault (init .fault false args fresh).2 = .ub := by
  constructor
  · intro c s
    have f : ∀ tail, format c s tail ≠ .ub := by
      intro tail
      unfold format format2 format3
      grind
    unfold PyErrors.repr
    cases hm : s.method with
    | none => simp [f]
    | some m => cases hk : m.kind <;> simp [f, hk]
  · exact ⟨[five, bad, name], ⟨rfl, rfl⟩, by decide, by decide⟩

/-- The references taken are those of the members. -/
def Balanced (s : St) : Prop := ∀ i, s.refs i = holds i s.status s.message s.method

/-- One reference when the member is the object `i`. -/
def one (i : Nat) (o : Option Obj) : Int := if (o.map Obj.id) = some i then 1 else 0

theorem one_none (i : Nat) : one i none = 0 := rfl

theorem holds_eq (i : Nat) (a b m : Option Obj) : holds i a b m = one i a + one i b + one i m := rfl

theorem one_some (i : Nat) (o : Obj) : one i (some o) = if i = o.id then 1 else 0 := by
  simp [one, eq_comm]

theorem release_at (o : Option Obj) (r : Nat → Int) (i : Nat) : release o r i = r i - one i o := by
  cases o with
  | none => simp [release, one_none]
  | some o => simp only [release, bump, one_some]; split <;> omega

theorem bump_at (o : Obj) (r : Nat → Int) (i : Nat) : bump o 1 r i = r i + one i (some o) := by
  simp only [bump, one_some]; split <;> omega

theorem setAttr_balanced (x : Slot) (o : Obj) {s : St} (h : Balanced s) : Balanced (setAttr x o s) := by
  intro i
  have := h i
  cases x
  · show release s.status (bump o 1 s.refs) i = holds i (some o) s.message s.method
    rw [release_at, bump_at, holds_eq, this, holds_eq]; omega
  · show release s.message (bump o 1 s.refs) i = holds i s.status (some o) s.method
    rw [release_at, bump_at, holds_eq, this, holds_eq]; omega
  · show release s.method (bump o 1 s.refs) i = holds i s.status s.message (some o)
    rw [release_at, bump_at, holds_eq, this, holds_eq]; omega

theorem delAttr_balanced (x : Slot) {s : St} (h : Balanced s) : Balanced (delAttr x s).2 := by
  intro i
  have hi := h i
  unfold delAttr
  cases hx : s.get x with
  | none => exact hi
  | some o =>
    rw [holds_eq] at hi
    cases x
    · replace hx : s.status = some o := hx
      show release (some o) s.refs i = holds i none s.message s.method
      rw [release_at, holds_eq, one_none, hi, hx]; omega
    · replace hx : s.message = some o := hx
      show release (some o) s.refs i = holds i s.status none s.method
      rw [release_at, holds_eq, one_none, hi, hx]; omega
    · replace hx : s.method = some o := hx
      show release (some o) s.refs i = holds i s.status s.message none
      rw [release_at, holds_eq, one_none, hi, hx]; omega

theorem step_balanced (c : Cls) (op : Op) (hop : ∀ kw args, op ≠ .init kw args) {s : St} (h : Balanced s) :
    Balanced (step c s op).2 := by
  cases op with
  | init kw args => exact absurd rfl (hop kw args)
  | get y => exact h
  | repr => exact h
  | set y o => simp only [step]; split <;> first | exact setAttr_balanced y o h | exact h
  | del y => simp only [step]; split <;> first | exact delAttr_balanced y h | exact h

theorem run_balanced (c : Cls) (ops : List Op) (hops : ∀ op ∈ ops, ∀ kw args, op ≠ .init kw args) {s : St} (h : Balanced s) :
    Balanced (run c s ops) := by
  induction ops generalizing s with
  | nil => exact h
  | cons op ops ih => exact ih (fun o ho => hops o (.tail _ ho)) (step_balanced c op (hops op (.head _)) h)

theorem init_balanced (c : Cls) (args : List Obj) (hn : CountFits c args.length) : Balanced (init c false args fresh).2 := by
  intro i
  cases c <;> rcases args with _ | ⟨a, _ | ⟨b, _ | ⟨m, _ | ⟨d, l⟩⟩⟩⟩ <;>
    first
    | (simp [CountFits] at hn; done)
    | (simp only [init, init2, init3, store2, store3, fresh, holds_eq, bump_at, one_none, if_false, if_true, reduceCtorEq, Bool.false_eq_true]; try omega)

/-- **C140, partial.** An exception made once with the right number of arguments, whether they were accepted or not,
or refused for keywords, holds one reference of every member, whatever the program does with the members, and gives
all of them back when it goes. Missing: the wrong number of arguments and a second `__init__`, for which it is
false (`C140_violated`). -/
theorem _root_.Frpc.C140_references_partial (c : Cls) (kw : Bool) (args : List Obj) (hn : kw = true ∨ CountFits c args.length)
    (ops : List Op) (hops : ∀ op ∈ ops, ∀ kw args, op ≠ .init kw args) :
    let s := run c (init c kw args fresh).2 ops
    (∀ i, s.refs i = holds i s.status s.message s.method) ∧ ∀ i, (dealloc s).refs i = 0 := by
  have h0 : Balanced (init c kw args fresh).2 := by
    cases kw
    · exact init_balanced c args (hn.resolve_left (by simp))
    · intro i; simp [init, fresh, holds]
  have h := run_balanced c ops hops h0
  refine ⟨h, fun i => ?_⟩
  have := h i
  simp only [dealloc, release_at, holds_eq] at this ⊢
  omega

example : CountFits .fault [bad, five].length ∧ (init .fault false [bad, five] fresh).1 = .typeError ∧
    (init .fault false [bad, five] fresh).2.refs 6 = 1 ∧ (dealloc (init .fault false [bad, five] fresh).2).refs 6 = 0 := by
  refine ⟨Or.inl rfl, by decide, by decide, by decide⟩

/-- **C140, violated.** Every construction with a wrong number of arguments takes a reference of `None` away that was
never there to give, and a second `__init__` keeps the members of the first one for ever. -/
theorem _root_.Frpc.C140_violated :
    (∀ c args, ¬ CountFits c args.length →
      (init c false args fresh).1 = .typeError ∧ (dealloc (init c false args fresh).2).refs pyNone.id = -1) ∧
    (∀ n t m s, n.id ≠ t.id → n.id ≠ m.id →
      (dealloc (run .fault s [.init false [n, t, m], .init false [n, t, m]])).refs n.id = s.refs n.id + 1) := by
  constructor
  · intro c args hn
    cases c <;> rcases args with _ | ⟨a, _ | ⟨b, _ | ⟨m, _ | ⟨d, l⟩⟩⟩⟩ <;>
      first
      | (simp [CountFits] at hn; done)
      | exact ⟨rfl, rfl⟩
  · intro n t m s h1 h2
    simp [run, step, init, init3, store3, dealloc, release, bump, h1, h2]
    omega

end PyErrors
end Frpc
