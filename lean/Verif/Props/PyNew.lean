import Verif.Model.PyNew
import Verif.Props.PyServer
import Verif.Proofs.UrlForm
import Verif.Proofs.StructMap
/-!
# Making and dropping a Python server: C145, C146
-/
namespace Frpc
open PyNew
open Python (Py Exn)
open PyServer (Fn Exc Reg Op built)
open Spec.PyServer

variable {σ : Type}

/-- A number of 32 bits or a truth value, or not given. -/
def Whole (p : Option Py) : Prop := p = none ∨ (∃ n : Int, p = some (.int n) ∧ -(2 : Int) ^ 31 ≤ n ∧ n < 2 ^ 31) ∨ ∃ b, p = some (.bool b)

/-- Its value, `d` when it is not given. -/
def wholeOf (d : Int) : Option Py → Int
  | some (.int n) => n
  | some (.bool true) => 1
  | some (.bool false) => 0
  | _ => d

/-- What a server can be made with. -/
structure Acceptable (truth : Py → Option Bool) (a : Args σ) : Prop where
  numbers : ∀ p ∈ [a.readTimeout, a.writeTimeout, a.keepAlive, a.maxKeepalive, a.introspection], Whole p
  mode : a.stringMode = none ∨ ∃ s ∈ [asc "string", asc "unicode", asc "mixed"], a.stringMode = some (.str s)
  hooks : ∀ ms, a.callbacks = .dict ms → ∀ name ∈ [asc "preProcess", asc "postProcess", asc "preRead"], SMap.find? name ms ≠ some .bad
  flags : ∀ p, a.useBinary = some p ∨ a.allowSurrogates = some p → truth p ≠ none

namespace PyNew

theorem argIOr_ok (d n : Int) (p : Option Py) : argIOr d p = .ok n ↔ Whole p ∧ n = wholeOf d p := by
  unfold argIOr Whole wholeOf
  cases p with
  | none => simp [eq_comm]
  | some p =>
    cases p with
    | int m =>
      simp only [argI]
      by_cases h : -(2 : Int) ^ 31 ≤ m ∧ m < 2 ^ 31
      · rw [if_pos h]
        constructor
        · intro e
          obtain rfl := Except.ok.inj e
          exact ⟨.inr (.inl ⟨m, rfl, h.1, h.2⟩), rfl⟩
        · rintro ⟨-, rfl⟩
          rfl
      · rw [if_neg h]
        refine ⟨fun e => (by cases e), ?_⟩
        rintro ⟨hw, -⟩
        rcases hw with hw | hw
        · cases hw
        revert hw
        rintro (⟨k, hk, h1, h2⟩ | ⟨b, hb⟩)
        · cases hk; exact absurd ⟨h1, h2⟩ h
        · cases hb
    | bool b => cases b <;> simp [argI, eq_comm]
    | _ => simp [argI]

theorem argSOr_ok (p : Option Py) (m : Mode) : (∃ t, argSOr p = .ok t ∧ parseMode t = .ok m) ↔
    (p = none ∧ m = .mixed) ∨ (p = some (.str (asc "mixed")) ∧ m = .mixed) ∨ (p = some (.str (asc "string")) ∧ m = .string) ∨ (p = some (.str (asc "unicode")) ∧ m = .unicode) := by
  unfold argSOr
  cases p with
  | none => simp [parseMode, eq_comm]
  | some p =>
    simp only [reduceCtorEq, false_and, false_or, Option.some.injEq]
    cases hn : PyServer.asName p with
    | error e =>
      simp only [reduceCtorEq, false_and, exists_false, false_iff]
      have e1 : PyServer.asName (.str (asc "mixed")) = .ok (asc "mixed") := rfl
      have e2 : PyServer.asName (.str (asc "string")) = .ok (asc "string") := rfl
      have e3 : PyServer.asName (.str (asc "unicode")) = .ok (asc "unicode") := rfl
      rintro (⟨rfl, -⟩ | ⟨rfl, -⟩ | ⟨rfl, -⟩)
      · rw [e1] at hn; cases hn
      · rw [e2] at hn; cases hn
      · rw [e3] at hn; cases hn
    | ok s =>
      obtain ⟨rfl, -⟩ := (PyServer.name_given p s).1 hn
      have d1 : asc "string" ≠ asc "unicode" := by decide
      have d2 : asc "string" ≠ asc "mixed" := by decide
      have d3 : asc "unicode" ≠ asc "mixed" := by decide
      simp only [Except.ok.injEq, exists_eq_left', parseMode, Py.str.injEq]
      by_cases h1 : s = asc "string"
      · subst h1; simp [d1, d2, eq_comm]
      · by_cases h2 : s = asc "unicode"
        · subst h2; simp [d1.symm, d3, eq_comm]
        · by_cases h3 : s = asc "mixed"
          · subst h3; simp [d2.symm, d3.symm, eq_comm]
          · simp [h1, h2, h3]

theorem callableOrNone_ok (h : Option (Hook σ)) (f : Option (Callable σ)) : callableOrNone h = .ok f ↔ h ≠ some .bad ∧ h = f.map .callable := by
  cases h with
  | none => cases f <;> simp [callableOrNone]
  | some h => cases h <;> cases f <;> simp [callableOrNone]

theorem newServer_ok (truth : Py → Option Bool) (a : Args σ) (s : Server σ) : newServer truth a = .ok s ↔
    argIOr 10000 a.readTimeout = .ok s.readTimeout ∧ argIOr 1000 a.writeTimeout = .ok s.writeTimeout ∧ argIOr 0 a.keepAlive = .ok s.keepAlive ∧
    argIOr 0 a.maxKeepalive = .ok s.maxKeepalive ∧ (∃ t, argSOr a.stringMode = .ok t ∧ parseMode t = .ok s.stringMode) ∧
    newRegistry a.introspection a.callbacks = .ok s.registry ∧ flag truth true a.useBinary = (s.useBinary, false) ∧
    flag truth false a.allowSurrogates = (s.allowSurrogates, false) := by
  unfold newServer
  obtain ⟨s1, s2, s3, s4, s5, s6, s7, s8⟩ := s
  simp only
  cases argIOr 10000 a.readTimeout with
  | error e => simp [bind, Except.bind]
  | ok r1 =>
  cases argIOr 1000 a.writeTimeout with
  | error e => simp [bind, Except.bind]
  | ok r2 =>
  cases argIOr 0 a.keepAlive with
  | error e => simp [bind, Except.bind]
  | ok r3 =>
  cases argIOr 0 a.maxKeepalive with
  | error e => simp [bind, Except.bind]
  | ok r4 =>
  cases argSOr a.stringMode with
  | error e => simp [bind, Except.bind]
  | ok t =>
  cases hm : parseMode t with
  | error e => simp [bind, Except.bind, hm]
  | ok m =>
  cases newRegistry a.introspection a.callbacks with
  | error e => simp [bind, Except.bind, hm]
  | ok r =>
  obtain ⟨b1, p1⟩ := flag truth true a.useBinary
  obtain ⟨b2, p2⟩ := flag truth false a.allowSurrogates
  cases p1 <;> cases p2 <;> simp [bind, Except.bind, hm] <;> grind

theorem newRegistry_ok (i : Option Py) (c : Callbacks σ) (r : Reg σ) : newRegistry i c = .ok r ↔
    ∃ n pre post read, argIOr 1 i = .ok n ∧ callableOrNone (c.get (asc "preProcess")) = .ok pre ∧ callableOrNone (c.get (asc "postProcess")) = .ok post ∧
      callableOrNone (c.get (asc "preRead")) = .ok read ∧ r = PyServer.new σ (pre.map plain) post (read.map plain) (decide (n ≠ 0)) := by
  unfold newRegistry
  cases argIOr 1 i with
  | error e => simp [bind, Except.bind]
  | ok n =>
  cases callableOrNone (c.get (asc "preProcess")) with
  | error e => simp [bind, Except.bind]
  | ok pre =>
  cases callableOrNone (c.get (asc "postProcess")) with
  | error e => simp [bind, Except.bind]
  | ok post =>
  cases callableOrNone (c.get (asc "preRead")) with
  | error e => simp [bind, Except.bind]
  | ok read => simp [bind, Except.bind, pure, Except.pure, eq_comm]

theorem flag_ok (truth : Py → Option Bool) (d b : Bool) (p : Option Py) : flag truth d p = (b, false) ↔
    (p = none ∧ b = d) ∨ ∃ q, p = some q ∧ truth q = some b := by
  unfold flag
  cases p with
  | none => simp [eq_comm]
  | some p => cases h : truth p <;> simp [h, eq_comm]

end PyNew

/-- **C145 (what is accepted).** A server is made exactly when the numbers are numbers of 32 bits, the string mode is one of the three, the callbacks of the three known
names can be called, and the truth of the two switches can be told. -/
theorem C145_accepts (truth : Py → Option Bool) (a : Args σ) : (∃ s, newServer truth a = .ok s) ↔ Acceptable truth a := by
  have hget : ∀ name, a.callbacks.get name ≠ some .bad ↔ ∀ ms, a.callbacks = .dict ms → SMap.find? name ms ≠ some .bad := by
    intro name
    cases a.callbacks with
    | missing => simp [Callbacks.get]
    | other => simp [Callbacks.get]
    | dict ms => simp [Callbacks.get]
  constructor
  · rintro ⟨s, h⟩
    obtain ⟨h1, h2, h3, h4, h5, h6, h7, h8⟩ := (newServer_ok truth a s).1 h
    obtain ⟨n, pre, post, read, i1, i2, i3, i4, -⟩ := (newRegistry_ok _ _ _).1 h6
    refine ⟨?_, ?_, ?_, ?_⟩
    · intro p hp
      simp only [List.mem_cons, List.not_mem_nil, or_false] at hp
      rcases hp with rfl | rfl | rfl | rfl | rfl
      · exact ((argIOr_ok _ _ _).1 h1).1
      · exact ((argIOr_ok _ _ _).1 h2).1
      · exact ((argIOr_ok _ _ _).1 h3).1
      · exact ((argIOr_ok _ _ _).1 h4).1
      · exact ((argIOr_ok _ _ _).1 i1).1
    · rcases (argSOr_ok _ _).1 h5 with ⟨h, -⟩ | ⟨h, -⟩ | ⟨h, -⟩ | ⟨h, -⟩
      · exact .inl h
      · exact .inr ⟨_, by simp, h⟩
      · exact .inr ⟨_, by simp, h⟩
      · exact .inr ⟨_, by simp, h⟩
    · intro ms hms name hn
      simp only [List.mem_cons, List.not_mem_nil, or_false] at hn
      rcases hn with rfl | rfl | rfl
      · exact (hget _).1 ((callableOrNone_ok _ _).1 i2).1 ms hms
      · exact (hget _).1 ((callableOrNone_ok _ _).1 i3).1 ms hms
      · exact (hget _).1 ((callableOrNone_ok _ _).1 i4).1 ms hms
    · rintro p (hp | hp) ht
      · rcases (flag_ok _ _ _ _).1 h7 with ⟨h, -⟩ | ⟨q, h, hq⟩
        · rw [hp] at h; cases h
        · rw [hp] at h; cases h; rw [ht] at hq; cases hq
      · rcases (flag_ok _ _ _ _).1 h8 with ⟨h, -⟩ | ⟨q, h, hq⟩
        · rw [hp] at h; cases h
        · rw [hp] at h; cases h; rw [ht] at hq; cases hq
  · intro h
    have hook : ∀ name ∈ [asc "preProcess", asc "postProcess", asc "preRead"], ∃ f, callableOrNone (a.callbacks.get name) = .ok f := by
      intro name hn
      have hb := (hget name).2 (fun ms hms => h.hooks ms hms name hn)
      cases hg : a.callbacks.get name with
      | none => exact ⟨none, rfl⟩
      | some k =>
        cases k with
        | bad => exact absurd hg hb
        | callable f => exact ⟨some f, rfl⟩
    obtain ⟨pre, p1⟩ := hook (asc "preProcess") (by simp)
    obtain ⟨post, p2⟩ := hook (asc "postProcess") (by simp)
    obtain ⟨read, p3⟩ := hook (asc "preRead") (by simp)
    have hf : ∀ d (p : Option Py), (∀ q, p = some q → truth q ≠ none) → ∃ b, flag truth d p = (b, false) := by
      intro d p hp
      cases p with
      | none => exact ⟨d, rfl⟩
      | some q =>
        cases hq : truth q with
        | none => exact absurd hq (hp q rfl)
        | some b => exact ⟨b, (flag_ok _ _ _ _).2 (.inr ⟨q, rfl, hq⟩)⟩
    obtain ⟨b1, f1⟩ := hf true a.useBinary (fun q hq => h.flags q (.inl hq))
    obtain ⟨b2, f2⟩ := hf false a.allowSurrogates (fun q hq => h.flags q (.inr hq))
    have hm : ∃ m t, argSOr a.stringMode = .ok t ∧ parseMode t = .ok m := by
      rcases h.mode with h | ⟨s, hs, h⟩
      · exact ⟨.mixed, (argSOr_ok _ _).2 (.inl ⟨h, rfl⟩)⟩
      · simp only [List.mem_cons, List.not_mem_nil, or_false] at hs
        rcases hs with rfl | rfl | rfl
        · exact ⟨.string, (argSOr_ok _ _).2 (.inr (.inr (.inl ⟨h, rfl⟩)))⟩
        · exact ⟨.unicode, (argSOr_ok _ _).2 (.inr (.inr (.inr ⟨h, rfl⟩)))⟩
        · exact ⟨.mixed, (argSOr_ok _ _).2 (.inr (.inl ⟨h, rfl⟩))⟩
    obtain ⟨m, hm⟩ := hm
    refine ⟨⟨_, _, _, _, m, b1, b2, _⟩, (newServer_ok truth a _).2 ⟨(argIOr_ok _ _ _).2 ⟨h.numbers _ (by simp), rfl⟩, (argIOr_ok _ _ _).2 ⟨h.numbers _ (by simp), rfl⟩,
      (argIOr_ok _ _ _).2 ⟨h.numbers _ (by simp), rfl⟩, (argIOr_ok _ _ _).2 ⟨h.numbers _ (by simp), rfl⟩, hm,
      (newRegistry_ok _ _ _).2 ⟨_, pre, post, read, (argIOr_ok _ _ _).2 ⟨h.numbers _ (by simp), rfl⟩, p1, p2, p3, rfl⟩, f1, f2⟩⟩

/-- **C145 (every option counts).** A server that was made has the numbers, the mode and the switches it was given, and the defaults for those it was not given; the callbacks given in a
dictionary under the three known names are its callbacks, and no others are. Missing: callbacks under other names and callbacks not in a dictionary, which are ignored (`C145_ignored_violated`). -/
theorem C145_options_partial (truth : Py → Option Bool) (a : Args σ) (s : Server σ) (h : newServer truth a = .ok s) :
    s.readTimeout = wholeOf 10000 a.readTimeout ∧ s.writeTimeout = wholeOf 1000 a.writeTimeout ∧ s.keepAlive = wholeOf 0 a.keepAlive ∧
    s.maxKeepalive = wholeOf 0 a.maxKeepalive ∧ (s.registry.introspection = true ↔ wholeOf 1 a.introspection ≠ 0) ∧
    (s.stringMode = .string ↔ a.stringMode = some (.str (asc "string"))) ∧ (s.stringMode = .unicode ↔ a.stringMode = some (.str (asc "unicode"))) ∧
    ((a.useBinary = none ∧ s.useBinary = true) ∨ ∃ p, a.useBinary = some p ∧ truth p = some s.useBinary) ∧
    ((a.allowSurrogates = none ∧ s.allowSurrogates = false) ∨ ∃ p, a.allowSurrogates = some p ∧ truth p = some s.allowSurrogates) ∧
    (∀ ms, a.callbacks = .dict ms → ∀ f, SMap.find? (asc "preProcess") ms = some (.callable f) → s.registry.pre = some (fun st args => f st args none none none)) ∧
    (∀ ms, a.callbacks = .dict ms → ∀ f, SMap.find? (asc "postProcess") ms = some (.callable f) → s.registry.post = some f) ∧
    (∀ ms, a.callbacks = .dict ms → ∀ f, SMap.find? (asc "preRead") ms = some (.callable f) → s.registry.preRead = some (fun st args => f st args none none none)) ∧
    (a.callbacks = .missing → s.registry.pre = none ∧ s.registry.post = none ∧ s.registry.preRead = none) := by
  obtain ⟨h1, h2, h3, h4, h5, h6, h7, h8⟩ := (newServer_ok truth a s).1 h
  obtain ⟨n, pre, post, read, i1, i2, i3, i4, hr⟩ := (newRegistry_ok _ _ _).1 h6
  have j2 := ((callableOrNone_ok _ _).1 i2).2
  have j3 := ((callableOrNone_ok _ _).1 i3).2
  have j4 := ((callableOrNone_ok _ _).1 i4).2
  have hn := ((argIOr_ok _ _ _).1 i1).2
  have d1 : asc "string" ≠ asc "unicode" := by decide
  have d2 : asc "string" ≠ asc "mixed" := by decide
  have d3 : asc "unicode" ≠ asc "mixed" := by decide
  refine ⟨((argIOr_ok _ _ _).1 h1).2, ((argIOr_ok _ _ _).1 h2).2, ((argIOr_ok _ _ _).1 h3).2, ((argIOr_ok _ _ _).1 h4).2, ?_, ?_, ?_, (flag_ok _ _ _ _).1 h7, (flag_ok _ _ _ _).1 h8, ?_, ?_, ?_, ?_⟩
  · rw [hr, ← hn]; simp [PyServer.new]
  · rcases (argSOr_ok _ _).1 h5 with ⟨h, hm⟩ | ⟨h, hm⟩ | ⟨h, hm⟩ | ⟨h, hm⟩ <;> rw [h, hm] <;> simp <;> grind
  · rcases (argSOr_ok _ _).1 h5 with ⟨h, hm⟩ | ⟨h, hm⟩ | ⟨h, hm⟩ | ⟨h, hm⟩ <;> rw [h, hm] <;> simp <;> grind
  · intro ms hms f hf
    rw [hms, Callbacks.get, hf] at j2
    rw [hr]
    cases pre with
    | none => cases j2
    | some g => cases j2; rfl
  · intro ms hms f hf
    rw [hms, Callbacks.get, hf] at j3
    rw [hr]
    cases post with
    | none => cases j3
    | some g => cases j3; rfl
  · intro ms hms f hf
    rw [hms, Callbacks.get, hf] at j4
    rw [hr]
    cases read with
    | none => cases j4
    | some g => cases j4; rfl
  · intro hm
    rw [hm] at j2 j3 j4
    rw [hr]
    cases pre with
    | some g => cases j2
    | none =>
    cases post with
    | some g => cases j3
    | none =>
    cases read with
    | some g => cases j4
    | none => exact ⟨rfl, rfl, rfl⟩

/-- **C145 is false of other callbacks**: callbacks that are not given in a dictionary, or under other names (a misspelt one, say), are ignored without an error: the server is the same as without
them. -/
theorem C145_ignored_violated (truth : Py → Option Bool) (a : Args σ) :
    newServer truth ({ a with callbacks := .other } : Args σ) = newServer truth ({ a with callbacks := .missing } : Args σ) ∧
    ∀ ms : List (Bytes × Hook σ), (∀ name ∈ [asc "preProcess", asc "postProcess", asc "preRead"], name ∉ ms.map (·.1)) →
      newServer truth ({ a with callbacks := .dict ms } : Args σ) = newServer truth ({ a with callbacks := .missing } : Args σ) := by
  have find_none : ∀ (name : Bytes) (ms : List (Bytes × Hook σ)), name ∉ ms.map (·.1) → SMap.find? name ms = none := by
    intro name ms h
    induction ms with
    | nil => rfl
    | cons e ms ih =>
      obtain ⟨k, v⟩ := e
      simp only [List.map_cons, List.mem_cons, not_or] at h
      simp only [SMap.find?, if_neg h.1]
      exact ih h.2
  refine ⟨rfl, fun ms h => ?_⟩
  have e : newRegistry a.introspection (.dict ms) = newRegistry a.introspection .missing := by
    unfold newRegistry
    simp only [Callbacks.get, find_none _ ms (h _ (by simp : asc "preProcess" ∈ _)), find_none _ ms (h _ (by simp : asc "postProcess" ∈ _)),
      find_none _ ms (h _ (by simp : asc "preRead" ∈ _))]
  unfold newServer
  simp only [e]

/-- A server with some options. -/
def someOptions : Args Nat := { readTimeout := some (.int 5), keepAlive := some (.bool true), stringMode := some (.str (asc "unicode")), useBinary := some (.int 0), callbacks := .dict [(asc "preRead", .callable (fun st _ _ _ _ => (.ok .none, st + 1)))] }

/-- The truth of the numbers. -/
def numberTruth : Py → Option Bool
  | .int n => some (decide (n ≠ 0))
  | .bool b => some b
  | _ => none

example : Acceptable numberTruth someOptions := by
  refine ⟨?_, .inr ⟨asc "unicode", by simp, rfl⟩, ?_, ?_⟩
  · intro p hp
    simp only [List.mem_cons, List.not_mem_nil, or_false] at hp
    rcases hp with rfl | rfl | rfl | rfl | rfl
    · exact .inr (.inl ⟨5, rfl, by decide, by decide⟩)
    · exact .inl rfl
    · exact .inr (.inr ⟨true, rfl⟩)
    · exact .inl rfl
    · exact .inl rfl
  · intro ms hms name hn
    cases hms
    simp only [SMap.find?]
    split <;> simp
  · rintro p (hp | hp) <;> cases hp
    decide

/-! ## C146 -/

/-- The names of the built-in methods. -/
def builtInNames : List Bytes := [asc "system.listMethods", asc "system.methodSignature", asc "system.methodHelp", asc "system.multicall"]

namespace PyNew

theorem mem_ownRefs (r : Reg σ) : ownRefs r = 0 ↔ ∀ e ∈ r.lookup, holdsRegistry e.2 = false := by
  unfold ownRefs
  rw [List.length_eq_zero_iff, List.filter_eq_nil_iff]
  simp

theorem latest_or (ops : List (Op σ)) (name : Bytes) : (∃ m, Latest ops name m) ∨ Unregistered ops name := by
  induction ops with
  | nil => exact .inr (by intro a m h; cases h)
  | cons op ops ih =>
    rcases ih with ⟨m, before, a, later, rfl, h1, h2⟩ | h
    · exact .inl ⟨m, op :: before, a, later, rfl, h1, h2⟩
    · by_cases hop : ∃ a m, op = .method a ∧ Accepted a name m
      · obtain ⟨a, m, rfl, hm⟩ := hop
        exact .inl ⟨m, [], a, ops, rfl, hm, h⟩
      · refine .inr (fun a m ha hm => ?_)
        rcases List.mem_cons.1 ha with h' | h'
        · exact hop ⟨a, m, h'.symm, hm⟩
        · exact h a m h' hm

end PyNew

/-- **C146 (when everything is let go).** After any history of registrations, a registry that the program refers to `n` times is freed with its server, and lets go of everything
registered, exactly when the program does not refer to it and all four built-in methods have been replaced. -/
theorem C146_released_partial (pre : Option (Fn σ)) (post) (preRead : Option (Fn σ)) (i : Bool) (ops : List (Op σ)) (n : Nat) :
    refsAfter (built (PyServer.new σ pre post preRead i) ops) n = 0 ↔ n = 0 ∧ ∀ name ∈ builtInNames, ∃ m, Latest ops name m := by
  have hnew := C110_new pre post preRead i
  simp only at hnew
  have H := fun name => C110_history (PyServer.new σ pre post preRead i) hnew.1 ops name
  have hin : ∀ name ∈ builtInNames, ∃ m, SMap.find? name (PyServer.new σ pre post preRead i).lookup = some m ∧ holdsRegistry m = true := by
    intro name hn
    simp only [builtInNames, List.mem_cons, List.not_mem_nil, or_false] at hn
    rcases hn with rfl | rfl | rfl | rfl <;> exact ⟨_, rfl, rfl⟩
  show ownRefs _ + n = 0 ↔ _
  rw [Nat.add_eq_zero_iff, mem_ownRefs, and_comm]
  apply and_congr_right
  intro _
  constructor
  · intro h name hn
    rcases latest_or ops name with hl | hu
    · exact hl
    · obtain ⟨m, h1, h2⟩ := hin name hn
      have := h _ (find?_mem (((H name).2.1 hu).trans h1))
      rw [this] at h2
      cases h2
  · rintro h ⟨name, m⟩ hm
    have hf := UrlForm.find?_of_mem (H name).2.2 hm
    by_cases hn : name ∈ builtInNames
    · obtain ⟨m', before, a, later, h1, h2, h3⟩ := h name hn
      have := (H name).1 m' ⟨before, a, later, h1, h2, h3⟩
      rw [hf] at this
      cases this
      obtain ⟨f, -, hc⟩ := h2.method
      simp [holdsRegistry, hc]
    · rcases latest_or ops name with ⟨m', before, a, later, h1, h2, h3⟩ | hu
      · have := (H name).1 m' ⟨before, a, later, h1, h2, h3⟩
        rw [hf] at this
        cases this
        obtain ⟨f, -, hc⟩ := h2.method
        simp [holdsRegistry, hc]
      · exfalso
        have h1 := (H name).2.1 hu
        rw [hf] at h1
        have h2 := List.mem_map_of_mem (f := (·.1)) (find?_mem h1.symm)
        rw [hnew.2.1] at h2
        apply hn
        simp only [builtInNames, List.mem_cons, List.not_mem_nil, or_false] at h2 ⊢
        rcases h2 with h | h | h | h <;> simp only [h] <;> simp

/-- **C146 is false**: unless the program replaces one of the built-in methods, four references of the registry to itself are left when its server and the program have let go of it,
so that neither it nor anything registered is ever released. -/
theorem C146_violated (pre : Option (Fn σ)) (post) (preRead : Option (Fn σ)) (i : Bool) (ops : List (Op σ)) (h : ∀ name ∈ builtInNames, Unregistered ops name) :
    4 ≤ refsAfter (built (PyServer.new σ pre post preRead i) ops) 0 := by
  have hnew := C110_new pre post preRead i
  simp only at hnew
  have H := fun name => C110_history (PyServer.new σ pre post preRead i) hnew.1 ops name
  have hin : ∀ name ∈ builtInNames, ∃ m, (name, m) ∈ (built (PyServer.new σ pre post preRead i) ops).lookup.filter (fun e => holdsRegistry e.2) := by
    intro name hn
    have : ∃ m, SMap.find? name (PyServer.new σ pre post preRead i).lookup = some m ∧ holdsRegistry m = true := by
      simp only [builtInNames, List.mem_cons, List.not_mem_nil, or_false] at hn
      rcases hn with rfl | rfl | rfl | rfl <;> exact ⟨_, rfl, rfl⟩
    obtain ⟨m, h1, h2⟩ := this
    exact ⟨m, List.mem_filter.2 ⟨find?_mem (((H name).2.1 (h name hn)).trans h1), h2⟩⟩
  have hsub : builtInNames ⊆ ((built (PyServer.new σ pre post preRead i) ops).lookup.filter (fun e => holdsRegistry e.2)).map (·.1) := by
    intro name hn
    obtain ⟨m, hm⟩ := hin name hn
    exact List.mem_map_of_mem (f := (·.1)) hm
  have hnd : builtInNames.Nodup := by decide +kernel
  have := hnd.length_le_of_subset hsub
  simpa [refsAfter, ownRefs, builtInNames] using this

/-- The histories without such names are many. -/
example : ∀ name ∈ builtInNames, Unregistered [Op.method (σ := Nat) { name := .str (asc "add"), method := some (fun st _ => (.ok .none, st)) }] name := by
  intro name hn a m ha hacc
  simp only [List.mem_cons, List.not_mem_nil, or_false] at ha
  cases ha
  have := hacc.isName
  cases this
  revert hn
  decide +kernel

end Frpc
