import Verif.Proofs.Python
import Verif.Proofs.AnyBuilder
/-! # The Python builder on any input -/
namespace Frpc
namespace Python
open BinUnMarshaller hiding init
open Spec (Open nest item)

/-- The open containers of a call: each hangs in the one below, the lowest is the list of arguments. -/
inductive Rooted : List (Slot × Cont) → Nat → Prop
  | base (xs : List Py) : Rooted [(.root, .list xs)] 0
  | item {c : Cont} {s : Slot} {xs : List Py} {fs : List (Slot × Cont)} {n : Nat} (h : Rooted ((s, .list xs) :: fs) n) :
      Rooted ((.item, c) :: (s, .list xs) :: fs) (n + 1)
  | key {c : Cont} {k : Bytes} {s : Slot} {ms : List (Key × Py)} {fs : List (Slot × Cont)} {n : Nat} (h : Rooted ((s, .dict ms) :: fs) n) :
      Rooted ((.key k, c) :: (s, .dict ms) :: fs) (n + 1)

theorem Rooted.list {s : Slot} {xs ys : List Py} {fs : List (Slot × Cont)} {n : Nat} (h : Rooted ((s, .list xs) :: fs) n) : Rooted ((s, .list ys) :: fs) n := by
  cases h with
  | base => exact .base _
  | item h => exact .item h
  | key h => exact .key h

theorem Rooted.dict {s : Slot} {xs ys : List (Key × Py)} {fs : List (Slot × Cont)} {n : Nat} (h : Rooted ((s, .dict xs) :: fs) n) : Rooted ((s, .dict ys) :: fs) n := by
  cases h with
  | item h => exact .item h
  | key h => exact .key h

theorem Rooted.length {fs : List (Slot × Cont)} {n : Nat} (h : Rooted fs n) : fs.length = n + 1 := by
  induction h with
  | base => rfl
  | item h ih => simp only [List.length_cons] at ih ⊢; omega
  | key h ih => simp only [List.length_cons] at ih ⊢; omega

/-- What hangs at the root of a call is a list. -/
theorem Rooted.seen : ∀ {n : Nat} {fs : List (Slot × Cont)} (r : Py), Rooted fs n → ∃ xs, collapse (n + 1) r fs = .list xs
  | 0, _, r, h => by cases h with | base xs => exact ⟨xs, rfl⟩
  | n + 1, _, r, h => by
    cases h with
    | item h => unfold collapse; exact Rooted.seen r h.list
    | key h => unfold collapse; exact Rooted.seen r h.dict

/-- An exception that building sets: a text that is no UTF-8, or one of the callable's. -/
def Kind (o : Opts) (e : Exn) : Prop := e = .unicode ∨ ∃ f d, o.datetimeBuilder = some f ∧ f d = .error e

/-- The state within a call. -/
structure InCall (o : Opts) (name : Bytes) (s : List Open) (pb : PB) : Prop where
  name : pb.methodName = some name
  kind : ∀ e, pb.error = some e → Kind o e
  frames : pb.error = none → Rooted pb.frames s.length

/-- The state within a response. -/
structure InResp (o : Opts) (s : List Open) (pb : PB) : Prop where
  name : pb.methodName = none
  kind : ∀ e, pb.error = some e → Kind o e
  frames : pb.error = none → pb.frames.length = s.length
  ret : o.datetimeBuilder = none → ∀ c m, pb.ret ≠ .fault c m

theorem item_length {s s' : List Open} (h : item s = some s') : s'.length = s.length := by
  unfold item at h
  split at h <;> simp at h <;> subst h <;> rfl

variable {o : Opts}

theorem place_call {name : Bytes} {s s' : List Open} {pb : PB} (v : Py) (h : s'.length = s.length) (hi : InCall o name s pb) : InCall o name s' (place pb v) := by
  cases he : pb.error with
  | some e =>
    have : place pb v = pb := by unfold place; rw [he]
    rw [this]
    exact ⟨hi.name, hi.kind, fun h => by rw [he] at h; cases h⟩
  | none =>
    have hr := hi.frames he
    unfold place
    rw [he]
    cases hf : pb.frames with
    | nil => rw [hf] at hr; cases hr
    | cons f fs =>
      obtain ⟨sl, c⟩ := f
      rw [hf] at hr
      cases c with
      | list xs => exact ⟨hi.name, (fun e h => by simp [*] at h), fun _ => by rw [h]; exact hr.list⟩
      | dict ms =>
        simp only
        cases hk : keyOf pb.memberName with
        | some k => exact ⟨hi.name, (fun e h => by simp [*] at h), fun _ => by rw [h]; exact hr.dict⟩
        | none => exact ⟨hi.name, (fun e h => by simp at h; exact .inl h.symm), fun h => by simp at h⟩

theorem place_resp {s s' : List Open} {pb : PB} (v : Py) (h : s'.length = s.length) (hv : o.datetimeBuilder = none → ∀ c m, v ≠ .fault c m) (hi : InResp o s pb) :
    InResp o s' (place pb v) := by
  cases he : pb.error with
  | some e =>
    have : place pb v = pb := by unfold place; rw [he]
    rw [this]
    exact ⟨hi.name, hi.kind, (fun h => by rw [he] at h; cases h), hi.ret⟩
  | none =>
    have hr := hi.frames he
    unfold place
    rw [he]
    cases hf : pb.frames with
    | nil =>
      simp only
      rw [hf] at hr
      split
      · exact ⟨hi.name, (fun e h => by simp [*] at h), (fun _ => by rw [h, ← hr]), hv⟩
      · exact ⟨hi.name, hi.kind, (fun _ => by rw [h, ← hr, hf]), hi.ret⟩
    | cons f fs =>
      obtain ⟨sl, c⟩ := f
      rw [hf] at hr
      cases c with
      | list xs => exact ⟨hi.name, (fun e h => by simp [*] at h), (fun _ => by rw [h, ← hr]; rfl), hi.ret⟩
      | dict ms =>
        simp only
        cases hk : keyOf pb.memberName with
        | some k => exact ⟨hi.name, (fun e h => by simp [*] at h), (fun _ => by rw [h, ← hr]; rfl), hi.ret⟩
        | none => exact ⟨hi.name, (fun e h => by simp at h; exact .inl h.symm), (fun h => by simp at h), hi.ret⟩

theorem open_call {name : Bytes} {s s' : List Open} {pb : PB} (c : Cont) (h : s'.length = s.length + 1) (hi : InCall o name s pb) : InCall o name s' (openC pb c) := by
  cases he : pb.error with
  | some e =>
    have : openC pb c = pb := by unfold openC; rw [he]
    rw [this]
    exact ⟨hi.name, hi.kind, fun h => by rw [he] at h; cases h⟩
  | none =>
    have hr := hi.frames he
    unfold openC
    rw [he]
    cases hf : pb.frames with
    | nil => rw [hf] at hr; cases hr
    | cons f fs =>
      obtain ⟨sl, c⟩ := f
      rw [hf] at hr
      cases c with
      | list xs => exact ⟨hi.name, (fun e h => by simp [*] at h), fun _ => by rw [h]; exact .item hr⟩
      | dict ms =>
        simp only
        cases hk : keyOf pb.memberName with
        | some k => exact ⟨hi.name, (fun e h => by simp [*] at h), fun _ => by rw [h]; exact .key hr⟩
        | none => exact ⟨hi.name, (fun e h => by simp at h; exact .inl h.symm), fun h => by simp at h⟩

theorem open_resp {s s' : List Open} {pb : PB} (c : Cont) (h : s'.length = s.length + 1) (hi : InResp o s pb) : InResp o s' (openC pb c) := by
  cases he : pb.error with
  | some e =>
    have : openC pb c = pb := by unfold openC; rw [he]
    rw [this]
    exact ⟨hi.name, hi.kind, (fun h => by rw [he] at h; cases h), hi.ret⟩
  | none =>
    have hr := hi.frames he
    unfold openC
    rw [he]
    cases hf : pb.frames with
    | nil =>
      simp only
      rw [hf] at hr
      split
      · exact ⟨hi.name, (fun e h => by simp [*] at h), (fun _ => by rw [h, ← hr]; rfl), hi.ret⟩
      · exact ⟨hi.name, (fun e h => by simp [*] at h), (fun _ => by rw [h, ← hr]; rfl), hi.ret⟩
    | cons f fs =>
      obtain ⟨sl, c⟩ := f
      rw [hf] at hr
      cases c with
      | list xs => exact ⟨hi.name, (fun e h => by simp [*] at h), (fun _ => by rw [h, ← hr]; rfl), hi.ret⟩
      | dict ms =>
        simp only
        cases hk : keyOf pb.memberName with
        | some k => exact ⟨hi.name, (fun e h => by simp [*] at h), (fun _ => by rw [h, ← hr]; rfl), hi.ret⟩
        | none => exact ⟨hi.name, (fun e h => by simp at h; exact .inl h.symm), (fun h => by simp at h), hi.ret⟩

theorem attach_length (v : Py) (sl : Slot) (r : Py) (fs : List (Slot × Cont)) : (attach v sl r fs).2.length = fs.length := by
  unfold attach
  split <;> rfl

theorem attach_ret (v : Py) (sl : Slot) (r : Py) (fs : List (Slot × Cont)) : (attach v sl r fs).1 = v ∨ (attach v sl r fs).1 = r := by
  unfold attach
  split <;> simp

theorem cont_not_fault (c : Cont) (a : Int) (m : Bytes) : c.val ≠ .fault a m := by cases c <;> simp [Cont.val]

theorem close_call {name : Bytes} {q : Open} {s : List Open} {pb : PB} (hi : InCall o name (q :: s) pb) : ∃ pb', close pb = .ok pb' ∧ InCall o name s pb' := by
  cases he : pb.error with
  | some e => exact ⟨pb, by unfold close; rw [he], hi.name, hi.kind, fun h => by rw [he] at h; cases h⟩
  | none =>
    have hr := hi.frames he
    unfold close
    rw [he]
    generalize hfr : pb.frames = fr at hr
    generalize hl : (q :: s).length = l at hr
    have hl : s.length + 1 = l := hl
    cases hr with
    | base xs => omega
    | item h =>
      have hl2 : s.length = _ := Nat.succ.inj hl
      exact ⟨_, rfl, hi.name, (fun e h => by simp [*] at h), fun _ => by rw [hl2]; exact h.list⟩
    | key h =>
      have hl2 : s.length = _ := Nat.succ.inj hl
      exact ⟨_, rfl, hi.name, (fun e h => by simp [*] at h), fun _ => by rw [hl2]; exact h.dict⟩

theorem close_resp {q : Open} {s : List Open} {pb : PB} (hi : InResp o (q :: s) pb) : ∃ pb', close pb = .ok pb' ∧ InResp o s pb' := by
  cases he : pb.error with
  | some e => exact ⟨pb, by unfold close; rw [he], hi.name, hi.kind, (fun h => by rw [he] at h; cases h), hi.ret⟩
  | none =>
    have hr := hi.frames he
    unfold close
    rw [he]
    cases hf : pb.frames with
    | nil => rw [hf] at hr; cases hr
    | cons f fs =>
      obtain ⟨sl, c⟩ := f
      refine ⟨_, rfl, hi.name, (fun e h => by simp [*] at h), fun _ => ?_, fun hd a m => ?_⟩
      · rw [hf] at hr
        simp only [attach_length, List.length_cons] at hr ⊢
        omega
      · rcases attach_ret c.val sl pb.ret fs with h | h
        · simp only [h]; exact cont_not_fault c a m
        · simp only [h]; exact hi.ret hd a m

theorem date_kind {d : DateTime} {e : Exn} (h : makeDate o d = .error e) : Kind o e := by
  unfold makeDate at h
  split at h
  · next f hf => exact .inr ⟨f, _, hf, h⟩
  · cases h

theorem date_not_fault {d : DateTime} {v : Py} (h : makeDate o d = .ok v) (hd : o.datetimeBuilder = none) (c : Int) (m : Bytes) : v ≠ .fault c m := by
  unfold makeDate at h
  rw [hd] at h
  cases h
  simp

theorem step_call (name : Bytes) (s : List Open) (e : Event) (s' : List Open) (pb : PB) (h : nest s e = some s') (hi : InCall o name s pb) :
    ∃ pb', (builder o).build pb e = .ok pb' ∧ InCall o name s' pb' := by
  unfold builder
  cases e with
  | int a => exact ⟨_, rfl, place_call _ (item_length h) hi⟩
  | bool a => exact ⟨_, rfl, place_call _ (item_length h) hi⟩
  | double a => exact ⟨_, rfl, place_call _ (item_length h) hi⟩
  | null => exact ⟨_, rfl, place_call _ (item_length h) hi⟩
  | binary a => exact ⟨_, rfl, place_call _ (item_length h) hi⟩
  | dateTime a =>
    refine ⟨_, rfl, ?_⟩
    cases he : pb.error with
    | some x =>
      simp only [Option.isSome_some, if_true]
      exact ⟨hi.name, hi.kind, fun h => by rw [he] at h; cases h⟩
    | none =>
      simp only [Option.isSome_none, Bool.false_eq_true, if_false]
      cases hm : makeDate o a with
      | ok v => exact place_call _ (item_length h) hi
      | error x => exact ⟨hi.name, (fun e h => by simp [setError] at h; subst h; exact date_kind hm), fun h => by simp [setError] at h⟩
  | string a =>
    refine ⟨_, rfl, ?_⟩
    cases he : pb.error with
    | some x =>
      simp only [Option.isSome_some, if_true]
      exact ⟨hi.name, hi.kind, fun h => by rw [he] at h; cases h⟩
    | none =>
      simp only [Option.isSome_none, Bool.false_eq_true, if_false]
      split
      · exact place_call _ (item_length h) hi
      · exact ⟨hi.name, (fun e h => by simp [setError] at h; exact .inl h.symm), fun h => by simp [setError] at h⟩
  | member k =>
    simp only [nest] at h
    split at h
    · cases h
      refine ⟨_, rfl, ?_⟩
      split
      · exact ⟨hi.name, hi.kind, hi.frames⟩
      · exact ⟨hi.name, hi.kind, hi.frames⟩
    · cases h
  | openArray k =>
    simp only [nest] at h
    cases hs : item s with
    | none => rw [hs] at h; cases h
    | some s1 => rw [hs] at h; cases h; exact ⟨_, rfl, open_call _ (by simp [item_length hs]) hi⟩
  | openStruct k =>
    simp only [nest] at h
    cases hs : item s with
    | none => rw [hs] at h; cases h
    | some s1 => rw [hs] at h; cases h; exact ⟨_, rfl, open_call _ (by simp [item_length hs]) hi⟩
  | closeArray =>
    simp only [nest] at h
    split at h
    · cases h; exact close_call hi
    · cases h
  | closeStruct =>
    simp only [nest] at h
    split at h
    · cases h; exact close_call hi
    · cases h
  | methodCall a => simp [nest] at h
  | methodResponse => simp [nest] at h
  | fault a b => simp [nest] at h

theorem step_resp (s : List Open) (e : Event) (s' : List Open) (pb : PB) (h : nest s e = some s') (hi : InResp o s pb) :
    ∃ pb', (builder o).build pb e = .ok pb' ∧ InResp o s' pb' := by
  unfold builder
  cases e with
  | int a => exact ⟨_, rfl, place_resp _ (item_length h) (by simp) hi⟩
  | bool a => exact ⟨_, rfl, place_resp _ (item_length h) (by intro _ c m; split <;> simp) hi⟩
  | double a => exact ⟨_, rfl, place_resp _ (item_length h) (by simp) hi⟩
  | null => exact ⟨_, rfl, place_resp _ (item_length h) (by simp) hi⟩
  | binary a => exact ⟨_, rfl, place_resp _ (item_length h) (by simp) hi⟩
  | dateTime a =>
    refine ⟨_, rfl, ?_⟩
    cases he : pb.error with
    | some x =>
      simp only [Option.isSome_some, if_true]
      exact ⟨hi.name, hi.kind, (fun h => by rw [he] at h; cases h), hi.ret⟩
    | none =>
      simp only [Option.isSome_none, Bool.false_eq_true, if_false]
      cases hm : makeDate o a with
      | ok v => exact place_resp _ (item_length h) (fun hd => date_not_fault hm hd) hi
      | error x => exact ⟨hi.name, (fun e h => by simp [setError] at h; subst h; exact date_kind hm), (fun h => by simp [setError] at h), hi.ret⟩
  | string a =>
    refine ⟨_, rfl, ?_⟩
    cases he : pb.error with
    | some x =>
      simp only [Option.isSome_some, if_true]
      exact ⟨hi.name, hi.kind, (fun h => by rw [he] at h; cases h), hi.ret⟩
    | none =>
      simp only [Option.isSome_none, Bool.false_eq_true, if_false]
      split
      · exact place_resp _ (item_length h) (by simp) hi
      · exact ⟨hi.name, (fun e h => by simp [setError] at h; exact .inl h.symm), (fun h => by simp [setError] at h), hi.ret⟩
  | member k =>
    simp only [nest] at h
    split at h
    · cases h
      refine ⟨_, rfl, ?_⟩
      split
      · exact ⟨hi.name, hi.kind, hi.frames, hi.ret⟩
      · exact ⟨hi.name, hi.kind, hi.frames, hi.ret⟩
    · cases h
  | openArray k =>
    simp only [nest] at h
    cases hs : item s with
    | none => rw [hs] at h; cases h
    | some s1 => rw [hs] at h; cases h; exact ⟨_, rfl, open_resp _ (by simp [item_length hs]) hi⟩
  | openStruct k =>
    simp only [nest] at h
    cases hs : item s with
    | none => rw [hs] at h; cases h
    | some s1 => rw [hs] at h; cases h; exact ⟨_, rfl, open_resp _ (by simp [item_length hs]) hi⟩
  | closeArray =>
    simp only [nest] at h
    split at h
    · cases h; exact close_resp hi
    · cases h
  | closeStruct =>
    simp only [nest] at h
    split at h
    · cases h; exact close_resp hi
    · cases h
  | methodCall a => simp [nest] at h
  | methodResponse => simp [nest] at h
  | fault a b => simp [nest] at h

/-- The builder after any input that is taken. -/
inductive After (o : Opts) (T : List Event) (pb : PB) : Prop
  | nothing (h : pb = init)
  | call (name : Bytes) (s : List Open) (h : InCall o name s pb)
  | resp (s : List Open) (h : InResp o s pb)
  | fault (c : Int) (m : Bytes) (ht : Event.fault c m ∈ T) (hu : decodes m = true) (h : pb = { init with ret := .fault c m })

/-- What `unMarshall` does with any input. -/
theorem any_input_py {ps : List Bytes} {obj : Obj} {pb : PB} {err : Option Err} (h : unMarshallAll (builder o) .any BinUnMarshaller.init init ps = (obj, pb, err)) :
    err = some .stream ∨ (err = some .ub ∧ ∃ c m, Event.fault c m ∈ trace .any ps ∧ decodes m = false) ∨ (err = none ∧ After o (trace .any ps) pb) := by
  have hf : ∀ c m, (builder o).build init (.fault c m) = if decodes m then .ok { init with ret := .fault c m } else .error .ub := by
    intro c m
    simp only [builder, build, buildFault, init]
    split <;> rfl
  rcases any_input (E := fun _ => False) (P := fun _ => True) (Ic := InCall o) (Ir := InResp o) (fun _ _ => trivial)
      (fun name => .inl ⟨_, rfl, rfl, (fun e h => by simp [init] at h), fun _ => .base []⟩)
      (.inl ⟨_, rfl, rfl, (fun e h => by simp [init] at h), fun _ => rfl, fun _ c m => by simp [init]⟩)
      (fun name s e s' b h _ hi => .inl (step_call name s e s' b h hi)) (fun s e s' b h _ hi => .inl (step_resp s e s' b h hi)) h with
    ⟨x, he, hE⟩ | ⟨c, m, x, ht, hb, rfl⟩ | ⟨rfl, hb⟩
  · rcases hE with hE | hE
    · exact .inl (by rw [he, hE])
    · exact hE.elim
  · rw [hf] at hb
    split at hb
    · cases hb
    · next hd => cases hb; exact .inr (.inl ⟨rfl, c, m, ht, by simpa using hd⟩)
  · refine .inr (.inr ⟨rfl, ?_⟩)
    rcases hb with h | ⟨name, s, h⟩ | ⟨s, h⟩ | ⟨c, m, ht, h⟩
    · exact .nothing h
    · exact .call name s h
    · exact .resp s h
    · rw [hf] at h
      split at h
      · next hd => cases h; exact .fault c m ht hd rfl
      · cases h

/-- An exception that is set stays. -/
theorem error_stays {e : Exn} (b : PB) (ev : Event) (b' : PB) (h : (builder o).build b ev = .ok b') (hb : b.error = some e) : b'.error = some e := by
  cases ev <;> simp only [builder, build, place, openC, close, buildFault, hb, Option.isSome_some, Option.isNone_some, if_true, Except.ok.injEq, Bool.false_and,
    Bool.false_eq_true, if_false] at h <;> subst h <;> first | exact hb | rfl

theorem collapse_ret : ∀ (n : Nat) (r : Py) (fs : List (Slot × Cont)), (∀ c m, r ≠ .fault c m) → ∀ c m, collapse n r fs ≠ .fault c m
  | 0, r, fs, h => by unfold collapse; exact h
  | n + 1, r, [], h => by unfold collapse; exact h
  | n + 1, r, (s, c) :: fs, h => by
    unfold collapse
    refine collapse_ret n _ _ ?_
    rcases attach_ret c.val s r fs with hr | hr
    · rw [hr]; exact cont_not_fault c
    · rw [hr]; exact h

end Python
end Frpc
