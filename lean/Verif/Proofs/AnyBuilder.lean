import Verif.Props.Decoder
import Verif.Proofs.Build
/-! # Builders run by the binary unmarshaller on any input: an invariant along the legal sequences of calls -/
namespace Frpc
open BinUnMarshaller
open Spec (Open nest Legal)

variable {β : Type}

/-- A property that every call keeps is kept by the whole. -/
theorem applyEvents_keep {B : Builder β} {Q : β → Prop} (hQ : ∀ b e b', B.build b e = .ok b' → Q b → Q b') :
    ∀ (es : List Event) (b b' : β), applyEvents B b es = (b', none) → Q b → Q b'
  | [], b, b', h, hq => by simp [applyEvents] at h; subst h; exact hq
  | e :: es, b, b', h, hq => by
    unfold applyEvents at h
    cases hb : B.build b e with
    | error y => rw [hb] at h; simp at h
    | ok b1 => rw [hb] at h; exact applyEvents_keep hQ es b1 b' h (hQ b e b1 hb hq)

theorem unMarshallAll_keep {B : Builder β} {Q : β → Prop} (hQ : ∀ b e b', B.build b e = .ok b' → Q b → Q b') {req : Req} {o o' : Obj} {b b' : β}
    {ps : List Bytes} (hr : Rest o) (h : unMarshallAll B req o b ps = (o', b', none)) (hq : Q b) : Q b' := by
  obtain ⟨c1, p1, b1, x1, n1, q, h1, h2, h3, _⟩ := unMarshallAll_eval (B := B) (req := req) (o := o) (b := b) (ps := ps) hr
  rw [h] at h2
  simp only [Prod.mk.injEq] at h2
  obtain ⟨_, rfl, hx⟩ := h2
  obtain ⟨es, _, hc⟩ := h1.steps
  rcases hc with ⟨_, _, e, _, rfl, _⟩ | ⟨ha, _⟩
  · simp [Exit.err] at hx
  · exact applyEvents_keep hQ es _ _ ha hq

/-- The run over the first piece of a run that succeeds. -/
theorem unMarshallAll_two {B : Builder β} {req : Req} {b b' : β} {o' : Obj} {p q : Bytes} (h : unMarshallAll B req init b [p, q] = (o', b', none)) :
    ∃ o1 b1, unMarshallAll B req init b [p] = (o1, b1, none) ∧ Rest o1 ∧ unMarshallAll B req o1 b1 [q] = (o', b', none) := by
  obtain ⟨c1, p1, b1, x, n, h1, h2, _⟩ := unMarshall_eval (B := B) (req := req) (o := init) (b := b) (data := p) Rest.init
  simp only [unMarshallAll, h2] at h ⊢
  cases x with
  | threw e => simp at h
  | noFuel => exact absurd rfl h1.not_noFuel
  | stopped => exact absurd rfl h1.not_stopped
  | more => exact ⟨_, _, rfl, ⟨h1.ok Ok.init, h1.more_short⟩, h⟩

/-- What is reported for the first piece of an input that is taken comes first in what is reported for the whole. -/
theorem trace_two {B : Builder β} {req : Req} {b b' : β} {o' : Obj} {p q : Bytes} (h : unMarshallAll B req init b [p, q] = (o', b', none)) :
    ∃ r, trace req [p, q] = trace req [p] ++ r := by
  rcases C04_any_builder B req b b' o' [p, q] none h with ⟨_, h2⟩ | ⟨_, _, _, _, _, h2⟩
  · have h3 : unMarshallAll traceBuilder req init [] [p, q] = ((unMarshallAll traceBuilder req init [] [p, q]).1, trace req [p, q], none) := by
      rw [h2]; rfl
    obtain ⟨o1, b1, g1, g2, g3⟩ := unMarshallAll_two h3
    have hb : trace req [p] = b1 := by unfold trace; rw [g1]
    rw [hb]
    obtain ⟨r, hr⟩ := unMarshallAll_keep (Q := fun t => b1 <+: t)
      (fun b e b' hb hq => by simp [traceBuilder] at hb; subst hb; exact hq.trans (List.prefix_append _ _)) g2 g3 (List.prefix_refl _)
    exact ⟨r, hr.symm⟩
  · cases h2

/-- A builder that took an input took its calls. -/
theorem taken {B : Builder β} {req : Req} {b b' : β} {o : Obj} {ps : List Bytes} (h : unMarshallAll B req init b ps = (o, b', none)) :
    applyEvents B b (trace req ps) = (b', none) := by
  rcases C04_any_builder _ _ _ _ _ _ _ h with ⟨a1, _⟩ | ⟨_, _, _, _, _, hc⟩
  · exact a1
  · cases hc

theorem run_no_fault {c : Int} {m : Bytes} : ∀ {body : List Event} {s s' : List Open}, Spec.run s body = some s' → Event.fault c m ∉ body
  | [], _, _, _ => by simp
  | e :: body, s, s', h => by
    simp only [Spec.run] at h
    cases hn : nest s e with
    | none => rw [hn] at h; simp at h
    | some s1 =>
      rw [hn] at h
      simp only [List.mem_cons, not_or]
      refine ⟨fun he => ?_, run_no_fault h⟩
      subst he
      simp [nest] at hn

/-- A fault is all of a message. -/
theorem fault_last {c : Int} {m : Bytes} {a r : List Event} {hdr : Option Spec.Header} {s : List Open} (hl : Legal (a ++ r) hdr s) (hm : Event.fault c m ∈ a) : r = [] := by
  have hm2 : Event.fault c m ∈ a ++ r := List.mem_append_left _ hm
  generalize ht : a ++ r = t at hl hm2
  cases hl with
  | empty => simp at hm2
  | fault c' m' =>
    cases a with
    | nil => simp at hm
    | cons e a => simp at ht; exact ht.2.2
  | call nm body s hb => simp at hm2; exact absurd hm2 (run_no_fault hb)
  | response body s hb => simp at hm2; exact absurd hm2 (run_no_fault hb)

variable {B : Builder β} {E : Err → Prop} {P : Event → Prop}

/-- Along a well nested sequence. -/
theorem nested_run {I : List Open → β → Prop}
    (hstep : ∀ s e s' b, nest s e = some s' → P e → I s b → (∃ b', B.build b e = .ok b' ∧ I s' b') ∨ ∃ x, B.build b e = .error x ∧ E x) :
    ∀ (body : List Event) (s s' : List Open) (b : β), Spec.run s body = some s' → (∀ e ∈ body, P e) → I s b →
      (∃ b', applyEvents B b body = (b', none) ∧ I s' b') ∨ ∃ b' x, applyEvents B b body = (b', some x) ∧ E x
  | [], s, s', b, h, _, hi => by
    simp [Spec.run] at h; subst h
    exact .inl ⟨b, rfl, hi⟩
  | e :: body, s, s', b, h, hl, hi => by
    simp only [Spec.run] at h
    cases hn : nest s e with
    | none => rw [hn] at h; simp at h
    | some s1 =>
      rw [hn] at h
      simp only [Option.bind_some] at h
      rcases hstep s e s1 b hn (hl e List.mem_cons_self) hi with ⟨b1, h1, h2⟩ | ⟨x, h1, h2⟩
      · rw [applyEvents_cons h1]
        exact nested_run hstep body s1 s' b1 h (fun e he => hl e (List.mem_cons_of_mem _ he)) h2
      · exact .inr ⟨b, x, by simp [applyEvents, h1], h2⟩

theorem run_prefix {s s' : List Open} {a r : List Event} (h : Spec.run s (a ++ r) = some s') : ∃ s1, Spec.run s a = some s1 := by
  rw [Spec.run_append] at h
  cases hs : Spec.run s a with
  | none => rw [hs] at h; simp at h
  | some s1 => exact ⟨s1, rfl⟩

/-- What a builder is after any input: as it was, or after a call with a state that meets `Ic`, or after a response with one that meets `Ir`, or after a fault;
or the input was refused, or the builder raised an exception of the kinds `E`. -/
theorem any_input {Ic : Bytes → List Open → β → Prop} {Ir : List Open → β → Prop} {req : Req} {b0 b' : β} {o : Obj} {ps : List Bytes} {err : Option Err}
    (hlim : ∀ e ∈ trace req ps, P e)
    (hcall : ∀ name, (∃ b1, B.build b0 (.methodCall name) = .ok b1 ∧ Ic name [] b1) ∨ ∃ x, B.build b0 (.methodCall name) = .error x ∧ E x)
    (hresp : (∃ b1, B.build b0 .methodResponse = .ok b1 ∧ Ir [] b1) ∨ ∃ x, B.build b0 .methodResponse = .error x ∧ E x)
    (hc : ∀ name s e s' b, nest s e = some s' → P e → Ic name s b → (∃ b', B.build b e = .ok b' ∧ Ic name s' b') ∨ ∃ x, B.build b e = .error x ∧ E x)
    (hr : ∀ s e s' b, nest s e = some s' → P e → Ir s b → (∃ b', B.build b e = .ok b' ∧ Ir s' b') ∨ ∃ x, B.build b e = .error x ∧ E x)
    (h : unMarshallAll B req init b0 ps = (o, b', err)) :
    (∃ x, err = some x ∧ (x = .stream ∨ E x)) ∨ (∃ c m x, Event.fault c m ∈ trace req ps ∧ B.build b0 (.fault c m) = .error x ∧ err = some x) ∨
    (err = none ∧ (b' = b0 ∨ (∃ name s, Ic name s b') ∨ (∃ s, Ir s b') ∨ ∃ c m, Event.fault c m ∈ trace req ps ∧ B.build b0 (.fault c m) = .ok b')) := by
  obtain ⟨⟨hdr, opens, hl⟩, _⟩ := C14_well_nested req ps
  -- what happens along any prefix of the trace
  have key : ∀ a r, trace req ps = a ++ r → (∃ b', applyEvents B b0 a = (b', none) ∧ (b' = b0 ∨ (∃ name s, Ic name s b') ∨ (∃ s, Ir s b') ∨
      ∃ c m, Event.fault c m ∈ trace req ps ∧ B.build b0 (.fault c m) = .ok b')) ∨
      (∃ b' x, applyEvents B b0 a = (b', some x) ∧ (E x ∨ ∃ c m, Event.fault c m ∈ trace req ps ∧ B.build b0 (.fault c m) = .error x)) := by
    intro a r ha
    cases a with
    | nil => exact .inl ⟨b0, rfl, .inl rfl⟩
    | cons e a =>
      have hlim2 : ∀ e ∈ a, P e := fun e he => hlim e (by rw [ha]; simp [he])
      generalize ht : trace req ps = t at hl
      cases hl with
      | empty => rw [ht] at ha; simp at ha
      | fault c m =>
        rw [ht] at ha
        simp only [List.cons_append, List.cons.injEq] at ha
        obtain ⟨rfl, ha⟩ := ha
        have : a = [] := by cases a with | nil => rfl | cons => simp at ha
        subst this
        cases hb : B.build b0 (.fault c m) with
        | ok b1 => exact .inl ⟨b1, applyEvents_one hb, .inr (.inr (.inr ⟨c, m, by simp, hb⟩))⟩
        | error x => exact .inr ⟨b0, x, by simp [applyEvents, hb], .inr ⟨c, m, by simp, hb⟩⟩
      | call name body s hb =>
        rw [ht] at ha
        simp only [List.cons_append, List.cons.injEq] at ha
        obtain ⟨rfl, rfl⟩ := ha
        obtain ⟨s1, hs1⟩ := run_prefix hb
        rcases hcall name with ⟨b1, h1, h2⟩ | ⟨x, h1, h2⟩
        · rw [applyEvents_cons h1]
          rcases nested_run (hc name) a [] s1 b1 hs1 hlim2 h2 with ⟨b2, h3, h4⟩ | ⟨b2, x, h3, h4⟩
          · exact .inl ⟨b2, h3, .inr (.inl ⟨name, s1, h4⟩)⟩
          · exact .inr ⟨b2, x, h3, .inl h4⟩
        · exact .inr ⟨b0, x, by simp [applyEvents, h1], .inl h2⟩
      | response body s hb =>
        rw [ht] at ha
        simp only [List.cons_append, List.cons.injEq] at ha
        obtain ⟨rfl, rfl⟩ := ha
        obtain ⟨s1, hs1⟩ := run_prefix hb
        rcases hresp with ⟨b1, h1, h2⟩ | ⟨x, h1, h2⟩
        · rw [applyEvents_cons h1]
          rcases nested_run hr a [] s1 b1 hs1 hlim2 h2 with ⟨b2, h3, h4⟩ | ⟨b2, x, h3, h4⟩
          · exact .inl ⟨b2, h3, .inr (.inr (.inl ⟨s1, h4⟩))⟩
          · exact .inr ⟨b2, x, h3, .inl h4⟩
        · exact .inr ⟨b0, x, by simp [applyEvents, h1], .inl h2⟩
  rcases C04_any_builder B req b0 b' o ps err h with ⟨h1, h2⟩ | ⟨es, rest, e, h1, h2, h3⟩
  · rcases key (trace req ps) [] (by simp) with ⟨b2, h3, h4⟩ | ⟨b2, x, h3, _⟩
    · rw [h1] at h3
      cases h3
      cases he : err with
      | none => exact .inr (.inr ⟨rfl, h4⟩)
      | some x =>
        rw [he] at h2
        rcases C12_no_undefined_behaviour traceBuilder req [] ps x h2.symm with hx | ⟨s, ev, hx⟩
        · exact .inl ⟨x, rfl, .inl hx⟩
        · simp [traceBuilder] at hx
    · rw [h1] at h3; simp at h3
  · rcases key es rest h1 with ⟨b2, h4, _⟩ | ⟨b2, x, h4, h5⟩
    · rw [h2] at h4; simp at h4
    · rw [h2] at h4
      cases h4
      rcases h5 with h5 | ⟨c, m, h5, h6⟩
      · exact .inl ⟨e, h3, .inr h5⟩
      · exact .inr (.inl ⟨c, m, e, h5, h6, h3⟩)

end Frpc
