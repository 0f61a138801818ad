import Verif.Proofs.DecoderRun
import Verif.Spec.Events
/-! # The decoder as a relation from bytes to builder calls -/
namespace Frpc
namespace BinUnMarshaller

/-- Zero or more successful decoding steps, with the builder calls they make. -/
inductive Steps (req : Req) (stop : Bool) : Core → Bytes → List Event → Core → Bytes → Prop
  | refl {c p} : Steps req stop c p [] c p
  | cons {c p c1 es1 es2 c2 p2} (h : c.wanted ≤ p.length)
      (hs : step req stop c (p.take c.wanted) = .ok (some (c1, es1)))
      (hr : Steps req stop c1 (p.drop c.wanted) es2 c2 p2) : Steps req stop c p (es1 ++ es2) c2 p2

variable {β : Type} {B : Builder β} {req : Req} {stop : Bool}

theorem Steps.trans {c p es c1 p1 es' c2 p2} (h1 : Steps req stop c p es c1 p1) (h2 : Steps req stop c1 p1 es' c2 p2) :
    Steps req stop c p (es ++ es') c2 p2 := by
  induction h1 with
  | refl => exact h2
  | cons h hs hr ih => rw [List.append_assoc]; exact .cons h hs (ih h2)

theorem applyEvents_append {b : β} (a es : List Event) :
    applyEvents B b (a ++ es) = match applyEvents B b a with
      | (b', none) => applyEvents B b' es
      | r => r := by
  induction a generalizing b with
  | nil => rfl
  | cons e a ih =>
    simp only [List.cons_append, applyEvents]
    cases B.build b e with
    | error x => rfl
    | ok b' => simp [ih]

theorem applyEvents_trace (es es' : List Event) : applyEvents traceBuilder es es' = (es ++ es', none) := by
  induction es' generalizing es with
  | nil => simp [applyEvents]
  | cons e a ih => simp [applyEvents, traceBuilder] at ih ⊢; rw [ih]; simp

/-- A successful builder carries a run through the steps. -/
theorem Steps.eval {c p es c1 p1} {b b1 : β} (h : Steps req stop c p es c1 p1) (ha : applyEvents B b es = (b1, none))
    {c2 p2 b2 x n} (h2 : Eval B req stop c1 p1 b1 c2 p2 b2 x n) : ∃ m, Eval B req stop c p b c2 p2 b2 x m := by
  induction h generalizing b with
  | refl => simp [applyEvents] at ha; subst ha; exact ⟨n, h2⟩
  | cons h hs hr ih =>
    rw [applyEvents_append] at ha
    cases hb : applyEvents B b _ with
    | mk b' o =>
      rw [hb] at ha
      cases o with
      | some e => simp at ha
      | none =>
        obtain ⟨m, hm⟩ := ih ha h2
        exact ⟨m + 1, .next h hs hb hm⟩

/-- What a run did, as steps and builder calls. -/
theorem Eval.steps {c p b c' p' b' x n} (h : Eval B req stop c p b c' p' b' x n) :
    ∃ es, Steps req stop c p es c' p' ∧
      ((∃ c2 es2 e, applyEvents B b (es ++ es2) = (b', some e) ∧ x = .threw e ∧
          c'.wanted ≤ p'.length ∧ step req stop c' (p'.take c'.wanted) = .ok (some (c2, es2)))
       ∨ applyEvents B b es = (b', none) ∧
          ((x = .more ∧ p'.length < c'.wanted)
           ∨ (x = .stopped ∧ c'.wanted ≤ p'.length ∧ step req stop c' (p'.take c'.wanted) = .ok none)
           ∨ ∃ e, x = .threw e ∧ c'.wanted ≤ p'.length ∧ step req stop c' (p'.take c'.wanted) = .error e)) := by
  induction h with
  | more h => exact ⟨[], .refl, .inr ⟨rfl, .inl ⟨rfl, by omega⟩⟩⟩
  | err h hs => exact ⟨[], .refl, .inr ⟨rfl, .inr (.inr ⟨_, rfl, h, hs⟩)⟩⟩
  | stopped h hs => exact ⟨[], .refl, .inr ⟨rfl, .inr (.inl ⟨rfl, h, hs⟩)⟩⟩
  | bthrow h hs ha => exact ⟨[], .refl, .inl ⟨_, _, _, ha, rfl, h, hs⟩⟩
  | next h hs ha hr ih =>
    obtain ⟨es, h1, h2⟩ := ih
    refine ⟨_, .cons h hs h1, ?_⟩
    rcases h2 with ⟨c2, es2, e, ha2, hx⟩ | ⟨ha2, hx⟩
    · refine .inl ⟨c2, es2, e, ?_, hx⟩
      rw [List.append_assoc, applyEvents_append, ha]; exact ha2
    · refine .inr ⟨?_, hx⟩
      rw [applyEvents_append, ha]; exact ha2

theorem Steps.ok {c p es c' p'} (hok : Ok c) (h : Steps req stop c p es c' p') : Ok c' := by
  induction h with
  | refl => exact hok
  | cons h hs hr ih => exact ih (step_ok hok (take_len h) hs)

/-- The calls and outcome of decoding the pieces with a recording builder. -/
theorem trace_steps {ps : List Bytes} :
    ∃ c p q, Steps req false init.core ps.flatten (unMarshallAll traceBuilder req init [] ps).2.1 c (p ++ q) ∧
      (unMarshallAll traceBuilder req init [] ps).1 = ⟨c, p⟩ ∧
      ((unMarshallAll traceBuilder req init [] ps).2.2 = none → q = [] ∧ p.length < c.wanted) ∧
      ((unMarshallAll traceBuilder req init [] ps).2.2 ≠ none →
        (unMarshallAll traceBuilder req init [] ps).2.2 = some .stream ∧
        c.wanted ≤ (p ++ q).length ∧ step req false c ((p ++ q).take c.wanted) = .error .stream) := by
  obtain ⟨c', p', b', x, n, q, h1, h2, h3, _⟩ := unMarshallAll_eval (B := traceBuilder) (req := req) (o := init) (b := []) (ps := ps) Rest.init
  obtain ⟨es, hs, hc⟩ := h1.steps
  rcases hc with ⟨_, es2, e, ha, _⟩ | ⟨ha, hx⟩
  · rw [applyEvents_trace] at ha; simp at ha
  rw [applyEvents_trace] at ha
  simp only [List.nil_append, Prod.mk.injEq, and_true] at ha
  subst ha
  refine ⟨c', p', q, ?_, by rw [h2], ?_, ?_⟩
  · rw [h2]; exact hs
  · rw [h2]; intro hn
    simp only at hn
    have hq := h3 hn
    subst hq
    refine ⟨rfl, ?_⟩
    rcases hx with ⟨rfl, hx⟩ | ⟨rfl, hx⟩ | ⟨e, rfl, hx⟩
    · simpa using hx
    · exact absurd rfl h1.not_stopped
    · simp [Exit.err] at hn
  · rw [h2]; intro hn
    simp only at hn ⊢
    rcases hx with ⟨rfl, hx⟩ | ⟨rfl, hx⟩ | ⟨e, rfl, hw, hx⟩
    · exact absurd rfl hn
    · exact absurd rfl h1.not_stopped
    · have he := step_err (hs.ok Ok.init) (take_len hw) hx
      subst he
      exact ⟨rfl, hw, hx⟩

/-! ### Invariant of the calls made -/

open Spec

def ck : Kind → CKind | .struct => .struct | .array => .array

/-- Spec view of a frame that has an item in progress. -/
def busy (f : Frame) : Open := ⟨ck f.kind, f.members - 1, false⟩

/-- States in which a value's member name was already given. -/
def inValue : St → Bool
  | .realValueType | .int | .intP8 | .intN8 | .double | .string | .stringLen | .binary | .binaryLen
  | .dateTime | .struct | .array => true
  | _ => false

/-- Spec view of the recursion stack. -/
def view (c : Core) : List Open :=
  match c.stack with
  | [] => []
  | f :: s => ⟨ck f.kind, f.members, inValue c.st && (f.kind == .struct)⟩ :: s.map busy

theorem closeUp_run (s : List Frame) (h : ∀ f ∈ s, 1 ≤ f.members ∧ f.members < 2 ^ 30) (c : Core) (hc : c.st = .valueType)
    (hs : c.stack = (closeUp s).1) : run (s.map busy) (closeUp s).2 = some (view c) := by
  induction s with
  | nil => simp [closeUp] at hs; simp [closeUp, run, view, hs]
  | cons f s ih =>
    have hf := h f (by simp)
    have hm : (f.members + (2 ^ 32 - 1)) % 2 ^ 32 = f.members - 1 := by omega
    simp only [closeUp, hm] at hs ⊢
    by_cases hz : f.members - 1 = 0
    · rw [if_neg (by omega)] at hs ⊢
      simp only [List.map_cons, run]
      have : nest (busy f :: s.map busy) (closeEv f.kind) = some (s.map busy) := by
        unfold busy closeEv
        rw [hz]
        cases f.kind <;> rfl
      rw [this]
      exact ih (fun g hg => h g (by simp [hg])) hs
    · rw [if_pos (by omega)] at hs ⊢
      simp [run, view, hs, hc, inValue, busy]

/-- Starting a value in a state where one is expected. -/
theorem item_view {c : Core} (hok : Ok c) (h : inValue c.st = true ∨ c.st = .valueType ∧ insideStruct c = false) :
    item (view c) = some (c.stack.map busy) := by
  unfold view
  cases hs : c.stack with
  | nil => rfl
  | cons f s =>
    have hf := hok.stack f (by rw [hs]; simp)
    obtain ⟨m, k⟩ := f
    simp only at hf
    obtain ⟨m', rfl⟩ : ∃ m', m = m' + 1 := ⟨m - 1, by omega⟩
    cases k with
    | struct =>
      have hin : inValue c.st = true := by
        rcases h with h | h
        · exact h
        · simp [insideStruct, hs] at h
      simp [hin, item, ck, busy]
    | array =>
      have : (Kind.array == Kind.struct) = false := by decide
      simp [item, ck, busy, this]

theorem payload_inValue {st : St} (h : IsPayload st ∨ st = .string ∨ st = .binary) : inValue st = true := by
  cases st <;> simp_all [IsPayload, inValue]

theorem tag_inValue {c : Core} (h : c.st = .valueType ∧ insideStruct c = false ∨ c.st = .realValueType) :
    inValue c.st = true ∨ c.st = .valueType ∧ insideStruct c = false := by
  rcases h with h | h
  · exact .inr h
  · rw [h]; exact .inl rfl

/-- How the calls made so far relate to the decoder state. -/
structure Made (req : Req) (c : Core) (es : List Event) : Prop where
  early : IsEarly c.st → es = []
  callReq : c.st = .methodNameLen ∨ c.st = .methodName → reqAllows req T_CALL = true
  plain : ¬ IsEarly c.st → c.fault = 0 →
    (∃ name body, es = .methodCall name :: body ∧ run [] body = some (view c) ∧ reqAllows req T_CALL = true) ∨
    (∃ body, es = .methodResponse :: body ∧ run [] body = some (view c) ∧ reqAllows req T_RESPONSE = true)
  fault : c.fault ≠ 0 → reqAllows req T_FAULT = true ∧
    ((c.fault = 1 ∨ c.fault = 2) ∧ es = [] ∨ c.fault = 3 ∧ ∃ n m, es = [.fault n m])
  lim : ∀ e ∈ es, Limited e

theorem Made.init : Made req init.core [] :=
  ⟨fun _ => rfl, by simp [BinUnMarshaller.init], by simp [BinUnMarshaller.init, IsEarly], by simp [BinUnMarshaller.init], by simp⟩

theorem emit_zero {c c1 : Core} {e es} (hf : c.fault = 0) (h : emit c e = .ok (c1, es)) : c1 = c ∧ es = [e] := by
  unfold emit at h; rw [if_pos hf] at h; cases h; exact ⟨rfl, rfl⟩

theorem closeUp_limited (s : List Frame) : ∀ e ∈ (closeUp s).2, Limited e := by
  induction s with
  | nil => simp [closeUp]
  | cons f s ih =>
    simp only [closeUp]
    split
    · simp
    · intro e he
      simp only [List.mem_cons] at he
      rcases he with rfl | he
      · cases f.kind <;> exact trivial
      · exact ih e he

theorem ScalarEv.limited {e} (h : ScalarEv e) : Limited e := by
  cases e <;> first | exact trivial | exact h | exact h.elim

theorem ScalarEv.nest {e s} (h : ScalarEv e) : Spec.nest s e = item s := by
  cases e <;> first | rfl | exact h.elim

theorem inValue_not_early {st : St} (h : inValue st = true) : ¬ IsEarly st := by
  cases st <;> simp_all [IsEarly, inValue]

/-- Extending the body of an unfinished message by calls that lead to the new view. -/
theorem Made.extend {c c' : Core} {es es' : List Event} (hm : Made req c es) (he : ¬ IsEarly c.st) (hf : c.fault = 0)
    (he' : ¬ IsEarly c'.st) (hf' : c'.fault = 0) (hr : run (view c) es' = some (view c'))
    (hl : ∀ e ∈ es', Limited e) : Made req c' (es ++ es') := by
  refine ⟨fun h => absurd h he', ?_, fun _ _ => ?_, fun h => absurd hf' h, ?_⟩
  · rintro (h | h) <;> rw [h] at he' <;> exact absurd trivial he'
  · rcases hm.plain he hf with ⟨name, body, rfl, hb, hq⟩ | ⟨body, rfl, hb, hq⟩
    · exact .inl ⟨name, body ++ es', rfl, by rw [run_append, hb]; exact hr, hq⟩
    · exact .inr ⟨body ++ es', rfl, by rw [run_append, hb]; exact hr, hq⟩
  · intro e h
    rcases List.mem_append.1 h with h | h
    · exact hm.lim e h
    · exact hl e h

/-- A scalar value in progress or starting. -/
theorem Made.value {c c1 : Core} {es es1 : List Event} {e} (hok : Ok c) (hm : Made req c es)
    (hst : inValue c.st = true ∨ c.st = .valueType ∧ insideStruct c = false) (hev : ScalarEv e)
    (he : emit c e = .ok (c1, es1)) : Made req (finalize c1 es1).1 (es ++ (finalize c1 es1).2) := by
  have hne : ¬ IsEarly c.st := by
    rcases hst with h | h
    · exact inValue_not_early h
    · rw [h.1]; simp [IsEarly]
  by_cases hf : c.fault = 0
  · obtain ⟨rfl, rfl⟩ := emit_zero hf he
    refine hm.extend hne hf (by simp [finalize, IsEarly]) (by simpa [finalize] using hf) ?_ ?_
    · simp only [finalize, List.singleton_append, run, hev.nest, item_view hok hst]
      exact closeUp_run _ hok.stack _ rfl rfl
    · intro x hx
      simp only [finalize, List.mem_append, List.mem_singleton] at hx
      rcases hx with rfl | hx
      · exact hev.limited
      · exact closeUp_limited _ x hx
  · have hstk := hok.fault hf
    obtain ⟨hq, hfs⟩ := hm.fault hf
    unfold emit at he
    rw [if_neg hf] at he
    cases e with
    | int n =>
      simp only at he
      split at he
      · cases he
      · rename_i h1
        have h1 : c.fault = 1 := by simpa using h1
        cases he
        rcases hfs with ⟨_, rfl⟩ | ⟨h3, _⟩
        · refine ⟨by simp [finalize, IsEarly], by simp [finalize], by simp [finalize], ?_, ?_⟩
          · intro _; exact ⟨hq, .inl ⟨.inr rfl, by simp [finalize, hstk, closeUp]⟩⟩
          · simp [finalize, hstk, closeUp]
        · omega
    | string s =>
      simp only at he
      split at he
      · cases he
      · rename_i h1
        have h1 : c.fault = 2 := by simpa using h1
        cases he
        rcases hfs with ⟨_, rfl⟩ | ⟨h3, _⟩
        · refine ⟨by simp [finalize, IsEarly], by simp [finalize], by simp [finalize], ?_, ?_⟩
          · intro _; exact ⟨hq, .inr ⟨rfl, _, s, by simp [finalize, hstk, closeUp]; rfl⟩⟩
          · simp only [finalize, hstk, closeUp, List.nil_append, List.append_nil, List.mem_singleton]
            rintro x rfl
            exact ⟨i32_isI32 _, hev⟩
        · omega
    | _ => simp at he

theorem Made.step {c c' : Core} {d : Bytes} {es es' : List Event} (hok : Ok c) (hd : d.length = c.wanted)
    (hm : Made req c es) (h : step req stop c d = .ok (some (c', es'))) : Made req c' (es ++ es') := by
  have nil : ∀ c', ¬ IsEarly c.st → ¬ IsEarly c'.st → c'.fault = c.fault → view c' = view c → Made req c' (es ++ []) := by
    intro c' he he' hf hv
    by_cases h0 : c.fault = 0
    · exact hm.extend he h0 he' (by rw [hf, h0]) (by rw [hv]; rfl) (by simp)
    · have := hm.fault h0
      refine ⟨fun h => absurd h he', ?_, fun _ h => absurd (by rw [← hf]; exact h) h0, ?_, by simpa using hm.lim⟩
      · rintro (h | h) <;> rw [h] at he' <;> exact absurd trivial he'
      · intro _; rw [hf, List.append_nil]; exact this
  refine step_elim (P := fun c' es' => Made req c' (es ++ es')) hok hd h ?_ ?_ ?_ ?_ ?_ ?_ ?_ ?_ ?_ ?_ ?_ ?_ ?_ ?_
  · intro maj min hst _ _ _
    have h0 := hm.early (by rw [hst]; trivial)
    have hf := (hok.early (by rw [hst]; trivial)).2
    subst h0
    exact ⟨fun _ => rfl, by simp, by simp [IsEarly], by simp [hf], by simp⟩
  · intro hst hr
    have h0 := hm.early (by rw [hst]; trivial)
    subst h0
    exact ⟨fun _ => rfl, by simp, by simp, fun _ => ⟨hr, .inl ⟨.inl rfl, rfl⟩⟩, by simp⟩
  · intro c1 es1 hst hr he
    have h0 := hm.early (by rw [hst]; trivial)
    have hf := (hok.early (by rw [hst]; trivial))
    subst h0
    obtain ⟨rfl, rfl⟩ := emit_zero hf.2 he
    refine ⟨by simp [IsEarly], by simp, ?_, by simp [hf.2], by simp [Limited]⟩
    intro _ _
    exact .inr ⟨[], rfl, by simp [run, view, hf.1], hr⟩
  · intro hst hr
    have h0 := hm.early (by rw [hst]; trivial)
    have hf := (hok.early (by rw [hst]; trivial)).2
    subst h0
    exact ⟨fun _ => rfl, fun _ => hr, by simp [IsEarly], by simp [hf], by simp⟩
  · intro w hst h1 h2
    have h0 := hm.early (by rw [hst]; trivial)
    have hf := (hok.early (by rw [hst]; trivial)).2
    subst h0
    exact ⟨fun _ => rfl, fun _ => hm.callReq (.inl hst), by simp [IsEarly], by simp [hf], by simp⟩
  · intro c1 es1 hst he
    have h0 := hm.early (by rw [hst]; trivial)
    have hf := (hok.early (by rw [hst]; trivial))
    subst h0
    obtain ⟨rfl, rfl⟩ := emit_zero hf.2 he
    refine ⟨by simp [IsEarly], by simp, ?_, by simp [hf.2], ?_⟩
    · intro _ _
      exact .inl ⟨d, [], rfl, by simp [run, view, hf.1], hm.callReq (.inr hst)⟩
    · have hw := hok.wanted
      rw [hst] at hw
      simp only [WantedOk] at hw
      simp [Limited, hd]
      omega
  · intro w hst hi h1 h2
    refine nil _ (by rw [hst]; simp [IsEarly]) (by simp [IsEarly]) rfl ?_
    simp [view, hst, inValue]
  · intro c1 es1 hst he
    have hin := hok.named (.inl hst)
    have hf : c.fault = 0 := by
      by_cases hf : c.fault = 0
      · exact hf
      · have := hok.fault hf
        simp [insideStruct, this] at hin
    obtain ⟨rfl, rfl⟩ := emit_zero hf he
    refine hm.extend (by rw [hst]; simp [IsEarly]) hf (by simp [IsEarly]) hf ?_ ?_
    · cases hs : c1.stack with
      | nil => simp [insideStruct, hs] at hin
      | cons f s =>
        have hf := hok.stack f (by rw [hs]; simp)
        obtain ⟨m, k⟩ := f
        simp only at hf
        obtain ⟨m', rfl⟩ : ∃ m', m = m' + 1 := ⟨m - 1, by omega⟩
        simp [insideStruct, hs] at hin
        subst hin
        simp [view, hs, hst, inValue, run, nest, ck]
    · have hw := hok.wanted
      rw [hst] at hw
      simp only [WantedOk] at hw
      simp [Limited, hd]
      omega
  · intro st w hst hw hp
    have hne : ¬ IsEarly c.st := by
      rcases hst with h | h
      · rw [h.1]; simp [IsEarly]
      · rw [h]; simp [IsEarly]
    refine nil _ hne (inValue_not_early (payload_inValue (.inl hp))) rfl ?_
    have hi := payload_inValue (.inl hp)
    unfold view
    simp only
    cases hs : c.stack with
    | nil => rfl
    | cons f s =>
      simp only [hi]
      rcases hst with h | h
      · have : f.kind = .array := by
          have := h.2; simp [insideStruct, hs] at this
          cases hk : f.kind <;> simp_all
        simp [this]
      · rw [h]; simp [inValue]
  · intro e c1 es1 hst hev _ he
    exact hm.value hok (tag_inValue hst) hev he
  · intro st w hst hw
    have hne : ¬ IsEarly c.st := by
      rcases hst with h | h <;> rw [h.1] <;> simp [IsEarly]
    refine nil _ hne ?_ rfl ?_
    · rcases hst with h | h <;> rw [h.2] <;> simp [IsEarly]
    · rcases hst with h | h <;> simp [view, h.1, h.2, inValue]
  · intro e c1 es1 hst hev _ he
    exact hm.value hok (.inl (payload_inValue hst)) hev he
  · intro k n c1 es1 hst h1 h2 he
    obtain ⟨hf, rfl, rfl⟩ := emit_open he
    refine hm.extend (inValue_not_early (payload_inValue (.inl hst))) hf (by simp [IsEarly]) hf ?_ ?_
    · have := item_view hok (.inl (payload_inValue (.inl hst)))
      cases k <;> simp [run, openEv, nest, this] <;> simp [view, ck, inValue]
    · cases k <;> simp [openEv, Limited, h2]
  · intro k c1 es1 c2 es2 hst he he2
    obtain ⟨hf, rfl, rfl⟩ := emit_open he
    obtain ⟨_, rfl, rfl⟩ := emit_close he2
    have hit := item_view hok (.inl (payload_inValue (.inl hst)))
    refine hm.extend (inValue_not_early (payload_inValue (.inl hst))) hf (by simp [finalize, IsEarly]) (by simpa [finalize] using hf) ?_ ?_
    · have := closeUp_run c2.stack hok.stack (finalize c2 ([openEv k 0] ++ [closeEv k])).1 rfl rfl
      cases k <;> simpa [run, finalize, openEv, closeEv, nest, hit] using this
    · intro x hx
      simp only [finalize, List.mem_append, List.mem_singleton] at hx
      rcases hx with (rfl | rfl) | hx
      · cases k <;> simp [openEv, Limited]
      · cases k <;> simp [closeEv, Limited]
      · exact closeUp_limited _ x hx

theorem Steps.made {c p es es' c' p'} (hok : Ok c) (hm : Made req c es) (h : Steps req stop c p es' c' p') :
    Made req c' (es ++ es') := by
  induction h generalizing es with
  | refl => simpa using hm
  | cons h hs hr ih =>
    rw [← List.append_assoc]
    exact ih (step_ok hok (take_len h) hs) (hm.step hok (take_len h) hs)

end BinUnMarshaller
end Frpc
