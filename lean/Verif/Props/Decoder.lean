import Verif.Proofs.Partial
/-!
# Properties of the binary unmarshaller on arbitrary input (C04, C11–C16, C18, C59)

`unMarshallAll B req init b ps` is a fresh unmarshaller for message type `req` that
is given the pieces `ps` one after another, with builder `B` in state `b`; it yields
the object, the builder and the exception, if any.
-/
namespace Frpc
namespace BinUnMarshaller
variable {β : Type}

/-- The builder calls made for the pieces (by a builder that never throws). -/
def trace (req : Req) (ps : List Bytes) : List Event := (unMarshallAll traceBuilder req init [] ps).2.1

/-- The response `CA 11 02 01 70 <struct{a: 5}>` used in the examples. -/
def sample : Bytes := [0xCA, 0x11, 2, 1, 0x70, 0x50, 1, 1, 97, 0x38, 5]

example : trace .response [sample] = [.methodResponse, .openStruct 1, .member [97], .int 5, .closeStruct] := by rfl

/-- **C04.** For every builder (throwing or not), every division of the stream into pieces gives the same
builder state and the same error (class) as one call with the whole stream, and when
no error occurred the same unmarshaller object. -/
theorem C04_chunking (B : Builder β) (req : Req) (b : β) (ps : List Bytes) :
    let many := unMarshallAll B req init b ps
    let one := unMarshall B req init b ps.flatten
    many.2.1 = one.2.1 ∧ many.2.2 = one.2.2 ∧ (one.2.2 = none → many.1 = one.1) := by
  obtain ⟨c1, p1, b1, x1, n1, q, h1, h2, h3, _⟩ := unMarshallAll_eval (B := B) (req := req) (o := init) (b := b) (ps := ps) Rest.init
  obtain ⟨c2, p2, b2, x2, n2, h4, h5, _⟩ := unMarshall_eval (B := B) (req := req) (o := init) (b := b) (data := ps.flatten) Rest.init
  obtain ⟨rfl, hp, rfl, rfl, rfl⟩ := h1.det h4
  simp only [h2, h5]
  refine ⟨trivial, ?_, ?_⟩
  · cases x1 <;> rfl
  · intro hn
    have : x1.err = none := by cases x1 <;> simp_all [Exit.err]
    rw [← hp, h3 this, List.append_nil]

/-- Two divisions of the same stream cannot be told apart, also when `finish` is called after them. -/
theorem C04_chunking_finish (B : Builder β) (req : Req) (b : β) (ps qs : List Bytes) (h : ps.flatten = qs.flatten) :
    let x := unMarshallAll B req init b ps
    let y := unMarshallAll B req init b qs
    x.2.1 = y.2.1 ∧ x.2.2 = y.2.2 ∧ (x.2.2 = none → finish x.1 = finish y.1) := by
  have h1 := C04_chunking B req b ps
  have h2 := C04_chunking B req b qs
  rw [h] at h1
  simp only at h1 h2 ⊢
  refine ⟨by rw [h1.1, h2.1], by rw [h1.2.1, h2.2.1], fun hn => ?_⟩
  rw [h1.2.1] at hn
  rw [h1.2.2 hn, h2.2.2 hn]

example : unMarshallAll traceBuilder .response init [] [[0xCA], [], [0x11, 2, 1, 0x70, 0x50], [1, 1, 97, 0x38], [5]]
    = unMarshall traceBuilder .response init [] sample := by rfl

/-- **C04 (one trace).** What any builder is asked to do is a prefix of the trace of the stream, and the
whole trace unless the builder itself throws. -/
theorem C04_any_builder (B : Builder β) (req : Req) (b b' : β) (o : Obj) (ps : List Bytes) (err : Option Err)
    (h : unMarshallAll B req init b ps = (o, b', err)) :
    (applyEvents B b (trace req ps) = (b', none) ∧ err = (unMarshallAll traceBuilder req init [] ps).2.2) ∨
    (∃ es rest e, trace req ps = es ++ rest ∧ applyEvents B b es = (b', some e) ∧ err = some e) := by
  obtain ⟨c1, p1, b1, x1, n1, q, h1, h2, h3, _⟩ := unMarshallAll_eval (B := B) (req := req) (o := init) (b := b) (ps := ps) Rest.init
  obtain ⟨c2, p2, t, x2, n2, q2, h4, h5, h6, _⟩ := unMarshallAll_eval (B := traceBuilder) (req := req) (o := init) (b := []) (ps := ps) Rest.init
  have ht : trace req ps = t := by unfold trace; rw [h5]
  rw [h2] at h
  simp only [Prod.mk.injEq] at h
  obtain ⟨rfl, rfl, rfl⟩ := h
  rw [ht, h5]
  -- compare the two runs
  have key : ∀ {c p b c1 p1 b1 x1 n1}, Eval B req false c p b c1 p1 b1 x1 n1 →
      ∀ {t0 c2 p2 t x2 n2}, Eval traceBuilder req false c p t0 c2 p2 t x2 n2 →
      ∃ es, t = t0 ++ es ∧ ((applyEvents B b es = (b1, none) ∧ x1 = x2) ∨
        (∃ a r e, es = a ++ r ∧ applyEvents B b a = (b1, some e) ∧ x1 = .threw e)) := by
    intro c p b c1 p1 b1 x1 n1 h
    induction h with
    | more h =>
      intro t0 c2 p2 t x2 n2 h'
      cases h' <;> first | exact ⟨[], by simp, .inl ⟨rfl, rfl⟩⟩ | contradiction
    | err h hs =>
      intro t0 c2 p2 t x2 n2 h'
      cases h' with
      | more h' => contradiction
      | err h' hs' => rw [hs] at hs'; cases hs'; exact ⟨[], by simp, .inl ⟨rfl, rfl⟩⟩
      | stopped h' hs' => rw [hs] at hs'; cases hs'
      | bthrow h' hs' ha' => rw [hs] at hs'; cases hs'
      | next h' hs' ha' hr' => rw [hs] at hs'; cases hs'
    | stopped h hs => exact absurd (step_none hs).1 (by simp)
    | @bthrow c p b c' es b' e h hs ha =>
      intro t0 c2 p2 t x2 n2 h'
      cases h' with
      | more h' => contradiction
      | err h' hs' => rw [hs] at hs'; cases hs'
      | stopped h' hs' => rw [hs] at hs'; cases hs'
      | bthrow h' hs' ha' => rw [applyEvents_trace] at ha'; simp at ha'
      | next h' hs' ha' hr' =>
        rw [hs] at hs'; cases hs'
        rw [applyEvents_trace] at ha'
        simp only [Prod.mk.injEq, and_true] at ha'
        subst ha'
        obtain ⟨es2, hst, hc⟩ := hr'.steps
        have : ∃ es2, t = t0 ++ es ++ es2 := by
          rcases hc with ⟨_, es3, e3, ha3, _⟩ | ⟨ha3, _⟩
          · rw [applyEvents_trace] at ha3; simp at ha3
          · rw [applyEvents_trace] at ha3
            simp only [Prod.mk.injEq, and_true] at ha3
            exact ⟨es2, ha3.symm⟩
        obtain ⟨es2, rfl⟩ := this
        exact ⟨es ++ es2, by simp, .inr ⟨es, es2, e, rfl, ha, rfl⟩⟩
    | @next c p b c' es b' c2 p2 b2 x n h hs ha hr ih =>
      intro t0 c2 p2 t x2 n2 h'
      cases h' with
      | more h' => contradiction
      | err h' hs' => rw [hs] at hs'; cases hs'
      | stopped h' hs' => rw [hs] at hs'; cases hs'
      | bthrow h' hs' ha' => rw [applyEvents_trace] at ha'; simp at ha'
      | next h' hs' ha' hr' =>
        rw [hs] at hs'; cases hs'
        rw [applyEvents_trace] at ha'
        simp only [Prod.mk.injEq, and_true] at ha'
        subst ha'
        obtain ⟨es2, rfl, hc⟩ := ih hr'
        refine ⟨es ++ es2, by simp, ?_⟩
        rcases hc with ⟨h7, h8⟩ | ⟨a, r, e, rfl, h7, h8⟩
        · refine .inl ⟨?_, h8⟩
          rw [applyEvents_append, ha]; exact h7
        · refine .inr ⟨es ++ a, r, e, by simp, ?_, h8⟩
          rw [applyEvents_append, ha]; exact h7
  obtain ⟨es, rfl, hc⟩ := key h1 h4
  rcases hc with ⟨h7, rfl⟩ | ⟨a, r, e, rfl, h7, rfl⟩
  · exact .inl ⟨by simpa using h7, rfl⟩
  · exact .inr ⟨a, r, e, by simp, h7, rfl⟩

/-- **C12.** Decoding never runs into undefined behaviour (reads beyond the bytes
given, scratch-buffer overflow) unless the builder does: for every input and chunking
the only error the decoder itself raises is a stream error. -/
theorem C12_no_undefined_behaviour (B : Builder β) (req : Req) (b : β) (ps : List Bytes) (e : Err)
    (h : (unMarshallAll B req init b ps).2.2 = some e) :
    e = .stream ∨ ∃ s ev, B.build s ev = .error e := by
  obtain ⟨c', p', b', x, n, q, h1, h2, h3, _⟩ := unMarshallAll_eval (B := B) (req := req) (o := init) (b := b) (ps := ps) Rest.init
  rw [h2] at h
  have hap : ∀ (es : List Event) (s s' : β), applyEvents B s es = (s', some e) → ∃ s ev, B.build s ev = .error e := by
    intro es
    induction es with
    | nil => intro s s' h; simp [applyEvents] at h
    | cons ev es ih =>
      intro s s' h
      unfold applyEvents at h
      cases hb : B.build s ev with
      | error y => rw [hb] at h; simp at h; exact ⟨s, ev, by rw [hb, h.2]⟩
      | ok s1 => rw [hb] at h; exact ih _ _ h
  obtain ⟨es, hs, hc⟩ := h1.steps
  rcases hc with ⟨c2, es2, e', ha, rfl, _⟩ | ⟨_, hx⟩
  · simp [Exit.err] at h; subst h; exact .inr (hap _ _ _ ha)
  · rcases hx with ⟨rfl, _⟩ | ⟨rfl, _⟩ | ⟨e', rfl, hw, hx⟩
    · simp [Exit.err] at h
    · simp [Exit.err] at h
    · simp [Exit.err] at h; subst h
      exact .inl (step_err (hs.ok Ok.init) (take_len hw) hx)

example : (unMarshall traceBuilder .any init [] [0xCA, 0x11, 3, 0, 0x70, 0x27, 255, 255, 255, 255, 255, 255, 255, 255]).2.2 = some .stream := by rfl

/-- **C13.** The total number of loop passes over a whole stream, however divided, is at most twice the
number of bytes plus two, whatever sizes the stream announces. -/
theorem C13_linear_work (B : Builder β) (req : Req) (b : β) (ps : List Bytes) :
    iterationsAll B req init b ps ≤ 2 * ps.flatten.length + 2 := by
  obtain ⟨c', p', b', x, n, q, h1, _, _, h4⟩ := unMarshallAll_eval (B := B) (req := req) (o := init) (b := b) (ps := ps) Rest.init
  have := h1.iters Ok.init
  rw [h4]
  simp [pot, init] at this ⊢
  omega

/-- **C13 (termination).** The model's loop bound is never what ends a call: each `unMarshall` call terminates. -/
theorem C13_terminates (req : Req) (ps : List Bytes) :
    (unMarshallAll traceBuilder req init [] ps).2.2 ≠ some .fuel := by
  intro h
  rcases C12_no_undefined_behaviour traceBuilder req [] ps .fuel h with h | ⟨s, ev, h⟩
  · cases h
  · simp [traceBuilder] at h

example : iterationsAll traceBuilder .response init [] [sample] = 8 := by rfl

open Spec in
/-- **C14.** For every input the builder calls form a legal sequence in the sense of `Spec.Legal`; and if the
pieces were accepted and `finish` succeeds, every opened container has been closed. -/
theorem C14_well_nested (req : Req) (ps : List Bytes) :
    (∃ hdr opens, Legal (trace req ps) hdr opens) ∧
    ∀ o t, unMarshallAll traceBuilder req init [] ps = (o, t, none) → finish o = .ok () →
      ∃ hdr, Legal (trace req ps) hdr [] := by
  obtain ⟨c, p, q, hs, ho, _, _⟩ := trace_steps (req := req) (ps := ps)
  have hok := hs.ok Ok.init
  have hm := hs.made Ok.init Made.init
  rw [List.nil_append] at hm
  change Made req c (trace req ps) at hm
  have hl : ∃ hdr, Legal (trace req ps) hdr (if c.fault = 0 then view c else []) := by
    by_cases he : IsEarly c.st
    · rw [hm.early he]
      have := hok.early he
      rw [if_pos this.2]
      simp only [view, this.1]
      exact ⟨_, .empty⟩
    · by_cases hf : c.fault = 0
      · rw [if_pos hf]
        rcases hm.plain he hf with ⟨name, body, h, hr, _⟩ | ⟨body, h, hr, _⟩
        · rw [h]; exact ⟨_, .call _ _ _ hr⟩
        · rw [h]; exact ⟨_, .response _ _ hr⟩
      · rw [if_neg hf]
        rcases (hm.fault hf).2 with ⟨_, h⟩ | ⟨_, n, m, h⟩
        · rw [h]; exact ⟨_, .empty⟩
        · rw [h]; exact ⟨_, .fault _ _⟩
  refine ⟨⟨_, _, hl.choose_spec⟩, ?_⟩
  intro o t h hfin
  obtain ⟨hdr, hl⟩ := hl
  rw [h] at ho
  simp only at ho
  subst ho
  unfold finish at hfin
  split at hfin
  · cases hfin
  · rename_i hn
    simp only [not_or, Nat.not_lt, Nat.le_zero_eq] at hn
    have : c.stack = [] := List.eq_nil_of_length_eq_zero hn.2
    refine ⟨hdr, ?_⟩
    have hv : view c = [] := by simp [view, this]
    rw [hv] at hl
    simpa using hl

example : Spec.run [] [.openStruct 1, .member [97], .int 5, .closeStruct] = some [] := by rfl
example : Spec.run [] [.openStruct 1, .int 5, .closeStruct] = none := by rfl
example : Spec.run [] [.openArray 2, .int 5, .closeArray] = none := by rfl

/-- **C11, as stated, is false.** `finish` accepts a response that carries no value, a fault that carries neither
code nor message (the builder is never called), and a fault with a code but no message. -/
theorem C11_violated :
    (∃ o, unMarshallAll traceBuilder .response init [] [[0xCA, 0x11, 2, 1, 0x70]] = (o, [.methodResponse], none) ∧ finish o = .ok ()) ∧
    (∃ o, unMarshallAll traceBuilder .response init [] [[0xCA, 0x11, 2, 1, 0x78]] = (o, [], none) ∧ finish o = .ok ()) ∧
    (∃ o, unMarshallAll traceBuilder .response init [] [[0xCA, 0x11, 2, 1, 0x78, 0x38, 5]] = (o, [], none) ∧ finish o = .ok ()) :=
  ⟨⟨_, rfl, rfl⟩, ⟨_, rfl, rfl⟩, ⟨_, rfl, rfl⟩⟩

/-- **C11 (partial).** If the pieces were accepted and `finish` succeeds, no byte is pending, the
header was complete, and every announced container received all its items.  Missing
compared with the full claim: the value of a response, the code and message of a
fault may be absent (`C11_violated`). -/
theorem C11_complete_partial (req : Req) (ps : List Bytes) (o : Obj) (t : List Event)
    (h : unMarshallAll traceBuilder req init [] ps = (o, t, none)) (hf : finish o = .ok ()) :
    o.buf = [] ∧ o.core.stack = [] ∧
    ((∃ name body, t = .methodCall name :: body ∧ Spec.run [] body = some []) ∨
     (∃ body, t = .methodResponse :: body ∧ Spec.run [] body = some []) ∨
     (∃ code msg, t = [.fault code msg]) ∨ t = [] ∧ o.core.fault ≠ 0) := by
  obtain ⟨c, p, q, hs, ho, hn, _⟩ := trace_steps (req := req) (ps := ps)
  have hok := hs.ok Ok.init
  have hm := hs.made Ok.init Made.init
  rw [h] at ho hn hm
  simp only [List.nil_append, forall_const] at ho hn hm
  subst ho
  unfold finish at hf
  split at hf
  · cases hf
  · rename_i hx
    simp only [not_or, Nat.not_lt, Nat.le_zero_eq, Decidable.not_not] at hx
    have hstk : c.stack = [] := List.eq_nil_of_length_eq_zero hx.2
    have hw := hok.wanted
    rw [hx.1] at hw
    simp only [WantedOk] at hw
    have hv : view c = [] := by simp [view, hstk]
    refine ⟨List.eq_nil_of_length_eq_zero (by simp only; omega), hstk, ?_⟩
    by_cases h0 : c.fault = 0
    · rcases hm.plain (by rw [hx.1]; simp [IsEarly]) h0 with ⟨name, body, h, hr, _⟩ | ⟨body, h, hr, _⟩
      · exact .inl ⟨name, body, h, by rw [hr, hv]⟩
      · exact .inr (.inl ⟨body, h, by rw [hr, hv]⟩)
    · rcases (hm.fault h0).2 with ⟨_, h⟩ | ⟨_, n, m, h⟩
      · exact .inr (.inr (.inr ⟨h, h0⟩))
      · exact .inr (.inr (.inl ⟨n, m, h⟩))

/-- **C15.** A stream that does not start with `CA 11` and a major version 1..3 is rejected with a stream error as
soon as four bytes have arrived, and no builder call was made. -/
theorem C15_bad_header (B : Builder β) (req : Req) (b : β) (ps : List Bytes) (b0 b1 b2 b3 : UInt8) (rest : Bytes)
    (hps : ps.flatten = b0 :: b1 :: b2 :: b3 :: rest)
    (hbad : b0 ≠ 0xCA ∨ b1 ≠ 0x11 ∨ b2 = 0 ∨ 3 < b2) :
    (unMarshallAll B req init b ps).2 = (b, some .stream) := by
  have h1 := C04_chunking B req b ps
  simp only at h1
  refine Prod.ext ?_ ?_
  all_goals
    first | rw [h1.1] | rw [h1.2.1]
    obtain ⟨c2, p2, b2, x2, n2, h4, h5, _⟩ := unMarshall_eval (B := B) (req := req) (o := init) (b := b) (data := ps.flatten) Rest.init
    rw [h5]
    have hstep : step req false init.core ((init.buf ++ ps.flatten).take init.core.wanted) = .error .stream := by
      rw [hps]
      simp only [init, step, List.nil_append, List.take_succ_cons, List.take_zero, rd, bind, Except.bind,
        List.getElem?_cons_zero, List.getElem?_cons_succ, pure, Except.pure, throw, throwThe, MonadExceptOf.throw]
      by_cases hm : b0 ≠ 0xCA ∨ b1 ≠ 0x11
      · rw [if_pos hm]
      · rw [if_neg hm]
        simp only [not_or, Decidable.not_not] at hm
        rw [if_pos]
        rcases hbad with h | h | h | h
        · exact absurd hm.1 h
        · exact absurd hm.2 h
        · subst h; exact .inr (by decide)
        · exact .inl h
    have hw : init.core.wanted ≤ (init.buf ++ ps.flatten).length := by rw [hps]; simp [init]
    obtain ⟨_, _, hb, hx, _⟩ := h4.det (.err hw hstep)
    simp [hb, hx]

/-- **C15 (incomplete header).** With fewer than four bytes no builder call was made either. -/
theorem C15_short_header (B : Builder β) (req : Req) (b : β) (ps : List Bytes) (h : ps.flatten.length < 4) :
    (unMarshallAll B req init b ps).2 = (b, none) := by
  have h1 := C04_chunking B req b ps
  simp only at h1
  obtain ⟨c2, p2, b2, x2, n2, h4, h5, _⟩ := unMarshall_eval (B := B) (req := req) (o := init) (b := b) (data := ps.flatten) Rest.init
  obtain ⟨_, _, hb, hx, _⟩ := h4.det (.more (by simp only [init, List.nil_append]; omega))
  refine Prod.ext ?_ ?_
  · rw [h1.1, h5]; exact hb
  · rw [h1.2.1, h5]; simp [hx]

/-- **C16.** A receiver asking for calls is never told of a response or fault. -/
theorem C16_calls_only (ps : List Bytes) :
    trace .call ps = [] ∨ ∃ name body, trace .call ps = .methodCall name :: body ∧ ∃ s, Spec.run [] body = some s := by
  obtain ⟨c, p, q, hs, _, _, _⟩ := trace_steps (req := .call) (ps := ps)
  have hm := hs.made Ok.init Made.init
  rw [List.nil_append] at hm
  change Made .call c (trace .call ps) at hm
  by_cases he : IsEarly c.st
  · exact .inl (hm.early he)
  · by_cases hf : c.fault = 0
    · rcases hm.plain he hf with ⟨name, body, h, hr, _⟩ | ⟨body, h, hr, hq⟩
      · exact .inr ⟨name, body, h, _, hr⟩
      · simp [reqAllows, T_RESPONSE, T_CALL] at hq
    · have := (hm.fault hf).1
      simp [reqAllows, T_FAULT, T_CALL] at this

/-- **C16.** A receiver asking for a response gets only a response or a fault. -/
theorem C16_responses_only (ps : List Bytes) :
    trace .response ps = [] ∨ (∃ body s, trace .response ps = .methodResponse :: body ∧ Spec.run [] body = some s) ∨
      ∃ code msg, trace .response ps = [.fault code msg] := by
  obtain ⟨c, p, q, hs, _, _, _⟩ := trace_steps (req := .response) (ps := ps)
  have hm := hs.made Ok.init Made.init
  rw [List.nil_append] at hm
  change Made .response c (trace .response ps) at hm
  by_cases he : IsEarly c.st
  · exact .inl (hm.early he)
  · by_cases hf : c.fault = 0
    · rcases hm.plain he hf with ⟨name, body, h, hr, hq⟩ | ⟨body, h, hr, hq⟩
      · simp [reqAllows, T_RESPONSE, T_CALL, T_FAULT] at hq
      · exact .inr (.inl ⟨body, _, h, hr⟩)
    · rcases (hm.fault hf).2 with ⟨_, h⟩ | ⟨_, n, m, h⟩
      · exact .inl h
      · exact .inr (.inr ⟨n, m, h⟩)

example : trace .call [sample] = [] ∧ (unMarshall traceBuilder .call init [] sample).2.2 = some .stream := by exact ⟨rfl, rfl⟩
example : trace .call [[0xCA, 0x11, 2, 1, 0x68, 1, 102, 0x38, 5]] = [.methodCall [102], .int 5] := by rfl

/-- **C18.** No builder call ever carries a count, string or binary of 2^30 or more, a name that is not
1..255 bytes, an integer outside int64 or a fault code outside int32. -/
theorem C18_limited (req : Req) (ps : List Bytes) : ∀ e ∈ trace req ps, Spec.Limited e := by
  obtain ⟨c, p, q, hs, _, _, _⟩ := trace_steps (req := req) (ps := ps)
  have hm := hs.made Ok.init Made.init
  rw [List.nil_append] at hm
  exact hm.lim

/-- **C59.** `unMarshallPartial` on a fresh or resting object that returns `k` and left the unmarshaller waiting
for a value: feeding just the first `k` bytes to `unMarshall` gives the same object and
builder; and if `k` is not the whole piece, the next byte is no known value type. -/
theorem C59_partial_count (B : Builder β) (req : Req) (o o' : Obj) (b b' : β) (data : Bytes) (k : Nat) (hr : Rest o)
    (h : unMarshallKnown B req o b data = (o', b', .ok k)) :
    k ≤ data.length ∧
    (o'.core.st = .valueType → unMarshall B req o b (data.take k) = (o', b', none)) ∧
    (∀ x, data[k]? = some x → knownTag x = false) := by
  obtain ⟨c1, p1, b1, x, n, h1, h2⟩ := known_eval (B := B) (req := req) (b := b) (data := data) hr
  rw [h2] at h
  obtain ⟨es, hs, hc⟩ := h1.steps
  obtain ⟨pre, hpre, hq⟩ := hs.unstop.prefix
  have hbuf : c1.st = .valueType → o.buf.length ≤ pre.length := by
    intro hst
    have hlen := hr.short
    -- if no step was made the state is the initial one, which wants one byte
    cases hs with
    | refl =>
      have hw := hr.ok.wanted
      rw [hst] at hw
      simp only [WantedOk] at hw
      omega
    | @cons _ _ c2 es1 es2 _ _ hle hst1 hr1 =>
      obtain ⟨pre1, hp1, _⟩ := hr1.prefix
      have : pre.length = (o.buf ++ data).length - p1.length := by rw [hpre]; simp
      have h7 : ((o.buf ++ data).drop o.core.wanted).length = pre1.length + p1.length := by rw [hp1]; simp
      simp only [List.length_drop] at h7
      omega
  have main : (x = .more ∨ x = .stopped) → (if c1.st = .valueType then ((⟨c1, []⟩ : Obj), b1, (Except.ok (data.length - p1.length) : Except Err Nat))
               else (⟨c1, p1⟩, b1, .ok data.length)) = (o', b', .ok k) → applyEvents B b es = (b1, none) →
      (x = .more → p1.length < c1.wanted) →
      (x = .stopped → c1.wanted ≤ p1.length ∧ step req true c1 (p1.take c1.wanted) = .ok none) → 
      k ≤ data.length ∧
    (o'.core.st = .valueType → unMarshall B req o b (data.take k) = (o', b', none)) ∧
    (∀ x, data[k]? = some x → knownTag x = false) := by
    intro hx h ha hmore hstop
    by_cases hst : c1.st = .valueType
    · rw [if_pos hst] at h
      simp only [Prod.mk.injEq, Except.ok.injEq] at h
      obtain ⟨rfl, rfl, rfl⟩ := h
      have hb := hbuf hst
      have hw := (hs.ok hr.ok).wanted
      rw [hst] at hw
      simp only [WantedOk] at hw
      obtain ⟨pre', rfl⟩ : ∃ pre', pre = o.buf ++ pre' := by
        have := (List.append_eq_append_iff.1 hpre)
        rcases this with ⟨a, ha, _⟩ | ⟨a, ha, _⟩
        · exact ⟨a, ha⟩
        · have : a = [] := by
            have := congrArg List.length ha
            simp at this
            exact List.eq_nil_of_length_eq_zero (by omega)
          subst this
          exact ⟨[], by simpa using ha.symm⟩
      rw [List.append_assoc] at hpre
      have hdata := List.append_cancel_left hpre
      have htake : data.take (data.length - p1.length) = pre' := by
        rw [hdata]; simp
      refine ⟨by omega, fun _ => ?_, ?_⟩
      · rw [htake]
        have h3 := hq []
        rw [List.append_nil] at h3
        obtain ⟨m, hm⟩ := h3.eval ha (Eval.more (B := B) (req := req) (stop := false) (c := c1) (p := []) (b := b1) (by simp [hw]))
        obtain ⟨c2, p2, b2, x2, n2, h4, h5, _⟩ := unMarshall_eval (B := B) (req := req) (o := o) (b := b) (data := pre') hr
        obtain ⟨rfl, rfl, rfl, rfl, _⟩ := h4.det hm
        rw [h5]
      · intro y hy
        have hlen : data.length - p1.length = pre'.length := by rw [hdata]; simp
        rw [hlen, hdata, List.getElem?_append_right (by omega)] at hy
        simp only [Nat.sub_self] at hy
        rcases hx with rfl | rfl
        · have := hmore rfl
          rw [hw] at this
          have : p1 = [] := List.eq_nil_of_length_eq_zero (by omega)
          rw [this] at hy; simp at hy
        · obtain ⟨hle, hn⟩ := hstop rfl
          obtain ⟨z, q, rfl, hk⟩ := step_none_tag (hs.ok hr.ok) hle hn
          simp at hy
          rw [← hy]; exact hk
    · rw [if_neg hst] at h
      simp only [Prod.mk.injEq, Except.ok.injEq] at h
      obtain ⟨rfl, rfl, rfl⟩ := h
      refine ⟨Nat.le_refl _, fun h => absurd h hst, ?_⟩
      intro y hy
      simp at hy
  rcases hc with ⟨c2, es2, e, ha, rfl, _⟩ | ⟨ha, hx⟩
  · simp at h
  · rcases hx with ⟨rfl, hx⟩ | ⟨rfl, hx⟩ | ⟨e, rfl, hx⟩
    · exact main (.inl rfl) h ha (fun _ => hx) (by simp)
    · exact main (.inr rfl) h ha (by simp) (fun _ => hx)
    · simp at h

example : (unMarshallKnown traceBuilder .response init [] (sample ++ [0x68, 1, 2])).2 =
    ([.methodResponse, .openStruct 1, .member [97], .int 5, .closeStruct], .ok sample.length) := by rfl

end BinUnMarshaller
end Frpc
