import Verif.Proofs.Message
/-! # Determinism of decoding and prefix-freeness of the builder calls -/
namespace Frpc
open BinMarshaller BinUnMarshaller TreeBuilder
open Spec (plainWith plainItemsWith plainMembersWith)

variable {req : Req} {stop : Bool}

/-- Two runs from the same point: one continues the other. -/
theorem _root_.Frpc.BinUnMarshaller.Steps.linear {c p es1 c1 p1} (h1 : Steps req stop c p es1 c1 p1) :
    ∀ {es2 c2 p2}, Steps req stop c p es2 c2 p2 →
      (∃ es, Steps req stop c1 p1 es c2 p2 ∧ es2 = es1 ++ es) ∨ (∃ es, Steps req stop c2 p2 es c1 p1 ∧ es1 = es2 ++ es) := by
  induction h1 with
  | refl => intro es2 c2 p2 h; exact .inl ⟨es2, h, by simp⟩
  | @cons c p ca ea eb cb pb h hs hr ih =>
    intro es2 c2 p2 h2
    cases h2 with
    | refl => exact .inr ⟨_, .cons h hs hr, by simp⟩
    | cons h' hs' hr' =>
      rw [hs] at hs'
      cases hs'
      rcases ih hr' with ⟨es, ha, hb⟩ | ⟨es, ha, hb⟩
      · exact .inl ⟨es, ha, by rw [hb, List.append_assoc]⟩
      · exact .inr ⟨es, ha, by rw [hb, List.append_assoc]⟩

theorem emit_nonempty {c c1 : Core} {e es} (hf : c.fault = 0) (h : emit c e = .ok (c1, es)) : es ≠ [] := by
  rw [(emit_zero hf h).2]; simp

/-- Outside a fault and the message header, a step that makes no builder call does not end a value. -/
theorem step_silent {c c' : Core} {d : Bytes} (hok : Ok c) (hd : d.length = c.wanted) (hf : c.fault = 0)
    (he : ¬ IsEarly c.st) (h : step req stop c d = .ok (some (c', []))) :
    c'.fault = 0 ∧ ¬ IsEarly c'.st ∧ c'.st ≠ .valueType := by
  have key : ([] : List Event) = [] → c'.fault = 0 ∧ ¬ IsEarly c'.st ∧ c'.st ≠ .valueType := by
    refine step_elim (P := fun c' es => es = [] → c'.fault = 0 ∧ ¬ IsEarly c'.st ∧ c'.st ≠ .valueType) hok hd h
      ?_ ?_ ?_ ?_ ?_ ?_ ?_ ?_ ?_ ?_ ?_ ?_ ?_ ?_
    · intro _ _ hst; exact absurd (by rw [hst]; trivial) he
    · intro hst; exact absurd (by rw [hst]; trivial) he
    · intro _ _ hst; exact absurd (by rw [hst]; trivial) he
    · intro hst; exact absurd (by rw [hst]; trivial) he
    · intro _ hst; exact absurd (by rw [hst]; trivial) he
    · intro _ _ hst; exact absurd (by rw [hst]; trivial) he
    · intro w _ _ _ _ _; exact ⟨hf, by simp [IsEarly], by simp⟩
    · intro c1 es1 _ hem hn; exact absurd hn (emit_nonempty hf hem)
    · intro st w _ _ hp _
      refine ⟨hf, ?_, ?_⟩
      · exact inValue_not_early (payload_inValue (.inl hp))
      · intro h; simp only at h; rw [h] at hp; exact hp.elim
    · intro e c1 es1 _ _ _ hem hn
      simp only [finalize, List.append_eq_nil_iff] at hn
      exact absurd hn.1 (emit_nonempty hf hem)
    · intro st w hst _ _
      rcases hst with ⟨_, rfl⟩ | ⟨_, rfl⟩ <;> exact ⟨hf, by simp [IsEarly], by simp⟩
    · intro e c1 es1 _ _ _ hem hn
      simp only [finalize, List.append_eq_nil_iff] at hn
      exact absurd hn.1 (emit_nonempty hf hem)
    · intro k n c1 es1 _ _ _ hem hn; exact absurd hn (emit_nonempty hf hem)
    · intro k c1 es1 c2 es2 _ hem _ hn
      simp only [finalize, List.append_eq_nil_iff] at hn
      exact absurd hn.1.1 (emit_nonempty hf hem)
  exact key rfl

theorem steps_silent {c c' : Core} {p p' : Bytes} {es : List Event} (h : Steps req stop c p es c' p') :
    Ok c → c.fault = 0 → ¬ IsEarly c.st → es = [] → c'.st = .valueType → (c.st = .valueType ∧ p' = p) ∨ False := by
  suffices H : Ok c → c.fault = 0 → ¬ IsEarly c.st → es = [] → (c' = c ∧ p' = p) ∨ c'.st ≠ .valueType by
    intro a b d e f
    rcases H a b d e with ⟨rfl, rfl⟩ | h
    · exact .inl ⟨f, rfl⟩
    · exact absurd f h
  induction h with
  | refl => intros; exact .inl ⟨rfl, rfl⟩
  | @cons c p c1 es1 es2 c2 p2 hl hs hr ih =>
    intro hok hf he hn
    rw [List.append_eq_nil_iff] at hn
    obtain ⟨rfl, rfl⟩ := hn
    have h1 := step_silent hok (take_len hl) hf he hs
    have hok1 : Ok c1 := Steps.ok hok (Steps.cons hl hs .refl)
    rcases ih hok1 h1.1 h1.2.1 rfl with ⟨rfl, _⟩ | h
    · exact .inr h1.2.2
    · exact .inr h

/-- The value a scalar builder call carries. -/
def valueOf : Event → Option Value
  | .int n => some (.int n)
  | .bool b => some (.bool b)
  | .double x => some (.double x)
  | .string s => some (.string s)
  | .dateTime d => some (.dateTime d)
  | .binary s => some (.binary s)
  | .null => some .null
  | _ => none

theorem evs_cases (ver : Version) : ∀ v : Value,
    (∃ e, evs ver v = [e] ∧ valueOf e = some (plainWith (receivedDate ver) v)) ∨
    (∃ vs, evs ver v = .openArray vs.length :: (evsItems ver vs ++ [.closeArray]) ∧
      plainWith (receivedDate ver) v = .array (plainItemsWith (receivedDate ver) vs)) ∨
    (∃ ms, evs ver v = .openStruct ms.length :: (evsMembers ver ms ++ [.closeStruct]) ∧
      plainWith (receivedDate ver) v = .struct (plainMembersWith (receivedDate ver) ms))
  | .int _ => .inl ⟨_, rfl, rfl⟩
  | .bool _ => .inl ⟨_, rfl, rfl⟩
  | .double _ => .inl ⟨_, rfl, rfl⟩
  | .string _ => .inl ⟨_, rfl, rfl⟩
  | .stringView _ => .inl ⟨_, rfl, rfl⟩
  | .binary _ => .inl ⟨_, rfl, rfl⟩
  | .binaryRef _ => .inl ⟨_, rfl, rfl⟩
  | .dateTime _ => .inl ⟨_, rfl, rfl⟩
  | .null => .inl ⟨_, rfl, rfl⟩
  | .array vs => .inr (.inl ⟨vs, rfl, rfl⟩)
  | .struct ms => .inr (.inr ⟨ms, rfl, rfl⟩)
  | .secret v => by
    have := evs_cases ver v
    simpa only [evs, plainWith] using this

/-- The calls of one value are no proper prefix of those of another, and determine the value. -/
theorem evs_prefix (ver : Version) : ∀ (n : Nat) (v w : Value) (a b : List Event), (evs ver v).length ≤ n → evs ver v ++ a = evs ver w ++ b →
    plainWith (receivedDate ver) v = plainWith (receivedDate ver) w ∧ a = b := by
  intro n
  induction n with
  | zero =>
    intro v w a b h
    rcases evs_cases ver v with ⟨e, h1, _⟩ | ⟨vs, h1, _⟩ | ⟨ms, h1, _⟩ <;> rw [h1] at h <;> simp at h
  | succ n ih =>
    have items : ∀ (vs ws : List Value) (a b : List Event), vs.length = ws.length → (evsItems ver vs).length ≤ n →
        evsItems ver vs ++ a = evsItems ver ws ++ b →
        plainItemsWith (receivedDate ver) vs = plainItemsWith (receivedDate ver) ws ∧ a = b := by
      intro vs
      induction vs with
      | nil =>
        intro ws a b hl _ h
        cases ws with
        | nil => exact ⟨rfl, h⟩
        | cons => simp at hl
      | cons v vs ihl =>
        intro ws a b hl hn h
        cases ws with
        | nil => simp at hl
        | cons w ws =>
          simp only [evsItems, List.append_assoc, List.length_append] at h hn
          obtain ⟨h1, h2⟩ := ih v w _ _ (by omega) h
          obtain ⟨h3, h4⟩ := ihl ws a b (by simpa using hl) (by omega) h2
          exact ⟨by simp only [plainItemsWith, h1, h3], h4⟩
    have members : ∀ (vs ws : List (Bytes × Value)) (a b : List Event), vs.length = ws.length → (evsMembers ver vs).length ≤ n →
        evsMembers ver vs ++ a = evsMembers ver ws ++ b →
        plainMembersWith (receivedDate ver) vs = plainMembersWith (receivedDate ver) ws ∧ a = b := by
      intro vs
      induction vs with
      | nil =>
        intro ws a b hl _ h
        cases ws with
        | nil => exact ⟨rfl, h⟩
        | cons => simp at hl
      | cons v vs ihl =>
        intro ws a b hl hn h
        cases ws with
        | nil => simp at hl
        | cons w ws =>
          obtain ⟨k, v⟩ := v
          obtain ⟨k', w⟩ := w
          simp only [evsMembers, List.append_assoc, List.length_append, List.cons_append, List.length_cons, List.cons.injEq,
            Event.member.injEq] at h hn
          obtain ⟨rfl, h⟩ := h
          obtain ⟨h1, h2⟩ := ih v w _ _ (by omega) h
          obtain ⟨h3, h4⟩ := ihl ws a b (by simpa using hl) (by omega) h2
          exact ⟨by simp only [plainMembersWith, h1, h3], h4⟩
    intro v w a b hn h
    rcases evs_cases ver v with ⟨e, h1, p1⟩ | ⟨vs, h1, p1⟩ | ⟨ms, h1, p1⟩ <;>
      rcases evs_cases ver w with ⟨e', h2, p2⟩ | ⟨vs', h2, p2⟩ | ⟨ms', h2, p2⟩ <;>
        rw [h1] at h hn <;> rw [h2] at h
    · simp only [List.cons_append, List.nil_append, List.cons.injEq] at h
      obtain ⟨rfl, rfl⟩ := h
      rw [p1] at p2
      exact ⟨Option.some.inj p2, rfl⟩
    · simp only [List.cons_append, List.nil_append, List.cons.injEq] at h
      rw [h.1] at p1; exact nomatch (show (none : Option Value) = some _ from p1)
    · simp only [List.cons_append, List.nil_append, List.cons.injEq] at h
      rw [h.1] at p1; exact nomatch (show (none : Option Value) = some _ from p1)
    · simp only [List.cons_append, List.nil_append, List.cons.injEq] at h
      rw [← h.1] at p2; exact nomatch (show (none : Option Value) = some _ from p2)
    · simp only [List.cons_append, List.append_assoc, List.cons.injEq, Event.openArray.injEq, List.length_cons, List.length_append] at h hn
      obtain ⟨h3, h4⟩ := items vs vs' _ _ h.1 (by omega) h.2
      simp only [List.nil_append, List.cons.injEq, true_and] at h4
      exact ⟨by rw [p1, p2, h3], h4⟩
    · simp at h
    · simp only [List.cons_append, List.nil_append, List.cons.injEq] at h
      rw [← h.1] at p2; exact nomatch (show (none : Option Value) = some _ from p2)
    · simp at h
    · simp only [List.cons_append, List.append_assoc, List.cons.injEq, Event.openStruct.injEq, List.length_cons, List.length_append] at h hn
      obtain ⟨h3, h4⟩ := members ms ms' _ _ h.1 (by omega) h.2
      simp only [List.nil_append, List.cons.injEq, true_and] at h4
      exact ⟨by rw [p1, p2, h3], h4⟩

/-- The first members of a struct that has more. -/
theorem codecMembersPrefix {strOk : Bytes → Bool} {ver : Version} (hv : ver.Known) (j : Nat) :
    ∀ (ms : List (Bytes × Value)), WireOkMembers strOk ver ms → ∃ ws,
    run strOk ver (feedMembers ms) = (ws, none) ∧
    (∀ (c : Core) (s : List Frame) (q : Bytes), c.ver = ver → c.fault = 0 → ms.length + j + 1 < 2 ^ 30 →
      Steps req stop (inside c .struct (ms.length + j + 1) s) (ws.flatten ++ q) (evsMembers ver ms) (inside c .struct (j + 1) s) q)
  | [], _ => ⟨[], rfl, fun c s q _ _ _ => by
      simp only [List.length_nil, Nat.zero_add, List.flatten_nil, List.nil_append, evsMembers]; exact .refl⟩
  | (k, v) :: vs, h => by
      unfold WireOkMembers at h
      obtain ⟨w1, hw1, hd1⟩ := codec (req := req) (stop := stop) hv v h.2.1
      obtain ⟨w2, hw2, hd2⟩ := codecMembersPrefix hv j vs h.2.2
      have hk := h.1
      have hp : pack strOk ver (.packStructMember k) = ([[UInt8.ofNat k.length], k], none) := by
        have hc : (decide (k.length > 255) || k.length == 0) = false := by
          rw [Bool.or_eq_false_iff]; exact ⟨decide_eq_false (by omega), beq_eq_false_iff_ne.2 (by omega)⟩
        simp only [pack, hc]; rfl
      refine ⟨[[UInt8.ofNat k.length], k] ++ (w1 ++ w2), ?_, fun c s q hc hf hl => ?_⟩
      · simp only [feedMembers, sz32_take (show k.length < 2 ^ 30 by omega)]
        rw [run_cons _ _ _ _ _ hp, run_append _ _ _ _ _ hw1, hw2]
      · have s0 := dec_member (req := req) (stop := stop) (c := inside c .struct (vs.length + j + 2) s) rfl rfl rfl hf k
          (w1.flatten ++ (w2.flatten ++ q)) hk.1 hk.2
        have hr : Ready ver { inside c .struct (vs.length + j + 2) s with st := .realValueType, wanted := 1 } :=
          ⟨⟨.inr rfl, rfl, hc⟩, hf⟩
        have s1 := hd1 _ (w2.flatten ++ q) hr
        have e0 : ([[UInt8.ofNat k.length], k] ++ (w1 ++ w2)).flatten ++ q =
            UInt8.ofNat k.length :: (k ++ (w1.flatten ++ (w2.flatten ++ q))) := by simp
        rw [e0]
        have s2 := hd2 c s q hc hf (by simp only [List.length_cons] at hl ⊢; omega)
        simp only [List.length_cons] at hl
        have el : (vs.length + 1 + j + 1) = vs.length + j + 2 := by omega
        simp only [inside, after] at s1 s0
        rw [closeUp_more _ _ (by omega)] at s1
        have := s0.trans (s1.trans s2)
        simpa [evsMembers, inside, el] using this

end Frpc
