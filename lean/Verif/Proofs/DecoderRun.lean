import Verif.Proofs.DecoderInv
/-! Running the decoder: invariant preservation, error classes, a fuel-free
big-step relation, and independence of chunking. -/
namespace Frpc
namespace BinUnMarshaller

theorem Ok.emit {c c1 : Core} {e es} (hc : Ok c) (h : BinUnMarshaller.emit c e = .ok (c1, es)) :
    (∀ f ∈ c1.stack, 1 ≤ f.members ∧ f.members < 2 ^ 30) ∧ (c1.fault ≠ 0 → c1.stack = []) := by
  have := emit_stack h
  exact ⟨by rw [this.1]; exact hc.stack, by rw [this.1, this.2.2.2.2]; exact hc.fault⟩

theorem emit_open {c c1 : Core} {k n es} (h : emit c (openEv k n) = .ok (c1, es)) :
    c.fault = 0 ∧ c1 = c ∧ es = [openEv k n] := by
  unfold emit at h
  split at h
  · cases h; exact ⟨by assumption, rfl, rfl⟩
  · cases k <;> simp [openEv] at h

theorem emit_close {c c1 : Core} {k es} (h : emit c (closeEv k) = .ok (c1, es)) :
    c.fault = 0 ∧ c1 = c ∧ es = [closeEv k] := by
  unfold emit at h
  split at h
  · cases h; exact ⟨by assumption, rfl, rfl⟩
  · cases k <;> simp [closeEv] at h

theorem step_ok {req stop} {c c' : Core} {d es} (hok : Ok c) (hd : d.length = c.wanted)
    (h : step req stop c d = .ok (some (c', es))) : Ok c' := by
  refine step_elim (P := fun c' _ => Ok c') hok hd h ?_ ?_ ?_ ?_ ?_ ?_ ?_ ?_ ?_ ?_ ?_ ?_ ?_ ?_
  · intro maj min hst _ _ _
    exact ⟨rfl, hok.stack, hok.fault, fun _ => hok.early (by rw [hst]; trivial), by simp⟩
  · intro hst hr
    have he := hok.early (by rw [hst]; trivial)
    exact ⟨rfl, hok.stack, fun _ => he.1, by simp [IsEarly], by simp⟩
  · intro c1 es1 hst hr he
    exact ⟨rfl, (hok.emit he).1, (hok.emit he).2, by simp [IsEarly], by simp⟩
  · intro hst hr
    exact ⟨rfl, hok.stack, hok.fault, fun _ => hok.early (by rw [hst]; trivial), by simp⟩
  · intro w hst h1 h2
    exact ⟨⟨h1, h2⟩, hok.stack, hok.fault, fun _ => hok.early (by rw [hst]; trivial), by simp⟩
  · intro c1 es1 hst he
    exact ⟨rfl, (hok.emit he).1, (hok.emit he).2, by simp [IsEarly], by simp⟩
  · intro w hst hi h1 h2
    exact ⟨⟨h1, h2⟩, hok.stack, hok.fault, by simp [IsEarly], fun _ => hi⟩
  · intro c1 es1 hst he
    have hn := hok.named (.inl hst)
    refine ⟨rfl, (hok.emit he).1, (hok.emit he).2, by simp [IsEarly], fun _ => ?_⟩
    simpa [insideStruct, (emit_stack he).1] using hn
  · intro st w hst hw hp
    refine ⟨hw, hok.stack, hok.fault, ?_, ?_⟩
    · intro he; cases st <;> simp_all [IsEarly, IsPayload]
    · intro he; cases st <;> simp_all [IsPayload]
  · intro e c1 es1 _ _ _ he
    exact finalize_ok _ (hok.emit he).1 (hok.emit he).2
  · intro st w hst hw
    refine ⟨?_, hok.stack, hok.fault, ?_, ?_⟩
    · rcases hst with ⟨_, rfl⟩ | ⟨_, rfl⟩ <;> exact hw
    · rcases hst with ⟨_, rfl⟩ | ⟨_, rfl⟩ <;> simp [IsEarly]
    · rcases hst with ⟨_, rfl⟩ | ⟨_, rfl⟩ <;> simp
  · intro e c1 es1 _ _ _ he
    exact finalize_ok _ (hok.emit he).1 (hok.emit he).2
  · intro k n c1 es1 _ h1 h2 he
    have hem := emit_open he
    refine ⟨rfl, ?_, ?_, by simp [IsEarly], by simp⟩
    · intro f hf
      simp only [List.mem_cons] at hf
      rcases hf with rfl | hf
      · exact ⟨h1, h2⟩
      · exact (hok.emit he).1 f hf
    · intro hne; exact absurd (by rw [hem.2.1]; exact hem.1) hne
  · intro k c1 es1 c2 es2 _ he he2
    have h1 := emit_open he
    have h2 := emit_close he2
    rw [h2.2.1, h1.2.1]
    exact finalize_ok _ hok.stack hok.fault

/-! ### Errors -/

theorem emit_err {c : Core} {e x} (h : emit c e = .error x) : x = .stream := by
  unfold emit at h
  split at h
  · cases h
  · split at h
    · split at h
      · cases h; rfl
      · cases h
    · split at h
      · cases h; rfl
      · cases h
    · cases h; rfl

theorem bind_some_err {α} {m : Except Err α} {x : Err} (hm : ∀ y, m = .error y → y = .stream)
    (h : (do return some (← m) : Except Err (Option α)) = .error x) : x = .stream := by
  cases hs : m with
  | error y => rw [hs] at h; simp only [bind, Except.bind, Except.error.injEq] at h; rw [← h]; exact hm y hs
  | ok r => rw [hs] at h; simp [bind, Except.bind, pure, Except.pure] at h

theorem scalar_err {c : Core} {e x} (h : scalar c e = .error x) : x = .stream := by
  unfold scalar at h
  cases he : emit c e with
  | error y => rw [he] at h; simp only [bind, Except.bind, Except.error.injEq] at h; rw [← h]; exact emit_err he
  | ok r => rw [he] at h; simp [bind, Except.bind, pure, Except.pure] at h

theorem openContainer_err {c : Core} {k acc x} (h : openContainer c k acc = .error x) : x = .stream := by
  unfold openContainer at h
  simp only [bind, Except.bind, pure, Except.pure, throw, throwThe, MonadExceptOf.throw] at h
  split at h
  · cases h; rfl
  split at h
  · cases h; rfl
  split at h
  · cases h; rfl
  cases he : emit c (openEv k acc.toNat) with
  | error y => rw [he] at h; cases h; exact emit_err he
  | ok r =>
    rw [he] at h
    simp only at h
    split at h
    · cases h
    · cases he2 : emit r.1 (closeEv k) with
      | error y => rw [he2] at h; cases h; exact emit_err he2
      | ok r => rw [he2] at h; cases h

theorem lengthSize_err {l b x} (h : lengthSize l b = .error x) : x = .stream := by
  unfold lengthSize at h
  simp only at h
  split at h
  · cases h
  · split at h <;> cases h; rfl

theorem valueTag_err {stop} {c : Core} {b x} (h : valueTag stop c b = .error x) : x = .stream := by
  have ls : ∀ l st, (do goto c st (← lengthSize l b)) = .error x → x = .stream := by
    intro l st h
    cases hl : lengthSize l b with
    | error y => rw [hl] at h; simp only [bind, Except.bind, Except.error.injEq] at h; rw [← h]; exact lengthSize_err hl
    | ok w => rw [hl] at h; simp [goto, bind, Except.bind] at h
  unfold valueTag at h
  by_cases h1 : b.toNat >>> 3 = T_BOOL
  · rw [if_pos h1] at h
    split at h
    · cases h; rfl
    · exact bind_some_err (fun _ => scalar_err) h
  rw [if_neg h1] at h
  by_cases h1 : b.toNat >>> 3 = T_NULL
  · rw [if_pos h1] at h
    split at h
    · cases h; rfl
    · exact bind_some_err (fun _ => scalar_err) h
  rw [if_neg h1] at h
  by_cases h1 : b.toNat >>> 3 = T_INT
  · rw [if_pos h1] at h; exact ls _ _ h
  rw [if_neg h1] at h
  by_cases h1 : b.toNat >>> 3 = T_INTN8
  · rw [if_pos h1] at h; cases h
  rw [if_neg h1] at h
  by_cases h1 : b.toNat >>> 3 = T_INTP8
  · rw [if_pos h1] at h; cases h
  rw [if_neg h1] at h
  by_cases h1 : b.toNat >>> 3 = T_DOUBLE
  · rw [if_pos h1] at h; cases h
  rw [if_neg h1] at h
  by_cases h1 : b.toNat >>> 3 = T_DATETIME
  · rw [if_pos h1] at h; cases h
  rw [if_neg h1] at h
  by_cases h1 : b.toNat >>> 3 = T_STRING
  · rw [if_pos h1] at h; exact ls _ _ h
  rw [if_neg h1] at h
  by_cases h1 : b.toNat >>> 3 = T_BINARY
  · rw [if_pos h1] at h; exact ls _ _ h
  rw [if_neg h1] at h
  by_cases h1 : b.toNat >>> 3 = T_ARRAY
  · rw [if_pos h1] at h; exact ls _ _ h
  rw [if_neg h1] at h
  by_cases h1 : b.toNat >>> 3 = T_STRUCT
  · rw [if_pos h1] at h; exact ls _ _ h
  rw [if_neg h1] at h
  cases stop <;> cases h; rfl

theorem getDate_ok {ver : Version} {d : Bytes} (h : d.length = if ver.major > 2 then 14 else 10) :
    ∃ x, getDate ver d = .ok x := by
  unfold getDate
  split
  · rename_i hv
    rw [if_pos hv] at h
    have h8 : getInt64 (d.drop 1) 8 = .ok (i64 (leNat ((d.drop 1).take 8))) := by
      unfold getInt64; rw [if_neg (by simp; omega)]
    simp only [getDateTimeV3, rd_ok (show 0 < d.length by omega), rd_ok (show 9 < d.length by omega),
      rd_ok (show 10 < d.length by omega), rd_ok (show 11 < d.length by omega), rd_ok (show 12 < d.length by omega),
      rd_ok (show 13 < d.length by omega), h8, bind, Except.bind, pure, Except.pure]
    exact ⟨_, rfl⟩
  · rename_i hv
    rw [if_neg hv] at h
    have h8 : getInt32 (d.drop 1) 4 = .ok (i32 (leNat ((d.drop 1).take 4))) := by
      unfold getInt32; rw [if_neg (by simp; omega)]
    simp only [getDateTime, rd_ok (show 0 < d.length by omega), rd_ok (show 5 < d.length by omega),
      rd_ok (show 6 < d.length by omega), rd_ok (show 7 < d.length by omega), rd_ok (show 8 < d.length by omega),
      rd_ok (show 9 < d.length by omega), h8, bind, Except.bind, pure, Except.pure]
    exact ⟨_, rfl⟩

/-- The decoder itself only ever throws stream errors: in particular it never
reads outside the bytes it waited for nor overflows its scratch buffers. -/
theorem step_err {req stop} {c : Core} {d x} (hok : Ok c) (hd : d.length = c.wanted)
    (h : step req stop c d = .error x) : x = .stream := by
  have hw := hok.wanted
  unfold step at h
  cases hst : c.st with
  | magic =>
    rw [hst] at h hw
    simp only [WantedOk] at hw
    rw [hw] at hd
    match d, hd with
    | [a, b, maj, min], _ =>
      simp only [rd, bind, Except.bind, pure, Except.pure, throw, throwThe, MonadExceptOf.throw, List.getElem?_cons_zero, List.getElem?_cons_succ] at h
      split at h
      · cases h; rfl
      split at h
      · cases h; rfl
      cases h
  | body =>
    rw [hst] at h hw
    simp only [WantedOk] at hw
    obtain ⟨b, hb⟩ := rd_noub (d := d) (i := 0) (by omega)
    simp only [hb, bind, Except.bind, pure, Except.pure, throw, throwThe, MonadExceptOf.throw] at h
    split at h
    · cases h; rfl
    split at h
    · cases h
    split at h
    · cases he : emit c .methodResponse with
      | error x => rw [he] at h; cases h; exact emit_err he
      | ok r => rw [he] at h; cases h
    split at h
    · cases h
    · cases h; rfl
  | methodNameLen =>
    rw [hst] at h hw
    simp only [WantedOk] at hw
    obtain ⟨b, hb⟩ := rd_noub (d := d) (i := 0) (by omega)
    simp only [hb, bind, Except.bind, pure, Except.pure, throw, throwThe, MonadExceptOf.throw] at h
    split at h
    · cases h; rfl
    cases h
  | methodName =>
    rw [hst] at h hw
    simp only [bind, Except.bind, pure, Except.pure] at h
    cases he : emit c (.methodCall d) with
    | error x => rw [he] at h; cases h; exact emit_err he
    | ok r => rw [he] at h; cases h
  | memberName =>
    rw [hst] at h hw
    simp only [bind, Except.bind, pure, Except.pure] at h
    cases he : emit c (.member d) with
    | error x => rw [he] at h; cases h; exact emit_err he
    | ok r => rw [he] at h; cases h
  | valueType =>
    rw [hst] at h hw
    simp only [WantedOk] at hw
    obtain ⟨b, hb⟩ := rd_noub (d := d) (i := 0) (by omega)
    simp only [hb, bind, Except.bind, pure, Except.pure, throw, throwThe, MonadExceptOf.throw] at h
    split at h
    · split at h
      · cases h; rfl
      cases h
    · exact valueTag_err h
  | realValueType =>
    rw [hst] at h hw
    simp only [WantedOk] at hw
    obtain ⟨b, hb⟩ := rd_noub (d := d) (i := 0) (by omega)
    simp only [hb, bind, Except.bind] at h
    exact valueTag_err h
  | stringLen =>
    rw [hst] at h hw
    simp only [WantedOk] at hw
    simp only [getInt64_ok hd hw.2, bind, Except.bind, pure, Except.pure, throw, throwThe, MonadExceptOf.throw] at h
    split at h
    · cases h; rfl
    cases h
  | binaryLen =>
    rw [hst] at h hw
    simp only [WantedOk] at hw
    simp only [getInt64_ok hd hw.2, bind, Except.bind, pure, Except.pure, throw, throwThe, MonadExceptOf.throw] at h
    split at h
    · cases h; rfl
    cases h
  | string => rw [hst] at h; exact bind_some_err (fun _ => scalar_err) h
  | binary => rw [hst] at h; exact bind_some_err (fun _ => scalar_err) h
  | int =>
    rw [hst] at h hw
    simp only [WantedOk] at hw
    rw [getInt64_ok hd hw.2] at h
    exact bind_some_err (fun _ => scalar_err) h
  | intN8 =>
    rw [hst] at h hw
    simp only [WantedOk] at hw
    rw [getInt64_ok hd hw.2] at h
    exact bind_some_err (fun _ => scalar_err) h
  | intP8 =>
    rw [hst] at h hw
    simp only [WantedOk] at hw
    rw [getInt64_ok hd hw.2] at h
    exact bind_some_err (fun _ => scalar_err) h
  | double =>
    rw [hst] at h hw
    simp only [WantedOk] at hw
    have hg : getDouble d = .ok (BitVec.ofNat 64 (leNat (d.take 8))) := by
      unfold getDouble; rw [if_neg (by omega)]
    rw [hg] at h
    exact bind_some_err (fun _ => scalar_err) h
  | dateTime =>
    rw [hst] at h hw
    simp only [WantedOk] at hw
    obtain ⟨y, hg⟩ := getDate_ok (hd.trans hw)
    rw [hg] at h
    exact bind_some_err (fun _ => scalar_err) h
  | struct =>
    rw [hst] at h hw
    simp only [WantedOk] at hw
    rw [getInt64_ok hd hw.2] at h
    exact bind_some_err (fun _ => openContainer_err) h
  | array =>
    rw [hst] at h hw
    simp only [WantedOk] at hw
    rw [getInt64_ok hd hw.2] at h
    exact bind_some_err (fun _ => openContainer_err) h

/-! ### Fuel-free runs -/

/-- Big-step run of the decoding loop on pending bytes, with iteration count. -/
inductive Eval {β : Type} (B : Builder β) (req : Req) (stop : Bool) :
    Core → Bytes → β → Core → Bytes → β → Exit → Nat → Prop
  | more {c p b} (h : ¬ c.wanted ≤ p.length) : Eval B req stop c p b c p b .more 0
  | err {c p b e} (h : c.wanted ≤ p.length) (hs : step req stop c (p.take c.wanted) = .error e) :
      Eval B req stop c p b c p b (.threw e) 1
  | stopped {c p b} (h : c.wanted ≤ p.length) (hs : step req stop c (p.take c.wanted) = .ok none) :
      Eval B req stop c p b c p b .stopped 1
  | bthrow {c p b c' es b' e} (h : c.wanted ≤ p.length)
      (hs : step req stop c (p.take c.wanted) = .ok (some (c', es)))
      (ha : applyEvents B b es = (b', some e)) : Eval B req stop c p b c p b' (.threw e) 1
  | next {c p b c' es b' c2 p2 b2 x n} (h : c.wanted ≤ p.length)
      (hs : step req stop c (p.take c.wanted) = .ok (some (c', es)))
      (ha : applyEvents B b es = (b', none))
      (hr : Eval B req stop c' (p.drop c.wanted) b' c2 p2 b2 x n) : Eval B req stop c p b c2 p2 b2 x (n + 1)

variable {β : Type} {B : Builder β} {req : Req} {stop : Bool}

theorem take_len {c : Core} {p : Bytes} (h : c.wanted ≤ p.length) : (p.take c.wanted).length = c.wanted := by
  simp; omega

theorem Eval.det {c p b c1 p1 b1 x1 n1 c2 p2 b2 x2 n2} (h1 : Eval B req stop c p b c1 p1 b1 x1 n1)
    (h2 : Eval B req stop c p b c2 p2 b2 x2 n2) : c1 = c2 ∧ p1 = p2 ∧ b1 = b2 ∧ x1 = x2 ∧ n1 = n2 := by
  induction h1 generalizing c2 p2 b2 x2 n2 with
  | more h => cases h2 <;> first | exact ⟨rfl, rfl, rfl, rfl, rfl⟩ | contradiction
  | err h hs => cases h2 <;> simp_all
  | stopped h hs => cases h2 <;> simp_all
  | bthrow h hs ha => cases h2 <;> simp_all
  | next h hs ha hr ih =>
    cases h2 with
    | more h' => contradiction
    | err h' hs' => simp_all
    | stopped h' hs' => simp_all
    | bthrow h' hs' ha' => simp_all
    | next h' hs' ha' hr' =>
      rw [hs] at hs'
      simp only [Except.ok.injEq, Option.some.injEq, Prod.mk.injEq] at hs'
      obtain ⟨rfl, rfl⟩ := hs'
      rw [ha] at ha'
      simp only [Prod.mk.injEq, and_true] at ha'
      subst ha'
      have := ih hr'
      simp_all

/-- Adding bytes behind the pending ones does not change a run that threw. -/
theorem Eval.append_threw {c p b c' p' b' e n} (h : Eval B req stop c p b c' p' b' (.threw e) n) (q : Bytes) :
    Eval B req stop c (p ++ q) b c' (p' ++ q) b' (.threw e) n := by
  generalize hx : Exit.threw e = x at h
  induction h with
  | more h => cases hx
  | stopped h hs => cases hx
  | err h hs => exact .err (by simp; omega) (by rwa [List.take_append_of_le_length h])
  | bthrow h hs ha => exact .bthrow (by simp; omega) (by rwa [List.take_append_of_le_length h]) ha
  | next h hs ha hr ih =>
    refine .next (by simp; omega) (by rwa [List.take_append_of_le_length h]) ha ?_
    rw [List.drop_append_of_le_length h]
    exact ih hx

theorem Eval.append_stopped {c p b c' p' b' n} (h : Eval B req stop c p b c' p' b' .stopped n) (q : Bytes) :
    Eval B req stop c (p ++ q) b c' (p' ++ q) b' .stopped n := by
  generalize hx : Exit.stopped = x at h
  induction h with
  | more h => cases hx
  | stopped h hs => exact .stopped (by simp; omega) (by rwa [List.take_append_of_le_length h])
  | err h hs => cases hx
  | bthrow h hs ha => cases hx
  | next h hs ha hr ih =>
    refine .next (by simp; omega) (by rwa [List.take_append_of_le_length h]) ha ?_
    rw [List.drop_append_of_le_length h]
    exact ih hx

/-- A run that waits for data continues when data arrives. -/
theorem Eval.append_more {c p b c1 p1 b1 n1 c2 p2 b2 x2 n2} (h : Eval B req stop c p b c1 p1 b1 .more n1) (q : Bytes)
    (h2 : Eval B req stop c1 (p1 ++ q) b1 c2 p2 b2 x2 n2) :
    Eval B req stop c (p ++ q) b c2 p2 b2 x2 (n1 + n2) := by
  generalize hx : Exit.more = x at h
  induction h with
  | more h => simpa using h2
  | stopped h hs => cases hx
  | err h hs => cases hx
  | bthrow h hs ha => cases hx
  | next h hs ha hr ih =>
    rw [Nat.add_right_comm]
    refine .next (by simp; omega) (by rwa [List.take_append_of_le_length h]) ha ?_
    rw [List.drop_append_of_le_length h]
    exact ih h2 hx

theorem Eval.ok {c p b c' p' b' x n} (hok : Ok c) (h : Eval B req stop c p b c' p' b' x n) : Ok c' := by
  induction h with
  | more h => exact hok
  | stopped h hs => exact hok
  | err h hs => exact hok
  | bthrow h hs ha => exact hok
  | next h hs ha hr ih => exact ih (step_ok hok (take_len h) hs)

theorem Eval.more_short {c p b c' p' b' n} (h : Eval B req stop c p b c' p' b' .more n) : p'.length < c'.wanted := by
  generalize hx : Exit.more = x at h
  induction h with
  | more h => omega
  | next h hs ha hr ih => exact ih hx
  | _ => cases hx

/-- Potential that bounds the number of iterations. -/
def pot (c : Core) (p : Bytes) : Nat := 2 * p.length + (if c.wanted = 0 then 1 else 0)

theorem step_pot {c c' : Core} {p : Bytes} {es} (hok : Ok c) (h : c.wanted ≤ p.length)
    (hs : step req stop c (p.take c.wanted) = .ok (some (c', es))) :
    pot c' (p.drop c.wanted) < pot c p := by
  unfold pot
  by_cases hw : c.wanted = 0
  · have hz : c'.wanted = 1 := by
      have hwo := hok.wanted
      rw [hw] at hwo
      have hst : c.st = .string ∨ c.st = .binary := by
        revert hwo
        cases c.st <;> simp [WantedOk]
        split <;> simp
      refine step_elim (P := fun c' _ => c'.wanted = 1) hok (take_len h) hs ?_ ?_ ?_ ?_ ?_ ?_ ?_ ?_ ?_ ?_ ?_ ?_ ?_ ?_
      all_goals first | (intros; rfl) | skip
      all_goals (intros; exfalso; rcases hst with hst | hst <;> simp_all [IsPayload])
    simp [hw, hz]
  · simp only [List.length_drop, hw, if_false]
    split <;> omega

theorem Eval.iters {c p b c' p' b' x n} (hok : Ok c) (h : Eval B req stop c p b c' p' b' x n) : n ≤ pot c p + 1 := by
  induction h with
  | more h => omega
  | stopped h hs => omega
  | err h hs => omega
  | bthrow h hs ha => omega
  | next h hs ha hr ih =>
    have := ih (step_ok hok (take_len h) hs)
    have := step_pot hok h hs
    omega

/-- With enough fuel the loop is the big-step run. -/
theorem loop_eval (fuel : Nat) (c : Core) (p : Bytes) (b : β) (k : Nat) (hok : Ok c) (hf : pot c p < fuel) :
    ∃ c' p' b' x n, loop B req stop fuel ⟨c, []⟩ p b k = ⟨⟨c', []⟩, p', b', x, k + n⟩ ∧
      Eval B req stop c p b c' p' b' x n := by
  induction fuel generalizing c p b k with
  | zero => omega
  | succ fuel ih =>
    unfold loop
    simp only [List.length_nil, Nat.zero_add, if_true]
    by_cases h : c.wanted ≤ p.length
    · rw [if_pos h]
      cases hs : step req stop c (p.take c.wanted) with
      | error e => exact ⟨c, p, b, .threw e, 1, rfl, .err h hs⟩
      | ok r =>
        cases r with
        | none => exact ⟨c, p, b, .stopped, 1, rfl, .stopped h hs⟩
        | some r =>
          obtain ⟨c1, es⟩ := r
          simp only
          cases ha : applyEvents B b es with
          | mk b' oe =>
            cases oe with
            | some e => exact ⟨c, p, b', .threw e, 1, rfl, .bthrow h hs ha⟩
            | none =>
              have hok1 := step_ok hok (take_len h) hs
              have hp := step_pot hok h hs
              obtain ⟨c', p', b2, x, n, h1, h2⟩ := ih c1 (p.drop c.wanted) b' (k + 1) hok1 (by omega)
              refine ⟨c', p', b2, x, n + 1, ?_, .next h hs ha h2⟩
              simp only [h1]
              congr 1; omega
    · rw [if_neg h]
      exact ⟨c, p, b, .more, 0, rfl, .more h⟩

/-- The resting invariant of the whole object between calls. -/
structure Rest (o : Obj) : Prop where
  ok : Ok o.core
  short : o.buf.length < o.core.wanted

theorem Ok.wanted_lt {c : Core} (h : Ok c) : c.wanted < 2 ^ 30 := by
  have := h.wanted
  revert this
  cases c.st <;> simp [WantedOk] <;> try omega
  split <;> omega

theorem Rest.init : Rest BinUnMarshaller.init := ⟨Ok.init, by simp [BinUnMarshaller.init]⟩

/-- The loop after `topUp` behaves as on the concatenated pending bytes. -/
theorem loop_topUp (fuel : Nat) (o : Obj) (inp : Bytes) (b : β) (hr : Rest o) :
    let t := topUp o inp
    let r := loop B req stop (fuel + 1) t.1 t.2 b 0
    let r' := loop B req stop (fuel + 1) ⟨o.core, []⟩ (o.buf ++ inp) b 0
    t.1.buf.length + t.2.length = o.buf.length + inp.length ∧
    park r.obj r.input = park r'.obj r'.input ∧ r.obj.core = r'.obj.core ∧ r.builder = r'.builder ∧
      r.exit = r'.exit ∧ r.iters = r'.iters ∧
      (o.buf = [] → r = r') := by
  obtain ⟨core, buf⟩ := o
  by_cases hb : buf = []
  · subst hb; simp [topUp]
  · have hsh := hr.short
    have hwl := hr.ok.wanted_lt
    simp only at hsh hwl
    have hrem : (core.wanted + 2 ^ 64 - buf.length) % 2 ^ 64 = core.wanted - buf.length := by omega
    simp only [topUp, hb, if_false, hrem]
    have hbl : 0 < buf.length := by cases buf <;> simp_all
    by_cases hle : core.wanted - buf.length ≤ inp.length
    · -- enough data: the buffer now holds exactly the wanted bytes
      rw [Nat.min_eq_left hle]
      generalize hj : core.wanted - buf.length = j at hle
      have hne : buf ++ inp.take j ≠ [] := by simp [hb]
      have hlen : (buf ++ inp.take j).length = core.wanted := by simp; omega
      have htake : (buf ++ inp).take core.wanted = buf ++ inp.take j := by
        rw [List.take_append, List.take_of_length_le (by omega), hj]
      have hdrop : (buf ++ inp).drop core.wanted = inp.drop j := by
        rw [List.drop_append, List.drop_of_length_le (by omega), hj]; rfl
      refine ⟨by simp; omega, ?_⟩
      unfold loop
      have hc1 : core.wanted ≤ (buf ++ inp.take j).length + (inp.drop j).length := by omega
      have hc2 : core.wanted ≤ ([] : Bytes).length + (buf ++ inp).length := by simp; omega
      simp only [hc1, hc2, if_true, if_neg hne, htake, hdrop]
      rw [List.take_of_length_le (by omega)]
      cases hs : step req stop core (buf ++ inp.take j) with
      | error e => simp [park, hb]
      | ok r =>
        cases r with
        | none => simp [park, hb]
        | some r =>
          obtain ⟨c1, es⟩ := r
          simp only
          cases ha : applyEvents B b es with
          | mk b' oe =>
            cases oe with
            | some e => simp [park, hb]
            | none => simp
    · -- not enough data: everything goes to the buffer
      rw [Nat.min_eq_right (by omega)]
      refine ⟨by simp, ?_⟩
      unfold loop
      have hc1 : ¬ core.wanted ≤ (buf ++ inp.take inp.length).length + (inp.drop inp.length).length := by simp; omega
      have hc2 : ¬ core.wanted ≤ ([] : Bytes).length + (buf ++ inp).length := by simp; omega
      simp only [hc1, hc2, if_false]
      simp [park, hb]

/-- What one `unMarshall` call does, in terms of the big-step run on all pending bytes. -/
theorem unMarshall_eval {o : Obj} {b : β} {data : Bytes} (hr : Rest o) :
    ∃ c' p' b' x n, Eval B req false o.core (o.buf ++ data) b c' p' b' x n ∧
      unMarshall B req o b data = (⟨c', p'⟩, b', match x with | .threw e => some e | .noFuel => some .fuel | _ => none) ∧
      iterations B req o b data = n := by
  have hl := loop_topUp (B := B) (req := req) (stop := false) (2 * (o.buf.length + data.length) + 2) o data b hr
  simp only at hl
  obtain ⟨c', p', b', x, n, h1, h2⟩ := loop_eval (B := B) (req := req) (stop := false)
    (2 * (o.buf.length + data.length) + 3) o.core (o.buf ++ data) b 0 hr.ok
    (by unfold pot; simp; split <;> omega)
  refine ⟨c', p', b', x, n, h2, ?_⟩
  unfold unMarshall iterations
  simp only [budget]
  rw [hl.1]
  obtain ⟨_, h3, h4, h5, h6, h7, _⟩ := hl
  rw [h1] at h3 h4 h5 h6 h7
  rw [show 2 * (o.buf.length + data.length) + 2 + 1 = 2 * (o.buf.length + data.length) + 3 from rfl] at h3 h4 h5 h6 h7
  refine ⟨?_, by rw [h7]; simp⟩
  refine Prod.ext ?_ (Prod.ext ?_ ?_)
  · simpa [park] using h3
  · simpa using h5
  · simp only; rw [h6]; rfl

theorem Eval.not_noFuel {c p b c' p' b' x n} (h : Eval B req stop c p b c' p' b' x n) : x ≠ .noFuel := by
  induction h with
  | next h hs ha hr ih => exact ih
  | _ => simp

theorem valueTag_not_none {c : Core} {b} : valueTag false c b ≠ .ok none := by
  intro h
  have sc : ∀ e, (do return some (← scalar c e) : StepRes) = .ok none → False := by
    intro e h
    cases hs : scalar c e with
    | error x => rw [hs] at h; simp [bind, Except.bind] at h
    | ok r => rw [hs] at h; simp [bind, Except.bind, pure, Except.pure] at h
  have ls : ∀ l st, (do goto c st (← lengthSize l b)) = .ok none → False := by
    intro l st h
    cases hl : lengthSize l b with
    | error x => rw [hl] at h; simp [bind, Except.bind] at h
    | ok w => rw [hl] at h; simp [goto, bind, Except.bind] at h
  unfold valueTag at h
  by_cases h1 : b.toNat >>> 3 = T_BOOL
  · rw [if_pos h1] at h
    split at h
    · cases h
    · exact sc _ h
  rw [if_neg h1] at h
  by_cases h1 : b.toNat >>> 3 = T_NULL
  · rw [if_pos h1] at h
    split at h
    · cases h
    · exact sc _ h
  rw [if_neg h1] at h
  by_cases h1 : b.toNat >>> 3 = T_INT
  · rw [if_pos h1] at h; exact ls _ _ h
  rw [if_neg h1] at h
  by_cases h1 : b.toNat >>> 3 = T_INTN8
  · rw [if_pos h1] at h; cases h
  rw [if_neg h1] at h
  by_cases h1 : b.toNat >>> 3 = T_INTP8
  · rw [if_pos h1] at h; cases h
  rw [if_neg h1] at h
  by_cases h1 : b.toNat >>> 3 = T_DOUBLE
  · rw [if_pos h1] at h; cases h
  rw [if_neg h1] at h
  by_cases h1 : b.toNat >>> 3 = T_DATETIME
  · rw [if_pos h1] at h; cases h
  rw [if_neg h1] at h
  by_cases h1 : b.toNat >>> 3 = T_STRING
  · rw [if_pos h1] at h; exact ls _ _ h
  rw [if_neg h1] at h
  by_cases h1 : b.toNat >>> 3 = T_BINARY
  · rw [if_pos h1] at h; exact ls _ _ h
  rw [if_neg h1] at h
  by_cases h1 : b.toNat >>> 3 = T_ARRAY
  · rw [if_pos h1] at h; exact ls _ _ h
  rw [if_neg h1] at h
  by_cases h1 : b.toNat >>> 3 = T_STRUCT
  · rw [if_pos h1] at h; exact ls _ _ h
  rw [if_neg h1] at h
  cases h

/-- Only the value-type states can stop on an unknown type, and only when asked to. -/
theorem step_none {c : Core} {d} (h : step req stop c d = .ok none) :
    stop = true ∧ (c.st = .valueType ∧ insideStruct c = false ∨ c.st = .realValueType) := by
  have hb : ∀ {m : Except Err (Core × List Event)}, (do return some (← m) : StepRes) = .ok none → False := by
    intro m h
    cases m <;> simp [bind, Except.bind, pure, Except.pure] at h
  have hv : ∀ b, valueTag stop c b = .ok none → stop = true := by
    intro b h
    cases stop with
    | true => rfl
    | false => exact absurd h valueTag_not_none
  unfold step at h
  cases hst : c.st with
  | magic =>
    rw [hst] at h
    simp only [rd, bind, Except.bind, pure, Except.pure, throw, throwThe, MonadExceptOf.throw] at h
    repeat' (split at h <;> try (cases h; done))
  | body =>
    rw [hst] at h
    simp only [bind, Except.bind, pure, Except.pure, throw, throwThe, MonadExceptOf.throw] at h
    repeat' (split at h <;> try (cases h; done))
  | methodNameLen =>
    rw [hst] at h
    simp only [bind, Except.bind, pure, Except.pure, throw, throwThe, MonadExceptOf.throw] at h
    repeat' (split at h <;> try (cases h; done))
  | methodName =>
    rw [hst] at h
    simp only [bind, Except.bind, pure, Except.pure] at h
    repeat' (split at h <;> try (cases h; done))
  | memberName =>
    rw [hst] at h
    simp only [bind, Except.bind, pure, Except.pure] at h
    repeat' (split at h <;> try (cases h; done))
  | valueType =>
    rw [hst] at h
    cases hr : rd d 0 with
    | error x => rw [hr] at h; simp [bind, Except.bind] at h
    | ok b =>
      simp only [hr, bind, Except.bind, pure, Except.pure, throw, throwThe, MonadExceptOf.throw] at h
      split at h
      · split at h <;> cases h
      · rename_i hi
        exact ⟨hv b h, .inl ⟨rfl, by simpa using hi⟩⟩
  | realValueType =>
    rw [hst] at h
    cases hr : rd d 0 with
    | error x => rw [hr] at h; simp [bind, Except.bind] at h
    | ok b =>
      simp only [hr, bind, Except.bind] at h
      exact ⟨hv b h, .inr rfl⟩
  | stringLen | binaryLen =>
    rw [hst] at h
    simp only [bind, Except.bind, pure, Except.pure, throw, throwThe, MonadExceptOf.throw] at h
    repeat' (split at h <;> try (cases h; done))
  | string | binary => rw [hst] at h; exact (hb h).elim
  | int | intN8 | intP8 | struct | array =>
    rw [hst] at h
    cases hr : getInt64 d c.wanted with
    | error x => rw [hr] at h; simp [bind, Except.bind] at h
    | ok b => rw [hr] at h; exact (hb h).elim
  | double =>
    rw [hst] at h
    cases hr : getDouble d with
    | error x => rw [hr] at h; simp [bind, Except.bind] at h
    | ok b => rw [hr] at h; exact (hb h).elim
  | dateTime =>
    rw [hst] at h
    cases hr : getDate c.ver d with
    | error x => rw [hr] at h; simp [bind, Except.bind] at h
    | ok b => rw [hr] at h; exact (hb h).elim

theorem Eval.not_stopped {c p b c' p' b' x n} (h : Eval B req false c p b c' p' b' x n) : x ≠ .stopped := by
  induction h with
  | next h hs ha hr ih => exact ih
  | stopped h hs => exact absurd (step_none hs).1 (by simp)
  | _ => simp

/-- Successful calls keep the object at rest. -/
theorem unMarshall_rest {o o' : Obj} {b b' : β} {data : Bytes} (hr : Rest o)
    (h : unMarshall B req o b data = (o', b', none)) : Rest o' := by
  obtain ⟨c1, p1, b1, x, n, h1, h2, _⟩ := unMarshall_eval (B := B) (req := req) (b := b) (data := data) hr
  rw [h2] at h
  simp only [Prod.mk.injEq] at h
  obtain ⟨rfl, rfl, h⟩ := h
  cases x with
  | more => exact ⟨h1.ok hr.ok, h1.more_short⟩
  | stopped => exact absurd rfl h1.not_stopped
  | threw e => simp at h
  | noFuel => exact absurd rfl h1.not_noFuel

/-- The exception an exit stands for. -/
def Exit.err : Exit → Option Err
  | .threw e => some e
  | .noFuel => some .fuel
  | _ => none

/-- Feeding pieces one after another is the big-step run on their concatenation. -/
theorem unMarshallAll_eval {o : Obj} {b : β} {ps : List Bytes} (hr : Rest o) :
    ∃ c' p' b' x n q, Eval B req false o.core (o.buf ++ ps.flatten) b c' (p' ++ q) b' x n ∧
      unMarshallAll B req o b ps = (⟨c', p'⟩, b', x.err) ∧ (x.err = none → q = []) ∧
      iterationsAll B req o b ps = n := by
  induction ps generalizing o b with
  | nil =>
    refine ⟨o.core, o.buf, b, .more, 0, [], ?_, rfl, fun _ => rfl, rfl⟩
    simpa using Eval.more (by have := hr.short; omega)
  | cons p ps ih =>
    obtain ⟨c1, p1, b1, x, n, h1, h2, hn⟩ := unMarshall_eval (B := B) (req := req) (b := b) (data := p) hr
    simp only [unMarshallAll, iterationsAll, h2, List.flatten_cons, hn]
    cases x with
    | threw e =>
      refine ⟨c1, p1, b1, .threw e, n, ps.flatten, ?_, rfl, by simp [Exit.err], rfl⟩
      rw [← List.append_assoc]
      exact h1.append_threw _
    | noFuel => exact absurd rfl h1.not_noFuel
    | stopped => exact absurd rfl h1.not_stopped
    | more =>
      simp only
      have hr1 : Rest ⟨c1, p1⟩ := ⟨h1.ok hr.ok, h1.more_short⟩
      obtain ⟨c2, p2, b2, x2, n2, q, h3, h4, h5, h6⟩ := ih (o := ⟨c1, p1⟩) (b := b1) hr1
      refine ⟨c2, p2, b2, x2, n + n2, q, ?_, h4, h5, by rw [h6]⟩
      rw [← List.append_assoc]
      exact h1.append_more _ h3

end BinUnMarshaller
end Frpc
