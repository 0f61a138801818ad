import Verif.Model.TreeBuilder
/-! Invariant of the decoder core: which `wanted` goes with which state. -/
namespace Frpc
namespace BinUnMarshaller

/-- Per-state bound on `wanted`. -/
def WantedOk (st : St) (w : Nat) (ver : Version) : Prop :=
  match st with
  | .magic => w = 4
  | .body | .methodNameLen | .valueType | .realValueType => w = 1
  | .methodName | .memberName => 1 ≤ w ∧ w ≤ 255
  | .int | .intP8 | .intN8 | .stringLen | .binaryLen | .struct | .array => 1 ≤ w ∧ w ≤ 8
  | .double => w = 8
  | .dateTime => w = if ver.major > 2 then 14 else 10
  | .string | .binary => w < 2 ^ 30

/-- Message header states. -/
def IsEarly : St → Prop
  | .magic | .body | .methodNameLen | .methodName => True
  | _ => False

/-- Invariant of reachable cores. -/
structure Ok (c : Core) : Prop where
  wanted : WantedOk c.st c.wanted c.ver
  stack : ∀ f ∈ c.stack, 1 ≤ f.members ∧ f.members < 2 ^ 30
  fault : c.fault ≠ 0 → c.stack = []
  early : IsEarly c.st → c.stack = [] ∧ c.fault = 0
  named : c.st = .memberName ∨ c.st = .realValueType → insideStruct c = true

theorem Ok.init : Ok init.core := ⟨rfl, by simp [BinUnMarshaller.init], by simp [BinUnMarshaller.init], by simp [BinUnMarshaller.init], by simp [BinUnMarshaller.init]⟩

theorem closeUp_ok (s : List Frame) (h : ∀ f ∈ s, 1 ≤ f.members ∧ f.members < 2 ^ 30) :
    ∀ f ∈ (closeUp s).1, 1 ≤ f.members ∧ f.members < 2 ^ 30 := by
  induction s with
  | nil => simp [closeUp]
  | cons f s ih =>
    have hf := h f (by simp)
    simp only [closeUp]
    split
    · intro g hg
      simp only [List.mem_cons] at hg
      rcases hg with rfl | hg
      · simp at *; omega
      · exact h g (by simp [hg])
    · exact ih fun g hg => h g (by simp [hg])

theorem closeUp_nil : closeUp [] = ([], []) := rfl

theorem emit_stack {c c' : Core} {e es} (h : emit c e = .ok (c', es)) :
    c'.stack = c.stack ∧ c'.st = c.st ∧ c'.wanted = c.wanted ∧ c'.ver = c.ver ∧ (c'.fault ≠ 0 ↔ c.fault ≠ 0) := by
  unfold emit at h
  split at h
  · cases h; simp
  · split at h
    · split at h
      · cases h
      · cases h; simp_all
    · split at h
      · cases h
      · cases h; simp_all
    · cases h

theorem finalize_ok {c : Core} (es) (hs : ∀ f ∈ c.stack, 1 ≤ f.members ∧ f.members < 2 ^ 30)
    (hf : c.fault ≠ 0 → c.stack = []) : Ok (finalize c es).1 := by
  refine ⟨by simp [finalize, WantedOk], by simpa [finalize] using closeUp_ok _ hs, ?_, by simp [finalize, IsEarly], by simp [finalize]⟩
  intro h
  simp only [finalize] at h ⊢
  rw [hf h]; rfl

theorem lengthSize_bound {l b n} (h : lengthSize l b = .ok n) : 1 ≤ n ∧ n ≤ 8 := by
  unfold lengthSize at h
  have : b.toNat &&& 7 ≤ 7 := Nat.and_le_right
  simp only at h
  split at h
  · cases h; omega
  · split at h
    · cases h
    · cases h; omega

theorem and7_bound (b : UInt8) : 1 ≤ (b.toNat &&& 7) + 1 ∧ (b.toNat &&& 7) + 1 ≤ 8 := by
  have : b.toNat &&& 7 ≤ 7 := Nat.and_le_right
  omega

/-- States that read the payload of a value. -/
def IsPayload : St → Prop
  | .int | .intP8 | .intN8 | .double | .stringLen | .binaryLen | .dateTime | .struct | .array => True
  | _ => False

/-- Scalar value events the decoder can produce. -/
def ScalarEv : Event → Prop
  | .int n => IsI64 n
  | .bool _ | .double _ | .dateTime _ | .null => True
  | .string s | .binary s => s.length < 2 ^ 30
  | _ => False

theorem valueTag_elim {stop} {c c' : Core} {b es} {P : Core → List Event → Prop}
    (h : valueTag stop c b = .ok (some (c', es)))
    (hg : ∀ st w, WantedOk st w c.ver → IsPayload st → P { c with st := st, wanted := w } [])
    (hs : ∀ e c1 es1, ScalarEv e → (e = .null → c.ver.major ≠ 1) → emit c e = .ok (c1, es1) → P (finalize c1 es1).1 (finalize c1 es1).2) :
    P c' es := by
  have sc : ∀ e, ScalarEv e → (e = .null → c.ver.major ≠ 1) → (do return some (← scalar c e) : StepRes) = .ok (some (c', es)) → P c' es := by
    intro e hev hnl h
    unfold scalar at h
    cases he : emit c e with
    | error x => rw [he] at h; simp [bind, Except.bind] at h
    | ok r =>
      obtain ⟨c1, es1⟩ := r
      rw [he] at h
      simp only [bind, Except.bind, pure, Except.pure, Except.ok.injEq, Option.some.injEq] at h
      have := hs e c1 es1 hev hnl he
      rw [h] at this; exact this
  have ls : ∀ l st, (∀ w, 1 ≤ w ∧ w ≤ 8 → WantedOk st w c.ver) → IsPayload st →
      (do goto c st (← lengthSize l b)) = .ok (some (c', es)) → P c' es := by
    intro l st hst hp h
    cases hl : lengthSize l b with
    | error x => rw [hl] at h; simp [bind, Except.bind] at h
    | ok w =>
      rw [hl] at h
      simp only [goto, bind, Except.bind, Except.ok.injEq, Option.some.injEq, Prod.mk.injEq] at h
      have := hg st w (hst w (lengthSize_bound hl)) hp
      rw [h.1, h.2] at this; exact this
  have a7 := and7_bound b
  unfold valueTag at h
  by_cases h1 : b.toNat >>> 3 = T_BOOL
  · rw [if_pos h1] at h
    split at h
    · cases h
    · exact sc _ (by exact trivial) (fun h => by cases h) h
  rw [if_neg h1] at h
  by_cases h1 : b.toNat >>> 3 = T_NULL
  · rw [if_pos h1] at h
    split at h
    · cases h
    · rename_i hnm
      exact sc _ (by exact trivial) (fun _ => hnm) h
  rw [if_neg h1] at h
  by_cases h1 : b.toNat >>> 3 = T_INT
  · rw [if_pos h1] at h
    exact ls _ _ (by simp [WantedOk]) (by exact trivial) h
  rw [if_neg h1] at h
  by_cases h1 : b.toNat >>> 3 = T_INTN8
  · rw [if_pos h1] at h
    cases h; exact hg _ _ a7 trivial
  rw [if_neg h1] at h
  by_cases h1 : b.toNat >>> 3 = T_INTP8
  · rw [if_pos h1] at h
    cases h; exact hg _ _ a7 trivial
  rw [if_neg h1] at h
  by_cases h1 : b.toNat >>> 3 = T_DOUBLE
  · rw [if_pos h1] at h
    cases h; exact hg _ _ rfl trivial
  rw [if_neg h1] at h
  by_cases h1 : b.toNat >>> 3 = T_DATETIME
  · rw [if_pos h1] at h
    cases h; exact hg _ _ rfl trivial
  rw [if_neg h1] at h
  by_cases h1 : b.toNat >>> 3 = T_STRING
  · rw [if_pos h1] at h
    exact ls _ _ (by simp [WantedOk]) (by exact trivial) h
  rw [if_neg h1] at h
  by_cases h1 : b.toNat >>> 3 = T_BINARY
  · rw [if_pos h1] at h
    exact ls _ _ (by simp [WantedOk]) (by exact trivial) h
  rw [if_neg h1] at h
  by_cases h1 : b.toNat >>> 3 = T_ARRAY
  · rw [if_pos h1] at h
    exact ls _ _ (by simp [WantedOk]) (by exact trivial) h
  rw [if_neg h1] at h
  by_cases h1 : b.toNat >>> 3 = T_STRUCT
  · rw [if_pos h1] at h
    exact ls _ _ (by simp [WantedOk]) (by exact trivial) h
  rw [if_neg h1] at h
  cases stop <;> cases h

/-- What a scalar step does. -/
theorem scalar_elim {c c' : Core} {e es} {P : Core → List Event → Prop}
    (h : (do return some (← scalar c e) : StepRes) = .ok (some (c', es)))
    (hs : ∀ c1 es1, emit c e = .ok (c1, es1) → P (finalize c1 es1).1 (finalize c1 es1).2) : P c' es := by
  unfold scalar at h
  cases he : emit c e with
  | error x => rw [he] at h; simp [bind, Except.bind] at h
  | ok r =>
    obtain ⟨c1, es1⟩ := r
    rw [he] at h
    simp only [bind, Except.bind, pure, Except.pure, Except.ok.injEq, Option.some.injEq] at h
    have := hs c1 es1 he
    rw [h] at this; exact this

/-- What opening a container does: non-empty, or empty and closed at once. -/
theorem open_elim {c c' : Core} {k acc es} {P : Core → List Event → Prop}
    (h : (do return some (← openContainer c k acc) : StepRes) = .ok (some (c', es)))
    (hn : ∀ (n : Nat) c1 es1, 1 ≤ n → n < 2 ^ 30 → acc = (n : Int) → emit c (openEv k n) = .ok (c1, es1) →
      P { c1 with st := .valueType, wanted := 1, stack := ⟨n, k⟩ :: c1.stack } es1)
    (hz : ∀ c1 es1 c2 es2, acc = 0 → emit c (openEv k 0) = .ok (c1, es1) → emit c1 (closeEv k) = .ok (c2, es2) →
      P (finalize c2 (es1 ++ es2)).1 (finalize c2 (es1 ++ es2)).2) : P c' es := by
  unfold openContainer at h
  simp only [bind, Except.bind, pure, Except.pure, throw, throwThe, MonadExceptOf.throw] at h
  split at h
  · cases h
  rename_i v hv
  split at hv
  · cases hv
  split at hv
  · cases hv
  split at hv
  · cases hv
  rename_i h0 h1 h2
  cases he : emit c (openEv k acc.toNat) with
  | error x => rw [he] at hv; cases hv
  | ok r =>
    obtain ⟨c1, es1⟩ := r
    rw [he] at hv
    simp only at hv
    split at hv
    · simp only [Except.ok.injEq] at hv
      simp only [Except.ok.injEq, Option.some.injEq] at h
      have := hn acc.toNat c1 es1 (by omega) (by omega) (by omega) he
      rw [h] at hv
      simp only [Prod.mk.injEq] at hv
      rw [← hv.1, ← hv.2]; exact this
    · rename_i hz0
      have h00 : acc.toNat = 0 := by omega
      cases he2 : emit c1 (closeEv k) with
      | error x => rw [he2] at hv; cases hv
      | ok r =>
        obtain ⟨c2, es2⟩ := r
        rw [he2] at hv
        simp only [Except.ok.injEq] at hv
        simp only [Except.ok.injEq, Option.some.injEq] at h
        rw [h00] at he
        have := hz c1 es1 c2 es2 (by omega) he he2
        rw [hv, h] at this; exact this

theorem rd_ok {d : Bytes} {i : Nat} (h : i < d.length) : rd d i = .ok d[i] := by
  simp [rd, h]

theorem rd_noub {d : Bytes} {i : Nat} (h : i < d.length) : ∃ b, rd d i = .ok b := ⟨_, rd_ok h⟩

theorem getInt64_ok {d : Bytes} {w : Nat} (h : d.length = w) (hw : w ≤ 8) :
    getInt64 d w = .ok (i64 (leNat d)) := by
  unfold getInt64
  rw [if_neg (by omega), List.take_of_length_le (by omega)]

theorem u64_i64_leNat {d : Bytes} (h : d.length ≤ 8) : u64 (i64 (leNat d)) = leNat d := by
  apply u64_i64
  have h1 := leNat_lt d
  have h2 : 256 ^ d.length ≤ 256 ^ 8 := Nat.pow_le_pow_right (by decide) h
  omega

theorem zigzagDecode_isI64 (n : Int) : IsI64 (zigzagDecode n) := by
  unfold zigzagDecode IsI64
  simp only
  generalize (BitVec.ofInt 64 n >>> 1 ^^^ -(BitVec.ofInt 64 n &&& 1#64)) = x
  have h1 := BitVec.le_toInt x
  have h2 := BitVec.toInt_lt (x := x)
  simp at h1 h2 ⊢
  omega

theorem safeNegate_isI64 {n : Int} (h : IsI64 n) : IsI64 (safeNegate n) := by
  unfold safeNegate; unfold IsI64 at *; split <;> omega

/-- Case analysis of a successful step. -/
theorem step_elim {req stop} {c c' : Core} {d : Bytes} {es} {P : Core → List Event → Prop}
    (hok : Ok c) (hd : d.length = c.wanted)
    (h : step req stop c d = .ok (some (c', es)))
    (magic : ∀ maj min, c.st = .magic → d = [0xCA, 0x11, maj, min] → 1 ≤ maj → maj ≤ 3 →
      P { c with ver := ⟨maj, min⟩, wanted := 1, st := .body } [])
    (bodyFault : c.st = .body → reqAllows req T_FAULT = true → P { c with fault := 1, wanted := 1, st := .valueType } [])
    (bodyResp : ∀ c1 es1, c.st = .body → reqAllows req T_RESPONSE = true → emit c .methodResponse = .ok (c1, es1) →
      P { c1 with wanted := 1, st := .valueType } es1)
    (bodyCall : c.st = .body → reqAllows req T_CALL = true → P { c with wanted := 1, st := .methodNameLen } [])
    (nameLen : ∀ w, c.st = .methodNameLen → 1 ≤ w → w ≤ 255 → P { c with wanted := w, st := .methodName } [])
    (name : ∀ c1 es1, c.st = .methodName → emit c (.methodCall d) = .ok (c1, es1) →
      P { c1 with wanted := 1, st := .valueType } es1)
    (memberLen : ∀ w, c.st = .valueType → insideStruct c = true → 1 ≤ w → w ≤ 255 →
      P { c with wanted := w, st := .memberName } [])
    (member : ∀ c1 es1, c.st = .memberName → emit c (.member d) = .ok (c1, es1) →
      P { c1 with wanted := 1, st := .realValueType } es1)
    (tag : ∀ st w, (c.st = .valueType ∧ insideStruct c = false ∨ c.st = .realValueType) →
      WantedOk st w c.ver → IsPayload st → P { c with st := st, wanted := w } [])
    (tagScalar : ∀ e c1 es1, (c.st = .valueType ∧ insideStruct c = false ∨ c.st = .realValueType) →
      ScalarEv e → (e = .null → c.ver.major ≠ 1) → emit c e = .ok (c1, es1) → P (finalize c1 es1).1 (finalize c1 es1).2)
    (strLen : ∀ st w, (c.st = .stringLen ∧ st = .string ∨ c.st = .binaryLen ∧ st = .binary) → w < 2 ^ 30 →
      P { c with wanted := w, st := st } [])
    (pay : ∀ e c1 es1, (IsPayload c.st ∨ c.st = .string ∨ c.st = .binary) → ScalarEv e → (e = .null → c.ver.major ≠ 1) → emit c e = .ok (c1, es1) →
      P (finalize c1 es1).1 (finalize c1 es1).2)
    (openN : ∀ k n c1 es1, IsPayload c.st → 1 ≤ n → n < 2 ^ 30 → emit c (openEv k n) = .ok (c1, es1) →
      P { c1 with st := .valueType, wanted := 1, stack := ⟨n, k⟩ :: c1.stack } es1)
    (openZ : ∀ k c1 es1 c2 es2, IsPayload c.st → emit c (openEv k 0) = .ok (c1, es1) → emit c1 (closeEv k) = .ok (c2, es2) →
      P (finalize c2 (es1 ++ es2)).1 (finalize c2 (es1 ++ es2)).2) :
    P c' es := by
  have hw := hok.wanted
  unfold step at h
  cases hst : c.st with
  | magic =>
    rw [hst] at h hw
    simp only [WantedOk] at hw
    rw [hw] at hd
    match d, hd with
    | [a, b, maj, min], _ =>
      simp only [rd, bind, Except.bind, pure, Except.pure, throw, throwThe, MonadExceptOf.throw, List.getElem?_cons_zero, List.getElem?_cons_succ] at h
      split at h
      · cases h
      split at h
      · cases h
      rename_i h1 h2
      simp only [Except.ok.injEq, Option.some.injEq, Prod.mk.injEq] at h
      simp only [ne_eq, not_or, Decidable.not_not] at h1
      obtain ⟨rfl, rfl⟩ := h1
      rw [← h.1, ← h.2]
      apply magic maj min hst rfl <;> · rw [UInt8.le_iff_toNat_le]; rw [not_or, UInt8.not_lt, UInt8.not_lt, UInt8.le_iff_toNat_le, UInt8.le_iff_toNat_le] at h2; simp at *; omega
  | body =>
    rw [hst] at h hw
    simp only [WantedOk] at hw
    obtain ⟨b, hb⟩ := rd_noub (d := d) (i := 0) (by omega)
    simp only [hb, bind, Except.bind, pure, Except.pure, throw, throwThe, MonadExceptOf.throw] at h
    split at h
    · cases h
    rename_i hr
    simp only [Bool.not_eq_true', Bool.not_eq_false] at hr
    split at h
    · rename_i ht
      simp only [Except.ok.injEq, Option.some.injEq, Prod.mk.injEq] at h
      rw [ht] at hr
      rw [← h.1, ← h.2]; exact bodyFault hst hr
    split at h
    · rename_i ht
      rw [ht] at hr
      cases he : emit c .methodResponse with
      | error x => rw [he] at h; cases h
      | ok r =>
        rw [he] at h
        simp only [Except.ok.injEq, Option.some.injEq, Prod.mk.injEq] at h
        rw [← h.1, ← h.2]; exact bodyResp r.1 r.2 hst hr he
    split at h
    · rename_i ht
      rw [ht] at hr
      simp only [Except.ok.injEq, Option.some.injEq, Prod.mk.injEq] at h
      rw [← h.1, ← h.2]; exact bodyCall hst hr
    · cases h
  | methodNameLen =>
    rw [hst] at h hw
    simp only [WantedOk] at hw
    obtain ⟨b, hb⟩ := rd_noub (d := d) (i := 0) (by omega)
    simp only [hb, bind, Except.bind, pure, Except.pure, throw, throwThe, MonadExceptOf.throw] at h
    split at h
    · cases h
    rename_i hr
    simp only [Except.ok.injEq, Option.some.injEq, Prod.mk.injEq] at h
    have : b.toNat ≠ 0 := fun h0 => hr (UInt8.toNat_inj.1 (by simpa using h0))
    have := b.toNat_lt
    rw [← h.1, ← h.2]; exact nameLen b.toNat hst (by omega) (by omega)
  | methodName =>
    rw [hst] at h hw
    simp only [bind, Except.bind, pure, Except.pure] at h
    cases he : emit c (.methodCall d) with
    | error x => rw [he] at h; cases h
    | ok r =>
      rw [he] at h
      simp only [Except.ok.injEq, Option.some.injEq, Prod.mk.injEq] at h
      rw [← h.1, ← h.2]; exact name r.1 r.2 hst he
  | memberName =>
    rw [hst] at h hw
    simp only [bind, Except.bind, pure, Except.pure] at h
    cases he : emit c (.member d) with
    | error x => rw [he] at h; cases h
    | ok r =>
      rw [he] at h
      simp only [Except.ok.injEq, Option.some.injEq, Prod.mk.injEq] at h
      rw [← h.1, ← h.2]; exact member r.1 r.2 hst he
  | valueType =>
    rw [hst] at h hw
    simp only [WantedOk] at hw
    obtain ⟨b, hb⟩ := rd_noub (d := d) (i := 0) (by omega)
    simp only [hb, bind, Except.bind, pure, Except.pure, throw, throwThe, MonadExceptOf.throw] at h
    split at h
    · rename_i hi
      split at h
      · cases h
      rename_i hr
      simp only [Except.ok.injEq, Option.some.injEq, Prod.mk.injEq] at h
      have : b.toNat ≠ 0 := fun h0 => hr (UInt8.toNat_inj.1 (by simpa using h0))
      have := b.toNat_lt
      rw [← h.1, ← h.2]; exact memberLen b.toNat hst hi (by omega) (by omega)
    · rename_i hi
      have hi : insideStruct c = false := by simpa using hi
      exact valueTag_elim h (fun st w => tag st w (.inl ⟨hst, hi⟩)) (fun e c1 es1 => tagScalar e c1 es1 (.inl ⟨hst, hi⟩))
  | realValueType =>
    rw [hst] at h hw
    simp only [WantedOk] at hw
    obtain ⟨b, hb⟩ := rd_noub (d := d) (i := 0) (by omega)
    simp only [hb, bind, Except.bind] at h
    exact valueTag_elim h (fun st w => tag st w (.inr hst)) (fun e c1 es1 => tagScalar e c1 es1 (.inr hst))
  | stringLen =>
    rw [hst] at h hw
    simp only [WantedOk] at hw
    simp only [getInt64_ok hd hw.2, bind, Except.bind, pure, Except.pure, throw, throwThe, MonadExceptOf.throw] at h
    split at h
    · cases h
    rename_i hr
    simp only [Except.ok.injEq, Option.some.injEq, Prod.mk.injEq] at h
    rw [← h.1, ← h.2]; exact strLen .string _ (.inl ⟨hst, rfl⟩) (by omega)
  | binaryLen =>
    rw [hst] at h hw
    simp only [WantedOk] at hw
    simp only [getInt64_ok hd hw.2, bind, Except.bind, pure, Except.pure, throw, throwThe, MonadExceptOf.throw] at h
    split at h
    · cases h
    rename_i hr
    simp only [Except.ok.injEq, Option.some.injEq, Prod.mk.injEq] at h
    rw [← h.1, ← h.2]; exact strLen .binary _ (.inr ⟨hst, rfl⟩) (by omega)
  | string =>
    rw [hst] at h hw
    simp only [WantedOk] at hw
    exact scalar_elim h fun c1 es1 => pay (.string d) c1 es1 (.inr (.inl hst)) (by show d.length < 2 ^ 30; omega) (fun h => by cases h)
  | binary =>
    rw [hst] at h hw
    simp only [WantedOk] at hw
    exact scalar_elim h fun c1 es1 => pay (.binary d) c1 es1 (.inr (.inr hst)) (by show d.length < 2 ^ 30; omega) (fun h => by cases h)
  | int =>
    rw [hst] at h hw
    simp only [WantedOk] at hw
    rw [getInt64_ok hd hw.2] at h
    have hb : IsI64 (if c.ver.major > 2 then zigzagDecode (i64 (leNat d)) else i64 (leNat d)) := by
      split
      · exact zigzagDecode_isI64 _
      · exact i64_isI64 _
    exact scalar_elim h fun c1 es1 => pay (.int _) c1 es1 (.inl (by rw [hst]; trivial)) hb (fun h => by cases h)
  | intN8 =>
    rw [hst] at h hw
    simp only [WantedOk] at hw
    rw [getInt64_ok hd hw.2] at h
    exact scalar_elim h fun c1 es1 => pay (.int _) c1 es1 (.inl (by rw [hst]; trivial)) (safeNegate_isI64 (i64_isI64 _)) (fun h => by cases h)
  | intP8 =>
    rw [hst] at h hw
    simp only [WantedOk] at hw
    rw [getInt64_ok hd hw.2] at h
    exact scalar_elim h fun c1 es1 => pay (.int _) c1 es1 (.inl (by rw [hst]; trivial)) (i64_isI64 _) (fun h => by cases h)
  | double =>
    rw [hst] at h hw
    cases hg : getDouble d with
    | error x => rw [hg] at h; simp [bind, Except.bind] at h
    | ok x =>
      rw [hg] at h
      exact scalar_elim h fun c1 es1 => pay _ c1 es1 (.inl (by rw [hst]; trivial)) trivial (fun h => by cases h)
  | dateTime =>
    rw [hst] at h hw
    cases hg : getDate c.ver d with
    | error x => rw [hg] at h; simp [bind, Except.bind] at h
    | ok x =>
      rw [hg] at h
      exact scalar_elim h fun c1 es1 => pay _ c1 es1 (.inl (by rw [hst]; trivial)) trivial (fun h => by cases h)
  | struct =>
    rw [hst] at h hw
    simp only [WantedOk] at hw
    rw [getInt64_ok hd hw.2] at h
    exact open_elim h (fun n c1 es1 h1 h2 _ h3 => openN .struct n c1 es1 (by rw [hst]; trivial) h1 h2 h3)
      (fun c1 es1 c2 es2 _ h1 h2 => openZ .struct c1 es1 c2 es2 (by rw [hst]; trivial) h1 h2)
  | array =>
    rw [hst] at h hw
    simp only [WantedOk] at hw
    rw [getInt64_ok hd hw.2] at h
    exact open_elim h (fun n c1 es1 h1 h2 _ h3 => openN .array n c1 es1 (by rw [hst]; trivial) h1 h2 h3)
      (fun c1 es1 c2 es2 _ h1 h2 => openZ .array c1 es1 c2 es2 (by rw [hst]; trivial) h1 h2)

end BinUnMarshaller
end Frpc
