import Verif.Proofs.AnyBuilder
import Verif.Proofs.StructMap
import Verif.Model.TreeBuilder
import Verif.Spec.Sizes
/-! # What a message makes is no larger than the message -/
namespace Frpc
open Spec

/-! ### Sizes of values -/

mutual
theorem depth_least : ∀ v, 2 * depthOf v ≤ leastSize v
  | .array vs => by simp only [depthOf, leastSize]; have := depth_least_items vs; omega
  | .struct ms => by simp only [depthOf, leastSize]; have := depth_least_members ms; omega
  | .secret v => by simp only [depthOf, leastSize]; exact depth_least v
  | .int _ | .bool _ | .double _ | .null | .string _ | .stringView _ | .binary _ | .binaryRef _ | .dateTime _ => by simp [depthOf]
theorem depth_least_items : ∀ vs, 2 * depthItems vs ≤ leastItems vs
  | [] => by simp [depthItems]
  | v :: vs => by simp only [depthItems, leastItems]; have := depth_least v; have := depth_least_items vs; omega
theorem depth_least_members : ∀ ms, 2 * depthMembers ms ≤ leastMembers ms
  | [] => by simp [depthMembers]
  | (k, v) :: ms => by simp only [depthMembers, leastMembers]; have := depth_least v; have := depth_least_members ms; omega
end

mutual
/-- Values and text of a value fit in its least size. -/
theorem values_least : ∀ v, valuesIn v + textIn v ≤ leastSize v
  | .array vs => by simp only [valuesIn, textIn, leastSize]; have := values_least_items vs; omega
  | .struct ms => by simp only [valuesIn, textIn, leastSize]; have := values_least_members ms; omega
  | .secret v => by simp only [valuesIn, textIn, leastSize]; exact values_least v
  | .int _ | .bool _ | .double _ | .null | .string _ | .stringView _ | .binary _ | .binaryRef _ | .dateTime _ => by
    simp only [valuesIn, textIn, leastSize]; omega
theorem values_least_items : ∀ vs, valuesItems vs + textItems vs ≤ leastItems vs
  | [] => by simp [valuesItems, textItems]
  | v :: vs => by
    simp only [valuesItems, textItems, leastItems]; have := values_least v; have := values_least_items vs; omega
theorem values_least_members : ∀ ms, valuesMembers ms + textMembers ms ≤ leastMembers ms
  | [] => by simp [valuesMembers, textMembers]
  | (k, v) :: ms => by
    simp only [valuesMembers, textMembers, leastMembers]; have := values_least v; have := values_least_members ms; omega
end

theorem leastItems_append : ∀ a b, leastItems (a ++ b) = leastItems a + leastItems b
  | [], b => by simp [leastItems]
  | v :: a, b => by simp only [List.cons_append, leastItems, leastItems_append a b]; omega

theorem insert_least (k : Bytes) (v : Value) : ∀ ms, leastMembers (SMap.insert k v ms).1 ≤ leastMembers ms + (1 + k.length + leastSize v)
  | [] => by simp [SMap.insert, leastMembers]
  | (k', v') :: ms => by
    have := insert_least k v ms
    simp only [SMap.insert]
    split
    · simp only [leastMembers]; omega
    · split
      · simp only [leastMembers]; omega
      · simp only [leastMembers]; omega

theorem assign_least (k : Bytes) (v : Value) : ∀ ms, leastMembers (SMap.assign k v ms) ≤ leastMembers ms + (1 + k.length + leastSize v)
  | [] => by simp [SMap.assign, leastMembers]
  | (k', v') :: ms => by
    have := assign_least k v ms
    simp only [SMap.assign]
    split
    · simp only [leastMembers]; omega
    · simp only [leastMembers]; omega

/-! ### Calls of the builder -/

/-- The bytes a builder call stands for, at least. -/
def cost : Event → Nat
  | .methodCall n => 2 + n.length
  | .methodResponse => 1
  | .fault _ m => 2 + m.length
  | .int _ => 2
  | .bool _ => 1
  | .double _ => 9
  | .null => 1
  | .string s | .binary s => 2 + s.length
  | .dateTime _ => 11
  | .member k => 1 + k.length
  | .openArray _ | .openStruct _ => 2
  | .closeArray | .closeStruct => 0

/-- … all calls. -/
def costs : List Event → Nat
  | [] => 0
  | e :: es => cost e + costs es

theorem costs_append : ∀ a b, costs (a ++ b) = costs a + costs b
  | [], b => by simp [costs]
  | e :: a, b => by simp only [List.cons_append, costs, costs_append a b]; omega

namespace BinUnMarshaller

/-- Bytes read whose call is still to be made. -/
def owed : St → Nat
  | .magic | .body | .valueType | .realValueType => 0
  | .string | .binary | .methodName => 2
  | _ => 1

theorem closeUp_costs : ∀ s, costs (closeUp s).2 = 0
  | [] => rfl
  | f :: s => by
    simp only [closeUp]
    split
    · rfl
    · simp only [costs, closeUp_costs s]
      cases f.kind <;> rfl

theorem finalize_costs (c : Core) (es : List Event) : costs (finalize c es).2 = costs es ∧ (finalize c es).1.st = .valueType := by
  simp [finalize, costs_append, closeUp_costs]

theorem emit_costs {c c' : Core} {e : Event} {es : List Event} (h : emit c e = .ok (c', es)) : costs es ≤ cost e := by
  unfold emit at h
  split at h
  · simp at h; rw [← h.2]; simp [costs]
  · cases e <;> simp only at h <;> try cases h
    all_goals
      split at h
      · cases h
      · simp only [Except.ok.injEq, Prod.mk.injEq] at h; rw [← h.2]; simp [costs, cost]

theorem scalar_costs {c c' : Core} {e : Event} {es : List Event} (h : scalar c e = .ok (c', es)) : costs es ≤ cost e ∧ c'.st = .valueType := by
  unfold scalar at h
  cases he : emit c e with
  | error x => rw [he] at h; cases h
  | ok q =>
    obtain ⟨c1, es1⟩ := q
    rw [he] at h
    simp only [bind, Except.bind, pure, Except.pure, Except.ok.injEq] at h
    have h1 := finalize_costs c1 es1
    rw [h] at h1
    exact ⟨by rw [h1.1]; exact emit_costs he, h1.2⟩

theorem openContainer_costs {c c' : Core} {k : Kind} {n : Int} {es : List Event} (h : openContainer c k n = .ok (c', es)) : costs es ≤ 2 ∧ c'.st = .valueType := by
  unfold openContainer at h
  simp only [bind, Except.bind, pure, Except.pure, throw, throwThe, MonadExceptOf.throw] at h
  split at h
  · cases h
  split at h
  · cases h
  split at h
  · cases h
  cases he : emit c (openEv k n.toNat) with
  | error x => rw [he] at h; cases h
  | ok q =>
    obtain ⟨c1, es1⟩ := q
    have h1 := emit_costs he
    have hc : cost (openEv k n.toNat) = 2 := by cases k <;> rfl
    rw [he] at h
    simp only at h
    split at h
    · simp at h
      rw [← h.1, ← h.2]
      exact ⟨by omega, rfl⟩
    · cases he2 : emit c1 (closeEv k) with
      | error x => rw [he2] at h; cases h
      | ok q2 =>
        obtain ⟨c2, es2⟩ := q2
        have h2 := emit_costs he2
        have hc2 : cost (closeEv k) = 0 := by cases k <;> rfl
        rw [he2] at h
        simp only [Except.ok.injEq] at h
        have h3 := finalize_costs c2 (es1 ++ es2)
        rw [h] at h3
        rw [costs_append] at h3
        simp only at h3
        exact ⟨by omega, h3.2⟩

theorem valueTag_costs {stop : Bool} {c c' : Core} {b : UInt8} {es : List Event} (h : valueTag stop c b = .ok (some (c', es))) :
    owed c'.st + costs es ≤ 1 := by
  unfold valueTag at h
  have hg : ∀ st w, owed st = 1 → goto c st w = .ok (some (c', es)) → owed c'.st + costs es ≤ 1 := by
    intro st w ho h
    simp only [goto, Except.ok.injEq, Option.some.injEq, Prod.mk.injEq] at h
    rw [← h.1, ← h.2]
    simp [ho, costs]
  have hl : ∀ (st : St) (x : Except Err Nat), owed st = 1 → (x >>= fun n => goto c st n) = .ok (some (c', es)) → owed c'.st + costs es ≤ 1 := by
    intro st x ho h
    cases x with
    | error _ => cases h
    | ok n => exact hg st n ho h
  have hs : ∀ e : Event, cost e = 1 → (scalar c e >>= fun q => pure (some q) : StepRes) = .ok (some (c', es)) → owed c'.st + costs es ≤ 1 := by
    intro e ho h
    cases hq : scalar c e with
    | error x => rw [hq] at h; cases h
    | ok q =>
      rw [hq] at h
      simp only [bind, Except.bind, pure, Except.pure, Except.ok.injEq, Option.some.injEq] at h
      subst h
      have := scalar_costs hq
      rw [this.2]
      simp only [owed]; omega
  by_cases t1 : b.toNat >>> 3 = T_BOOL
  · rw [if_pos t1] at h
    split at h
    · cases h
    · exact hs _ rfl h
  rw [if_neg t1] at h
  by_cases t2 : b.toNat >>> 3 = T_NULL
  · rw [if_pos t2] at h
    split at h
    · cases h
    · exact hs _ rfl h
  rw [if_neg t2] at h
  by_cases t3 : b.toNat >>> 3 = T_INT
  · rw [if_pos t3] at h; exact hl .int _ rfl h
  rw [if_neg t3] at h
  by_cases t4 : b.toNat >>> 3 = T_INTN8
  · rw [if_pos t4] at h; exact hg .intN8 _ rfl h
  rw [if_neg t4] at h
  by_cases t5 : b.toNat >>> 3 = T_INTP8
  · rw [if_pos t5] at h; exact hg .intP8 _ rfl h
  rw [if_neg t5] at h
  by_cases t6 : b.toNat >>> 3 = T_DOUBLE
  · rw [if_pos t6] at h; exact hg .double _ rfl h
  rw [if_neg t6] at h
  by_cases t7 : b.toNat >>> 3 = T_DATETIME
  · rw [if_pos t7] at h; exact hg .dateTime _ rfl h
  rw [if_neg t7] at h
  by_cases t8 : b.toNat >>> 3 = T_STRING
  · rw [if_pos t8] at h; exact hl .stringLen _ rfl h
  rw [if_neg t8] at h
  by_cases t9 : b.toNat >>> 3 = T_BINARY
  · rw [if_pos t9] at h; exact hl .binaryLen _ rfl h
  rw [if_neg t9] at h
  by_cases t10 : b.toNat >>> 3 = T_ARRAY
  · rw [if_pos t10] at h; exact hl .array _ rfl h
  rw [if_neg t10] at h
  by_cases t11 : b.toNat >>> 3 = T_STRUCT
  · rw [if_pos t11] at h; exact hl .struct _ rfl h
  rw [if_neg t11] at h
  split at h <;> cases h

/-- A step makes calls for bytes that were read, by it or before. -/
theorem step_costs {req stop} {c c' : Core} {d : Bytes} {es : List Event} (hok : Ok c) (hd : d.length = c.wanted)
    (h : step req stop c d = .ok (some (c', es))) : owed c'.st + costs es ≤ owed c.st + c.wanted := by
  have hw := hok.wanted
  have hsc : ∀ {e : Event}, cost e ≤ owed c.st + c.wanted → (scalar c e >>= fun q => pure (some q) : StepRes) = .ok (some (c', es)) →
      owed c'.st + costs es ≤ owed c.st + c.wanted := by
    intro e ho h
    cases hq : scalar c e with
    | error x => rw [hq] at h; cases h
    | ok q =>
      rw [hq] at h
      simp only [bind, Except.bind, pure, Except.pure, Except.ok.injEq, Option.some.injEq] at h
      subst h
      have := scalar_costs hq
      rw [this.2]
      have h0 : owed .valueType = 0 := rfl
      omega
  have hoc : ∀ {k : Kind} {n : Int}, 2 ≤ owed c.st + c.wanted → (openContainer c k n >>= fun q => pure (some q) : StepRes) = .ok (some (c', es)) →
      owed c'.st + costs es ≤ owed c.st + c.wanted := by
    intro k n ho h
    cases hq : openContainer c k n with
    | error x => rw [hq] at h; cases h
    | ok q =>
      rw [hq] at h
      simp only [bind, Except.bind, pure, Except.pure, Except.ok.injEq, Option.some.injEq] at h
      subst h
      have := openContainer_costs hq
      rw [this.2]
      have h0 : owed .valueType = 0 := rfl
      omega
  have hem : ∀ {e : Event} {st : St}, owed st = 0 → cost e ≤ owed c.st + c.wanted →
      (emit c e >>= fun q => pure (some ({ q.1 with wanted := 1, st := st }, q.2)) : StepRes) = .ok (some (c', es)) →
      owed c'.st + costs es ≤ owed c.st + c.wanted := by
    intro e st h0 ho h
    cases hq : emit c e with
    | error x => rw [hq] at h; cases h
    | ok q =>
      rw [hq] at h
      simp only [bind, Except.bind, pure, Except.pure, Except.ok.injEq, Option.some.injEq, Prod.mk.injEq] at h
      have := emit_costs hq
      rw [← h.1, ← h.2]
      simp only [h0]; omega
  have hi : ∀ {x : Except Err Int} {f : Int → StepRes} {P : Prop}, (∀ n, f n = .ok (some (c', es)) → P) → (x >>= f) = .ok (some (c', es)) → P := by
    intro x f P hf h
    cases x with
    | error _ => cases h
    | ok n => exact hf n h
  have hb : ∀ {x : Except Err UInt8} {f : UInt8 → StepRes} {P : Prop}, (∀ n, f n = .ok (some (c', es)) → P) → (x >>= f) = .ok (some (c', es)) → P := by
    intro x f P hf h
    cases x with
    | error _ => cases h
    | ok n => exact hf n h
  unfold step at h
  cases hst : c.st with
  | int => rw [hst] at h hw hsc; simp only [WantedOk] at hw; exact hi (fun n h => hsc (by simp only [cost, owed]; omega) h) h
  | intP8 => rw [hst] at h hw hsc; simp only [WantedOk] at hw; exact hi (fun n h => hsc (by simp only [cost, owed]; omega) h) h
  | intN8 => rw [hst] at h hw hsc; simp only [WantedOk] at hw; exact hi (fun n h => hsc (by simp only [cost, owed]; omega) h) h
  | array => rw [hst] at h hw hoc; simp only [WantedOk] at hw; exact hi (fun n h => hoc (by simp only [owed]; omega) h) h
  | struct => rw [hst] at h hw hoc; simp only [WantedOk] at hw; exact hi (fun n h => hoc (by simp only [owed]; omega) h) h
  | string => rw [hst] at h hw hsc; exact hsc (by simp only [cost, owed]; omega) h
  | binary => rw [hst] at h hw hsc; exact hsc (by simp only [cost, owed]; omega) h
  | methodName => rw [hst] at h hw hem; exact hem rfl (by simp only [cost, owed]; omega) h
  | memberName => rw [hst] at h hw hem; exact hem rfl (by simp only [cost, owed]; omega) h
  | double =>
    rw [hst] at h hw hsc; simp only [WantedOk] at hw
    cases hx : getDouble d with
    | error _ => simp only [hx] at h; cases h
    | ok x => simp only [hx] at h; exact hsc (e := .double x) (by simp only [cost, owed]; omega) h
  | dateTime =>
    rw [hst] at h hw hsc; simp only [WantedOk] at hw
    cases hx : getDate c.ver d with
    | error _ => simp only [hx] at h; cases h
    | ok x => simp only [hx] at h; exact hsc (e := .dateTime (finishDate x)) (by simp only [cost, owed]; split at hw <;> omega) h
  | realValueType =>
    rw [hst] at h hw; simp only [WantedOk] at hw
    exact hb (fun n h => by have := valueTag_costs h; have h0 : owed .valueType = 0 := rfl; have h1 : owed .realValueType = 0 := rfl; omega) h
  | valueType =>
    rw [hst] at h hw; simp only [WantedOk] at hw
    refine hb (fun n h => ?_) h
    split at h
    · simp only [bind, Except.bind, pure, Except.pure, throw, throwThe, MonadExceptOf.throw] at h
      split at h
      · cases h
      · simp only [Except.ok.injEq, Option.some.injEq, Prod.mk.injEq] at h
        rw [← h.1, ← h.2]; simp only [owed, costs]; omega
    · have := valueTag_costs h; have h0 : owed .valueType = 0 := rfl; have h1 : owed .realValueType = 0 := rfl; omega
  | stringLen =>
    rw [hst] at h hw; simp only [WantedOk] at hw
    refine hi (fun n h => ?_) h
    simp only [bind, Except.bind, pure, Except.pure, throw, throwThe, MonadExceptOf.throw] at h
    split at h
    · cases h
    · simp only [Except.ok.injEq, Option.some.injEq, Prod.mk.injEq] at h
      rw [← h.1, ← h.2]; simp only [owed, costs]; omega
  | binaryLen =>
    rw [hst] at h hw; simp only [WantedOk] at hw
    refine hi (fun n h => ?_) h
    simp only [bind, Except.bind, pure, Except.pure, throw, throwThe, MonadExceptOf.throw] at h
    split at h
    · cases h
    · simp only [Except.ok.injEq, Option.some.injEq, Prod.mk.injEq] at h
      rw [← h.1, ← h.2]; simp only [owed, costs]; omega
  | methodNameLen =>
    rw [hst] at h hw; simp only [WantedOk] at hw
    refine hb (fun n h => ?_) h
    simp only [bind, Except.bind, pure, Except.pure, throw, throwThe, MonadExceptOf.throw] at h
    split at h
    · cases h
    · simp only [Except.ok.injEq, Option.some.injEq, Prod.mk.injEq] at h
      rw [← h.1, ← h.2]; simp only [owed, costs]; omega
  | magic =>
    rw [hst] at h hw; simp only [WantedOk] at hw
    refine hb (fun _ h => hb (fun _ h => ?_) h) h
    simp only [bind, Except.bind, pure, Except.pure, throw, throwThe, MonadExceptOf.throw] at h
    split at h
    · cases h
    refine hb (fun _ h => hb (fun _ h => ?_) h) h
    split at h
    · cases h
    · simp only [Except.ok.injEq, Option.some.injEq, Prod.mk.injEq] at h
      rw [← h.1, ← h.2]; simp only [owed, costs]; omega
  | body =>
    rw [hst] at h hw; simp only [WantedOk] at hw
    rw [hst] at hem
    refine hb (fun n h => ?_) h
    by_cases h1 : (!reqAllows req (n.toNat >>> 3)) = true
    · simp [h1, bind, Except.bind, throw, throwThe, MonadExceptOf.throw] at h
    simp only [h1, if_false, Bool.false_eq_true] at h
    by_cases h2 : n.toNat >>> 3 = T_FAULT
    · simp only [h2, if_true, bind, Except.bind, pure, Except.pure, Except.ok.injEq, Option.some.injEq, Prod.mk.injEq] at h
      rw [← h.1, ← h.2]; simp only [owed, costs]; omega
    · rw [if_neg h2] at h
      by_cases h3 : n.toNat >>> 3 = T_RESPONSE
      · rw [if_pos h3] at h
        exact hem (e := .methodResponse) rfl (by simp only [cost, owed]; omega) h
      · rw [if_neg h3] at h
        by_cases h4 : n.toNat >>> 3 = T_CALL
        · simp only [h4, if_true, bind, Except.bind, pure, Except.pure, Except.ok.injEq, Option.some.injEq, Prod.mk.injEq] at h
          rw [← h.1, ← h.2]; simp only [owed, costs]; omega
        · rw [if_neg h4] at h
          cases h

/-- … a run. -/
theorem Steps.costs {req stop} {c c' : Core} {p p' : Bytes} {es : List Event} (h : Steps req stop c p es c' p') (hok : Ok c) :
    owed c'.st + costs es + p'.length ≤ owed c.st + p.length := by
  induction h with
  | refl => simp [Frpc.costs]
  | cons hw hs hr ih =>
    have h1 := step_costs hok (take_len hw) hs
    have h2 := ih (step_ok hok (take_len hw) hs)
    rw [costs_append]
    simp only [List.length_drop] at h2
    omega

/-- The header is read before any call is made. -/
theorem Steps.header {req stop} {c c' : Core} {p p' : Bytes} {es : List Event} (h : Steps req stop c p es c' p') (hok : Ok c) (hc : c.st = .magic) (he : es ≠ []) :
    4 + Frpc.costs es ≤ p.length := by
  cases h with
  | refl => exact absurd rfl he
  | cons hw hs hr =>
    have hwant := hok.wanted
    rw [hc] at hwant
    simp only [WantedOk] at hwant
    have hok1 := step_ok hok (take_len hw) hs
    have h2 := hr.costs hok1
    have h3 : owed _ + Frpc.costs _ ≤ 0 := step_elim (P := fun c' es => owed c'.st + Frpc.costs es ≤ 0) hok (take_len hw) hs
      (fun _ _ _ _ _ _ => by simp [owed, Frpc.costs]) (by simp [hc]) (by simp [hc]) (by simp [hc]) (by simp [hc]) (by simp [hc]) (by simp [hc]) (by simp [hc])
      (by simp [hc]) (by simp [hc]) (by simp [hc]) (by simp [hc, IsPayload]) (by simp [hc, IsPayload]) (by simp [hc, IsPayload])
    rw [costs_append]
    simp only [List.length_drop] at h2
    omega

end BinUnMarshaller
end Frpc
