import Verif.Spec.Heap
import Verif.Props.Descriptors
/-! # Values as objects: invariants of pools, reading, cloning -/
namespace Frpc
namespace Heap
open Descriptors (Act replay_append)
open Spec.Descriptors (replay act Held)
open Spec.Heap
open TreeBuilder (Cfg)

/-- What holds of the memory in any history. -/
structure Inv (m : Mem) : Prop where
  null : m.node 0 = some (.leaf .null)
  below : ∀ x n, m.node x = some n → x < m.next
  pos : 0 < m.next
  owned : ∀ p x, x ∈ m.pool p → x ≠ 0 ∧ ∃ n, m.node x = some n
  nodup : ∀ p, (m.pool p).Nodup
  disj : ∀ p q x, x ∈ m.pool p → x ∈ m.pool q → p = q
  ledger : ∃ u, replay ⟨[], []⟩ m.log = some ⟨[], u⟩ ∧ u.Nodup ∧ ∀ x, x ∈ u ↔ x ≠ 0 ∧ ∃ n, m.node x = some n

theorem Inv.start : Inv start := by
  refine ⟨rfl, ?_, by decide, ?_, ?_, ?_, [], rfl, by simp, ?_⟩
  · intro x n h
    by_cases e : x = 0
    · subst e; decide
    · have : Heap.start.node x = none := if_neg e
      rw [this] at h; cases h
  · intro p x h; simp [Heap.start] at h
  · intro p; simp [Heap.start]
  · intro p q x h; simp [Heap.start] at h
  · intro x
    simp only [List.not_mem_nil, false_iff, not_and, not_exists]
    intro h n hn
    have : Heap.start.node x = none := if_neg h
    rw [this] at hn; cases hn

theorem Inv.alloc {m : Mem} (h : Inv m) (p : Nat) (n : Node) : Inv (alloc p n m).1 := by
  have hn : m.node m.next = none := by
    cases hk : m.node m.next with
    | none => rfl
    | some k => exact absurd (h.below _ _ hk) (by omega)
  have hf : ∀ q, m.next ∉ m.pool q := fun q hq => by
    obtain ⟨_, k, hk⟩ := h.owned q _ hq
    rw [hn] at hk; cases hk
  have hp := h.pos
  refine ⟨?_, ?_, by simp [Heap.alloc], ?_, ?_, ?_, ?_⟩
  · simp only [Heap.alloc]; rw [if_neg (by omega)]; exact h.null
  · intro x k hx
    simp only [Heap.alloc] at hx ⊢
    split at hx
    · omega
    · have := h.below _ _ hx; omega
  · intro q x hx
    simp only [Heap.alloc] at hx ⊢
    split at hx
    · simp only [List.mem_append, List.mem_singleton] at hx
      rcases hx with hx | rfl
      · obtain ⟨h1, k, h2⟩ := h.owned _ _ hx
        refine ⟨h1, ?_⟩
        split
        · exact ⟨_, rfl⟩
        · exact ⟨k, h2⟩
      · exact ⟨by omega, n, by simp⟩
    · obtain ⟨h1, k, h2⟩ := h.owned _ _ hx
      refine ⟨h1, ?_⟩
      split
      · exact ⟨_, rfl⟩
      · exact ⟨k, h2⟩
  · intro q
    simp only [Heap.alloc]
    split
    · rw [List.nodup_append]
      refine ⟨h.nodup p, by simp, ?_⟩
      intro a ha b hb
      simp only [List.mem_singleton] at hb
      subst hb
      intro e; subst e; exact hf _ ha
    · exact h.nodup q
  · intro q r x hq hr
    have key : ∀ q, x ∈ (Heap.alloc p n m).1.pool q → (x = m.next ∧ q = p) ∨ x ∈ m.pool q := by
      intro q hq
      simp only [Heap.alloc] at hq
      split at hq
      · next e =>
        simp only [List.mem_append, List.mem_singleton] at hq
        rcases hq with hq | hq
        · right; rw [e]; exact hq
        · exact .inl ⟨hq, e⟩
      · exact .inr hq
    rcases key q hq with ⟨e1, e2⟩ | h1 <;> rcases key r hr with ⟨e3, e4⟩ | h2
    · rw [e2, e4]
    · rw [e1] at h2; exact absurd h2 (hf _)
    · rw [e3] at h1; exact absurd h1 (hf _)
    · exact h.disj _ _ _ h1 h2
  · obtain ⟨u, h1, h2, h3⟩ := h.ledger
    have hu : m.next ∉ u := fun hu => by
      obtain ⟨_, k, hk⟩ := (h3 _).1 hu
      rw [hn] at hk; cases hk
    refine ⟨m.next :: u, ?_, by simp [hu, h2], ?_⟩
    · simp only [Heap.alloc]
      rw [replay_append, h1]
      simp [replay, act, hu]
    · intro x
      simp only [Heap.alloc, List.mem_cons, h3]
      constructor
      · rintro (rfl | ⟨h4, k, h5⟩)
        · exact ⟨by omega, n, by simp⟩
        · refine ⟨h4, ?_⟩
          split
          · exact ⟨_, rfl⟩
          · exact ⟨k, h5⟩
      · rintro ⟨h4, k, h5⟩
        split at h5
        · left; assumption
        · exact .inr ⟨h4, k, h5⟩

theorem Inv.set {m : Mem} (h : Inv m) {x : Nat} (n : Node) (h0 : x ≠ 0) {k : Node} (hx : m.node x = some k) : Inv (set x n m) := by
  have al : ∀ y, (∃ n', (Heap.set x n m).node y = some n') ↔ ∃ n', m.node y = some n' := by
    intro y
    simp only [Heap.set]
    split
    · next e => subst e; exact ⟨fun _ => ⟨k, hx⟩, fun _ => ⟨n, rfl⟩⟩
    · exact Iff.rfl
  refine ⟨?_, ?_, h.pos, ?_, h.nodup, h.disj, ?_⟩
  · simp only [Heap.set]; rw [if_neg (fun e => h0 e.symm)]; exact h.null
  · intro y n' hy
    obtain ⟨n2, h2⟩ := (al y).1 ⟨n', hy⟩
    exact h.below _ _ h2
  · intro q y hy
    obtain ⟨h1, h2⟩ := h.owned q y hy
    exact ⟨h1, (al y).2 h2⟩
  · obtain ⟨u, h1, h2, h3⟩ := h.ledger
    exact ⟨u, h1, h2, fun y => by rw [al, h3]⟩

theorem replay_deletes : ∀ (d u : List Nat), d.Nodup → (∀ x ∈ d, x ∈ u) → u.Nodup →
    ∃ u', replay ⟨[], u⟩ (d.map Act.delete) = some ⟨[], u'⟩ ∧ u'.Nodup ∧ ∀ x, x ∈ u' ↔ x ∈ u ∧ x ∉ d
  | [], u, _, _, hu => ⟨u, rfl, hu, by simp⟩
  | x :: d, u, hd, hs, hu => by
    obtain ⟨hx, hd⟩ := List.nodup_cons.1 hd
    obtain ⟨u', h1, h2, h3⟩ := replay_deletes d (u.erase x) hd (fun y hy => (hu.mem_erase_iff).2 ⟨fun e => hx (e ▸ hy), hs y (by simp [hy])⟩) (hu.erase x)
    refine ⟨u', ?_, h2, ?_⟩
    · simp only [List.map_cons, replay, act]
      rw [if_pos (hs x (by simp))]
      exact h1
    · intro y
      rw [h3, hu.mem_erase_iff, List.mem_cons]
      grind

theorem Inv.free {m : Mem} (h : Inv m) (p : Nat) : Inv (free p m) := by
  have sub : ∀ q x, x ∈ (Heap.free p m).pool q → q ≠ p ∧ x ∈ m.pool q := by
    intro q x hx
    simp only [Heap.free] at hx
    split at hx
    · simp at hx
    · exact ⟨by assumption, hx⟩
  refine ⟨?_, ?_, h.pos, ?_, ?_, ?_, ?_⟩
  · simp only [Heap.free]; rw [if_neg (fun e => (h.owned _ _ e).1 rfl)]; exact h.null
  · intro x n hx
    simp only [Heap.free] at hx
    split at hx
    · cases hx
    · exact h.below _ _ hx
  · intro q x hx
    obtain ⟨h1, h2⟩ := sub q x hx
    refine ⟨(h.owned _ _ h2).1, ?_⟩
    simp only [Heap.free]
    rw [if_neg (fun e => h1 (h.disj _ _ _ h2 e))]
    exact (h.owned _ _ h2).2
  · intro q
    simp only [Heap.free]
    split
    · simp
    · exact h.nodup q
  · intro q r x hq hr
    exact h.disj _ _ _ (sub q x hq).2 (sub r x hr).2
  · obtain ⟨u, h1, h2, h3⟩ := h.ledger
    obtain ⟨u', g1, g2, g3⟩ := replay_deletes (m.pool p) u (h.nodup p) (fun x hx => (h3 x).2 (h.owned _ _ hx)) h2
    refine ⟨u', ?_, g2, ?_⟩
    · simp only [Heap.free]
      rw [replay_append, h1]
      exact g1
    · intro x
      rw [g3, h3]
      simp only [Heap.free]
      split
      · next hx => simp [hx]
      · next hx => simp [hx]

/-- Pools exchange values: each value is in at most one of them still. -/
theorem Inv.pools {m : Mem} (h : Inv m) (P : Nat → List Nat) (h1 : ∀ q x, x ∈ P q → ∃ p, x ∈ m.pool p) (h2 : ∀ q, (P q).Nodup) (h3 : ∀ p q x, x ∈ P p → x ∈ P q → p = q) :
    Inv { m with pool := P } :=
  ⟨h.null, h.below, h.pos, fun q x hx => by obtain ⟨p, hp⟩ := h1 q x hx; exact h.owned p x hp, h2, h3, h.ledger⟩

theorem Inv.steal {m : Mem} (h : Inv m) (p o : Nat) : Inv (steal p o m) := by
  refine h.pools _ ?_ ?_ ?_
  · intro q x hx
    split at hx
    · simp at hx
    · split at hx
      · rcases List.mem_append.1 hx with hx | hx <;> exact ⟨_, hx⟩
      · exact ⟨_, hx⟩
  · intro q
    split
    · simp
    · split
      · next h1 h2 =>
        rw [List.nodup_append]
        refine ⟨h.nodup _, h.nodup _, fun a ha b hb e => ?_⟩
        subst e
        have := h.disj _ _ _ ha hb
        omega
      · exact h.nodup q
  · intro q r x hq hr
    have hd := h.disj
    have key : ∀ q, x ∈ (if q = o then [] else if q = p then m.pool p ++ m.pool o else m.pool q) → q ≠ o ∧ (x ∈ m.pool q ∨ (q = p ∧ x ∈ m.pool o)) := by
      intro q hq
      split at hq
      · simp at hq
      · split at hq
        · next h1 h2 =>
          subst h2
          refine ⟨h1, ?_⟩
          rcases List.mem_append.1 hq with hq | hq
          · exact .inl hq
          · exact .inr ⟨rfl, hq⟩
        · next h1 h2 => exact ⟨h1, .inl hq⟩
    obtain ⟨a1, a2⟩ := key q hq
    obtain ⟨b1, b2⟩ := key r hr
    rcases a2 with a2 | ⟨a2, a3⟩ <;> rcases b2 with b2 | ⟨b2, b3⟩
    · exact hd _ _ _ a2 b2
    · exact absurd (hd _ _ _ a2 b3) a1
    · exact absurd (hd _ _ _ b2 a3) b1
    · rw [a2, b2]

theorem Inv.move {m : Mem} (h : Inv m) (p o : Nat) : Inv (move p o m) := by
  refine h.pools _ ?_ ?_ ?_
  · intro q x hx
    split at hx
    · simp at hx
    · split at hx <;> exact ⟨_, hx⟩
  · intro q
    split
    · simp
    · split
      · exact h.nodup _
      · exact h.nodup q
  · intro q r x hq hr
    have hd := h.disj
    have key : ∀ q, x ∈ (if q = o then [] else if q = p then m.pool o else m.pool q) → q ≠ o ∧ ((q ≠ p ∧ x ∈ m.pool q) ∨ (q = p ∧ x ∈ m.pool o)) := by
      intro q hq
      split at hq
      · simp at hq
      · split at hq
        · next h1 h2 => exact ⟨h1, .inr ⟨h2, hq⟩⟩
        · next h1 h2 => exact ⟨h1, .inl ⟨h2, hq⟩⟩
    obtain ⟨a1, a2⟩ := key q hq
    obtain ⟨b1, b2⟩ := key r hr
    rcases a2 with ⟨_, a2⟩ | ⟨a2, a3⟩ <;> rcases b2 with ⟨_, b2⟩ | ⟨b2, b3⟩
    · exact hd _ _ _ a2 b2
    · exact absurd (hd _ _ _ a2 b3) a1
    · exact absurd (hd _ _ _ b2 a3) b1
    · rw [a2, b2]

/-! ## Growing -/

/-- Objects are made in the pool, and those from that address on may change. -/
inductive Grow (p lo : Nat) : Mem → Mem → Prop
  | refl (m) : Grow p lo m m
  | alloc {m m'} (n) : lo ≤ m.next → Grow p lo (alloc p n m).1 m' → Grow p lo m m'
  | set {m m'} (x n k) : lo ≤ x → m.node x = some k → k ≠ .leaf .null → Grow p lo (set x n m) m' → Grow p lo m m'

theorem Grow.trans {p lo : Nat} {a b c : Mem} (h : Grow p lo a b) (g : Grow p lo b c) : Grow p lo a c := by
  induction h with
  | refl => exact g
  | alloc n h1 _ ih => exact .alloc n h1 (ih g)
  | set x n k h1 h2 h3 _ ih => exact .set x n k h1 h2 h3 (ih g)

theorem Grow.weaken {p lo lo' : Nat} {a b : Mem} (h : Grow p lo a b) (hl : lo' ≤ lo) : Grow p lo' a b := by
  induction h with
  | refl => exact .refl _
  | alloc n h1 _ ih => exact .alloc n (by omega) ih
  | set x n k h1 h2 h3 _ ih => exact .set x n k (by omega) h2 h3 ih

theorem Grow.next {p lo : Nat} {a b : Mem} (h : Grow p lo a b) : a.next ≤ b.next := by
  induction h with
  | refl => exact Nat.le_refl _
  | alloc n _ _ ih => simp only [Heap.alloc] at ih; omega
  | set x n k _ _ _ _ ih => exact ih

theorem Grow.inv {p lo : Nat} {a b : Mem} (h : Grow p lo a b) (hi : Inv a) : Inv b := by
  induction h with
  | refl => exact hi
  | alloc n _ _ ih => exact ih (hi.alloc p n)
  | set x n k _ h2 h3 _ ih =>
    refine ih (hi.set n (fun e => ?_) h2)
    subst e
    rw [hi.null] at h2
    cases h2
    exact h3 rfl

theorem Grow.old {p lo : Nat} {a b : Mem} (h : Grow p lo a b) {z : Nat} (hz : z < lo) : b.node z = a.node z := by
  induction h with
  | refl => rfl
  | alloc n h1 _ ih => rw [ih]; simp only [Heap.alloc]; rw [if_neg (by omega)]
  | set x n k h1 _ _ _ ih => rw [ih]; simp only [Heap.set]; rw [if_neg (by omega)]

theorem Grow.pool {p lo : Nat} {a b : Mem} (h : Grow p lo a b) : (∀ q, q ≠ p → b.pool q = a.pool q) ∧ ∃ l, b.pool p = a.pool p ++ l ∧ ∀ x ∈ l, lo ≤ x := by
  induction h with
  | refl => exact ⟨fun _ _ => rfl, [], by simp⟩
  | @alloc m m' n h1 _ ih =>
    obtain ⟨g1, l, g2, g3⟩ := ih
    refine ⟨fun q hq => ?_, m.next :: l, ?_, ?_⟩
    · rw [g1 q hq]; simp only [Heap.alloc]; rw [if_neg hq]
    · rw [g2]; simp [Heap.alloc]
    · intro x hx
      rcases List.mem_cons.1 hx with rfl | hx
      · exact h1
      · exact g3 x hx
  | set x n k _ _ _ _ ih => exact ih

/-- What has been made is owned by the pool. -/
theorem Grow.made {p lo : Nat} {a b : Mem} (h : Grow p lo a b) : ∀ x, a.next ≤ x → x < b.next → x ∈ b.pool p := by
  induction h with
  | refl => intro x _ _; omega
  | @alloc m m' n h1 g ih =>
    intro x hx hy
    by_cases e : x = m.next
    · obtain ⟨_, l, g2, _⟩ := g.pool
      rw [g2, e]; simp [Heap.alloc]
    · exact ih x (by simp only [Heap.alloc]; omega) hy
  | set x n k _ _ _ _ ih => exact ih

theorem push_grow {p lo a x : Nat} (m : Mem) (h : lo ≤ a) : Grow p lo m (push a x m).1 := by
  unfold push
  split
  · next heq => exact .set a _ _ h heq (by simp) (.refl _)
  · exact .refl _

theorem insert_grow {p lo a x : Nat} (k : Bytes) (m : Mem) (h : lo ≤ a) : Grow p lo m (insert a k x m).1 := by
  unfold Heap.insert
  split
  · next heq => exact .set a _ _ h heq (by simp) (.refl _)
  · exact .refl _

theorem alloc_grow {p lo : Nat} (n : Node) (m : Mem) (h : lo ≤ m.next) : Grow p lo m (Heap.alloc p n m).1 := .alloc n h (.refl _)

theorem scalar_grow {p lo : Nat} (v : Value) (m : Mem) (h : lo ≤ m.next) : Grow p lo m (scalar p v m).1 := by
  unfold scalar
  split
  · exact .refl _
  · exact alloc_grow _ m h

theorem cloneItems_grow {p lo a : Nat} {c : Nat → Mem → Mem × Except Err Nat} (hc : ∀ x m, Grow p m.next m (c x m).1) (ha : lo ≤ a) :
    ∀ (xs : List Nat) (m : Mem), lo ≤ m.next → Grow p lo m (cloneItems c a xs m).1
  | [], m, _ => .refl _
  | x :: xs, m, hm => by
    have h1 := (hc x m).weaken hm
    unfold cloneItems
    revert h1
    generalize c x m = q
    obtain ⟨m1, r⟩ := q
    intro h1
    cases r with
    | error e => exact h1
    | ok y =>
      have h2 := push_grow (p := p) (x := y) m1 ha
      simp only
      revert h2
      generalize push a y m1 = q
      obtain ⟨m2, r⟩ := q
      intro h2
      cases r with
      | error e => exact h1.trans h2
      | ok z => exact (h1.trans h2).trans (cloneItems_grow hc ha xs m2 (Nat.le_trans hm (h1.trans h2).next))

theorem cloneMembers_grow {p lo a : Nat} {c : Nat → Mem → Mem × Except Err Nat} (hc : ∀ x m, Grow p m.next m (c x m).1) (ha : lo ≤ a) :
    ∀ (xs : List (Bytes × Nat)) (m : Mem), lo ≤ m.next → Grow p lo m (cloneMembers c a xs m).1
  | [], m, _ => .refl _
  | (k, x) :: xs, m, hm => by
    have h1 := (hc x m).weaken hm
    unfold cloneMembers
    revert h1
    generalize c x m = q
    obtain ⟨m1, r⟩ := q
    intro h1
    cases r with
    | error e => exact h1
    | ok y =>
      have h2 := insert_grow (p := p) (x := y) k m1 ha
      simp only
      revert h2
      generalize insert a k y m1 = q
      obtain ⟨m2, r⟩ := q
      intro h2
      cases r with
      | error e => exact h1.trans h2
      | ok z => exact (h1.trans h2).trans (cloneMembers_grow hc ha xs m2 (Nat.le_trans hm (h1.trans h2).next))

/-- Cloning makes new objects in the pool and leaves the old ones alone, also when it throws. -/
theorem clone_grow (cfg : Cfg) (p : Nat) : ∀ (f x : Nat) (m : Mem), Grow p m.next m (clone cfg p f x m).1
  | 0, _, _ => .refl _
  | f + 1, x, m => by
    unfold clone
    split
    · exact .refl _
    · split
      · exact .refl _
      · exact scalar_grow _ m (Nat.le_refl _)
    · next y _ =>
      have h := clone_grow cfg p f y m
      revert h
      generalize clone cfg p f y m = q
      obtain ⟨m1, r⟩ := q
      intro h
      cases r with
      | error e => exact h
      | ok z => exact h.trans (alloc_grow _ _ h.next)
    · exact (alloc_grow _ m (Nat.le_refl _)).trans (cloneItems_grow (clone_grow cfg p f) (by simp [Heap.alloc]) _ _ (by simp [Heap.alloc]))
    · exact (alloc_grow _ m (Nat.le_refl _)).trans (cloneMembers_grow (clone_grow cfg p f) (by simp [Heap.alloc]) _ _ (by simp [Heap.alloc]))

end Heap
end Frpc
