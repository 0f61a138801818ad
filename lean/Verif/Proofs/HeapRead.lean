import Verif.Proofs.Heap
/-! # Values as objects: walks, clones -/
namespace Frpc
namespace Heap
open Spec.Heap
open TreeBuilder (Cfg)

/-- What is there stays as it is. -/
def Ext (m m' : Mem) : Prop := ∀ z n, m.node z = some n → m'.node z = some n

theorem Ext.refl (m : Mem) : Ext m m := fun _ _ h => h
theorem Ext.trans {a b c : Mem} (h : Ext a b) (g : Ext b c) : Ext a c := fun z n hz => g z n (h z n hz)

theorem Grow.ext {p : Nat} {a b : Mem} (h : Grow p a.next a b) (hi : Inv a) : Ext a b := fun z n hz => by rw [h.old (hi.below z n hz)]; exact hz

theorem readItems_mono {r r' : Nat → Except Err Value} (h : ∀ x v, r x = .ok v → r' x = .ok v) : ∀ (xs : List Nat) (vs : List Value), readItems r xs = .ok vs → readItems r' xs = .ok vs
  | [], vs, he => he
  | x :: xs, vs, he => by
    unfold readItems at he ⊢
    cases hx : r x with
    | error e => rw [hx] at he; cases he
    | ok v =>
      rw [hx] at he; rw [h x v hx]
      simp only at he ⊢
      cases hy : readItems r xs with
      | error e => rw [hy] at he; cases he
      | ok ws => rw [hy] at he; rw [readItems_mono h xs ws hy]; exact he

theorem readMembers_mono {r r' : Nat → Except Err Value} (h : ∀ x v, r x = .ok v → r' x = .ok v) : ∀ (xs : List (Bytes × Nat)) (vs : List (Bytes × Value)), readMembers r xs = .ok vs → readMembers r' xs = .ok vs
  | [], vs, he => he
  | (k, x) :: xs, vs, he => by
    unfold readMembers at he ⊢
    cases hx : r x with
    | error e => rw [hx] at he; cases he
    | ok v =>
      rw [hx] at he; rw [h x v hx]
      simp only at he ⊢
      cases hy : readMembers r xs with
      | error e => rw [hy] at he; cases he
      | ok ws => rw [hy] at he; rw [readMembers_mono h xs ws hy]; exact he

/-- Deeper, and with more objects, the walk gives the same. -/
theorem read_mono {m m' : Mem} (h : Ext m m') : ∀ (f f' x : Nat) (v : Value), f ≤ f' → read m f x = .ok v → read m' f' x = .ok v
  | 0, _, _, _, _, he => by cases he
  | f + 1, 0, _, _, hl, _ => by omega
  | f + 1, f' + 1, x, v, hl, he => by
    have ih := fun x v => read_mono h f f' x v (by omega)
    unfold read at he ⊢
    cases hx : m.node x with
    | none => rw [hx] at he; cases he
    | some n =>
      rw [hx] at he; rw [h x n hx]
      cases n with
      | leaf w => exact he
      | secret y =>
        simp only at he ⊢
        cases hy : read m f y with
        | error e => rw [hy] at he; cases he
        | ok w => rw [hy] at he; rw [ih y w hy]; exact he
      | arr xs =>
        simp only at he ⊢
        cases hy : readItems (read m f) xs with
        | error e => rw [hy] at he; cases he
        | ok w => rw [hy] at he; rw [readItems_mono ih xs w hy]; exact he
      | str xs =>
        simp only at he ⊢
        cases hy : readMembers (read m f) xs with
        | error e => rw [hy] at he; cases he
        | ok w => rw [hy] at he; rw [readMembers_mono ih xs w hy]; exact he

open Classical in
/-- Only these objects. -/
noncomputable def only (S : Nat → Prop) (m : Mem) : Mem := { m with node := fun x => if S x then m.node x else none }

theorem only_node {S : Nat → Prop} {m : Mem} {x : Nat} {n : Node} : (only S m).node x = some n ↔ S x ∧ m.node x = some n := by
  simp only [only]
  split
  · next h => simp [h]
  · next h => simp [h]

theorem only_ext {S S' : Nat → Prop} {m m' : Mem} (h : ∀ z n, S z → m.node z = some n → S' z ∧ m'.node z = some n) : Ext (only S m) (only S' m') := by
  intro z n hz
  obtain ⟨h1, h2⟩ := only_node.1 hz
  exact only_node.2 (h z n h1 h2)

theorem only_sub (S : Nat → Prop) (m : Mem) : Ext (only S m) m := fun _ _ hz => (only_node.1 hz).2

theorem readItems_mem {r : Nat → Except Err Value} : ∀ {xs : List Nat} {vs : List Value}, readItems r xs = .ok vs → ∀ x ∈ xs, ∃ v, r x = .ok v
  | [], _, _, x, hx => by simp at hx
  | y :: xs, vs, he, x, hx => by
    unfold readItems at he
    cases hy : r y with
    | error e => rw [hy] at he; cases he
    | ok v =>
      rw [hy] at he
      simp only at he
      cases hz : readItems r xs with
      | error e => rw [hz] at he; cases he
      | ok ws =>
        rcases List.mem_cons.1 hx with rfl | hx
        · exact ⟨v, hy⟩
        · exact readItems_mem hz x hx

theorem readMembers_mem {r : Nat → Except Err Value} : ∀ {xs : List (Bytes × Nat)} {vs : List (Bytes × Value)}, readMembers r xs = .ok vs → ∀ x ∈ xs.map (·.2), ∃ v, r x = .ok v
  | [], _, _, x, hx => by simp at hx
  | (k, y) :: xs, vs, he, x, hx => by
    unfold readMembers at he
    cases hy : r y with
    | error e => rw [hy] at he; cases he
    | ok v =>
      rw [hy] at he
      simp only at he
      cases hz : readMembers r xs with
      | error e => rw [hz] at he; cases he
      | ok ws =>
        simp only [List.map_cons, List.mem_cons] at hx
        rcases hx with rfl | hx
        · exact ⟨v, hy⟩
        · exact readMembers_mem hz x hx

/-- What is pointed to can be walked if the object can. -/
theorem read_points {m : Mem} {f x y : Nat} {v : Value} (h : read m (f + 1) x = .ok v) (hp : Points m x y) : ∃ w, read m f y = .ok w := by
  obtain ⟨n, hn, hy⟩ := hp
  unfold read at h
  rw [hn] at h
  cases n with
  | leaf w => simp [targets] at hy
  | secret z =>
    simp only [targets, List.mem_singleton] at hy
    subst hy
    simp only at h
    cases hz : read m f y with
    | error e => rw [hz] at h; cases h
    | ok w => exact ⟨w, rfl⟩
  | arr xs =>
    simp only at h
    cases hz : readItems (read m f) xs with
    | error e => rw [hz] at h; cases h
    | ok w => exact readItems_mem hz y hy
  | str xs =>
    simp only at h
    cases hz : readMembers (read m f) xs with
    | error e => rw [hz] at h; cases h
    | ok w => exact readMembers_mem hz y hy

theorem read_alive {m : Mem} {f x : Nat} {v : Value} (h : read m f x = .ok v) : ∃ n, m.node x = some n := by
  cases f with
  | zero => cases h
  | succ f =>
    unfold read at h
    cases hx : m.node x with
    | none => rw [hx] at h; cases h
    | some n => exact ⟨n, rfl⟩

/-- A walk among these objects reaches only these. -/
theorem read_only {S : Nat → Prop} {m : Mem} {x z : Nat} (hr : Reach m x z) : ∀ {f : Nat} {v : Value}, read (only S m) f x = .ok v → S z := by
  induction hr with
  | refl x =>
    intro f v h
    obtain ⟨n, hn⟩ := read_alive h
    exact (only_node.1 hn).1
  | @step x y z hp _ ih =>
    intro f v h
    cases f with
    | zero => cases h
    | succ f =>
      obtain ⟨n, hn⟩ := read_alive h
      obtain ⟨n', h1, h2⟩ := hp
      have e : n = n' := by have := (only_node.1 hn).2; rw [h1] at this; cases this; rfl
      subst e
      obtain ⟨w, hw⟩ := read_points (y := y) h ⟨n, hn, h2⟩
      exact ih hw

/-- The objects a walk meets are those reached. -/
theorem read_reach {m : Mem} : ∀ (f x : Nat) (v : Value), read m f x = .ok v → read (only (Reach m x) m) f x = .ok v := by
  have main : ∀ (f x : Nat) (v : Value) (S : Nat → Prop), (∀ z, Reach m x z → S z) → read m f x = .ok v → read (only S m) f x = .ok v := by
    intro f
    induction f with
    | zero => intro x v S _ h; cases h
    | succ f ih =>
      intro x v S hS h
      have hk : ∀ y, Points m x y → ∀ v, read m f y = .ok v → read (only S m) f y = .ok v := fun y hp v hv => ih y v S (fun z hz => hS z (.step hp hz)) hv
      unfold read at h ⊢
      cases hx : m.node x with
      | none => rw [hx] at h; cases h
      | some n =>
        rw [hx] at h
        rw [only_node.2 ⟨hS x (.refl x), hx⟩]
        have hk : ∀ y ∈ targets n, ∀ v, read m f y = .ok v → read (only S m) f y = .ok v := fun y hy => hk y ⟨n, hx, hy⟩
        cases n with
        | leaf w => exact h
        | secret y =>
          simp only at h ⊢
          cases hy : read m f y with
          | error e => rw [hy] at h; cases h
          | ok w => rw [hy] at h; rw [hk y (by simp [targets]) w hy]; exact h
        | arr xs =>
          simp only at h ⊢
          have aux : ∀ (xs : List Nat) (vs : List Value), (∀ y ∈ xs, ∀ v, read m f y = .ok v → read (only S m) f y = .ok v) → readItems (read m f) xs = .ok vs → readItems (read (only S m) f) xs = .ok vs := by
            intro xs
            induction xs with
            | nil => intro vs _ he; exact he
            | cons y ys ihs =>
              intro vs hh he
              unfold readItems at he ⊢
              cases hy : read m f y with
              | error e => rw [hy] at he; cases he
              | ok w =>
                rw [hy] at he; rw [hh y (by simp) w hy]
                simp only at he ⊢
                cases hz : readItems (read m f) ys with
                | error e => rw [hz] at he; cases he
                | ok ws => rw [hz] at he; rw [ihs ws (fun y hy => hh y (by simp [hy])) hz]; exact he
          cases hy : readItems (read m f) xs with
          | error e => rw [hy] at h; cases h
          | ok w => rw [hy] at h; rw [aux xs w hk hy]; exact h
        | str xs =>
          simp only at h ⊢
          have aux : ∀ (xs : List (Bytes × Nat)) (vs : List (Bytes × Value)), (∀ y ∈ xs.map (·.2), ∀ v, read m f y = .ok v → read (only S m) f y = .ok v) → readMembers (read m f) xs = .ok vs → readMembers (read (only S m) f) xs = .ok vs := by
            intro xs
            induction xs with
            | nil => intro vs _ he; exact he
            | cons y ys ihs =>
              obtain ⟨k, y⟩ := y
              intro vs hh he
              unfold readMembers at he ⊢
              cases hy : read m f y with
              | error e => rw [hy] at he; cases he
              | ok w =>
                rw [hy] at he; rw [hh y (by simp) w hy]
                simp only at he ⊢
                cases hz : readMembers (read m f) ys with
                | error e => rw [hz] at he; cases he
                | ok ws => rw [hz] at he; rw [ihs ws (fun y hy => hh y (by simp only [List.map_cons, List.mem_cons]; exact .inr hy)) hz]; exact he
          cases hy : readMembers (read m f) xs with
          | error e => rw [hy] at h; cases h
          | ok w => rw [hy] at h; rw [aux xs w hk hy]; exact h
  exact fun f x v => main f x v _ (fun z hz => hz)

/-- What is reached stays: the walk gives the same and meets the same objects. -/
theorem read_frame {m m' : Mem} {f x : Nat} {v : Value} (h : read m f x = .ok v) (hk : ∀ z n, Reach m x z → m.node z = some n → m'.node z = some n) :
    read (only (Reach m x) m') f x = .ok v :=
  read_mono (only_ext (S := Reach m x) (S' := Reach m x) (fun z n hz hn => ⟨hz, hk z n hz hn⟩)) f f x v (Nat.le_refl _) (read_reach f x v h)

theorem readItems_append {r : Nat → Except Err Value} : ∀ {xs : List Nat} {vs : List Value} {y : Nat} {w : Value}, readItems r xs = .ok vs → r y = .ok w → readItems r (xs ++ [y]) = .ok (vs ++ [w])
  | [], vs, y, w, he, hy => by simp only [readItems] at he; cases he; simp [readItems, hy]
  | x :: xs, vs, y, w, he, hy => by
    simp only [List.cons_append]
    unfold readItems at he ⊢
    cases hx : r x with
    | error e => rw [hx] at he; cases he
    | ok v =>
      rw [hx] at he
      simp only at he ⊢
      cases hz : readItems r xs with
      | error e => rw [hz] at he; cases he
      | ok ws =>
        rw [hz] at he
        cases he
        rw [readItems_append hz hy]
        rfl

theorem readMembers_insert {r : Nat → Except Err Value} {k : Bytes} {y : Nat} {w : Value} (hy : r y = .ok w) : ∀ {xs : List (Bytes × Nat)} {vs : List (Bytes × Value)}, readMembers r xs = .ok vs →
    readMembers r (SMap.insert k y xs).1 = .ok (SMap.insert k w vs).1 ∧ (SMap.insert k y xs).2 = (SMap.insert k w vs).2
  | [], vs, he => by simp only [readMembers] at he; cases he; simp [SMap.insert, readMembers, hy]
  | (k', x) :: xs, vs, he => by
    have he0 := he
    unfold readMembers at he
    cases hx : r x with
    | error e => rw [hx] at he; cases he
    | ok v =>
      rw [hx] at he
      simp only at he
      cases hz : readMembers r xs with
      | error e => rw [hz] at he; cases he
      | ok ws =>
        rw [hz] at he
        cases he
        have ih := readMembers_insert (k := k) hy hz
        simp only [SMap.insert]
        by_cases c : keyLt k k' = true
        · rw [if_pos c, if_pos c]
          refine ⟨?_, rfl⟩
          simp only
          unfold readMembers
          rw [hy, he0]
        · rw [if_neg c, if_neg c]
          by_cases c2 : k = k'
          · rw [if_pos c2, if_pos c2]; exact ⟨he0, rfl⟩
          · rw [if_neg c2, if_neg c2]
            refine ⟨?_, ih.2⟩
            simp only
            unfold readMembers
            rw [hx, ih.1]

theorem readMembers_assign {r : Nat → Except Err Value} {k : Bytes} {y : Nat} {w : Value} (hy : r y = .ok w) : ∀ {xs : List (Bytes × Nat)} {vs : List (Bytes × Value)}, readMembers r xs = .ok vs →
    readMembers r (SMap.assign k y xs) = .ok (SMap.assign k w vs)
  | [], vs, he => by simp only [readMembers] at he; cases he; simp [SMap.assign, readMembers]
  | (k', x) :: xs, vs, he => by
    unfold readMembers at he
    cases hx : r x with
    | error e => rw [hx] at he; cases he
    | ok v =>
      rw [hx] at he
      simp only at he
      cases hz : readMembers r xs with
      | error e => rw [hz] at he; cases he
      | ok ws =>
        rw [hz] at he
        cases he
        simp only [SMap.assign]
        by_cases c : k = k'
        · rw [if_pos c, if_pos c]; unfold readMembers; rw [hy, hz]
        · rw [if_neg c, if_neg c]; unfold readMembers; rw [hx, readMembers_assign hy hz]

theorem readMembers_append {r : Nat → Except Err Value} {k : Bytes} {y : Nat} {w : Value} (hy : r y = .ok w) {xs : List (Bytes × Nat)} {vs : List (Bytes × Value)} (h : readMembers r xs = .ok vs) :
    readMembers r (SMap.append k y xs) = .ok (SMap.append k w vs) := by
  obtain ⟨h1, h2⟩ := readMembers_insert (k := k) hy h
  unfold SMap.append
  simp only [h2]
  split
  · exact h1
  · exact readMembers_assign hy h1

/-! ## Clones -/

/-- The objects a clone is made of: of the pool and new, or the static null. -/
def New (p lo : Nat) (m : Mem) (z : Nat) : Prop := z = 0 ∨ (lo ≤ z ∧ z ∈ m.pool p)

theorem New.mono {p lo lo' : Nat} {m m' : Mem} {z : Nat} (h : New p lo m z) (hl : lo' ≤ lo) (hg : Grow p lo' m m') : New p lo' m' z := by
  rcases h with h | ⟨h1, h2⟩
  · exact .inl h
  · obtain ⟨_, l, h3, _⟩ := hg.pool
    exact .inr ⟨by omega, by rw [h3]; simp [h2]⟩

/-- How a clone of the object at that depth goes. -/
def CloneOk (cfg : Cfg) (p f : Nat) : Prop := ∀ (x : Nat) (m : Mem) (v : Value), Inv m → read m f x = .ok v →
  match Clone.clone cfg v with
  | .ok w => ∃ m' y, clone cfg p f x m = (m', .ok y) ∧ read (only (New p m.next m') m') f y = .ok w
  | .error e => (clone cfg p f x m).2 = .error e

theorem cloneItems_ok {cfg : Cfg} {p f : Nat} (hc : CloneOk cfg p f) (m0 : Mem) (a : Nat) (ha : a ≠ 0) (h0 : m0.node a = none) : ∀ (xs : List Nat) (vs ws : List Value) (m : Mem) (ys : List Nat), Inv m → Ext m0 m → a < m.next →
    m.node a = some (.arr ys) → readItems (read (only (New p (a + 1) m) m) f) ys = .ok ws → readItems (read m0 f) xs = .ok vs →
    match Clone.cloneItems cfg ws vs with
    | .ok rs => ∃ m' ys', cloneItems (clone cfg p f) a xs m = (m', .ok a) ∧ m'.node a = some (.arr ys') ∧ readItems (read (only (New p (a + 1) m') m') f) ys' = .ok rs
    | .error e => (cloneItems (clone cfg p f) a xs m).2 = .error e
  | [], vs, ws, m, ys, _, _, _, hn, hy, hx => by
    simp only [readItems] at hx; cases hx
    simp only [Clone.cloneItems]
    exact ⟨m, ys, rfl, hn, hy⟩
  | x :: xs, vs, ws, m, ys, hi, he, hlt, hn, hy, hx => by
    unfold readItems at hx
    cases hv : read m0 f x with
    | error e => rw [hv] at hx; cases hx
    | ok v =>
      rw [hv] at hx
      simp only at hx
      cases hz : readItems (read m0 f) xs with
      | error e => rw [hz] at hx; cases hx
      | ok us =>
        rw [hz] at hx
        cases hx
        have hcx := hc x m v hi (read_mono he f f x v (Nat.le_refl _) hv)
        have hg := clone_grow cfg p f x m
        simp only [Clone.cloneItems, bind, Except.bind]
        unfold cloneItems
        cases hw : Clone.clone cfg v with
        | error e =>
          rw [hw] at hcx
          simp only at hcx ⊢
          revert hcx
          generalize clone cfg p f x m = q
          obtain ⟨m1, r⟩ := q
          intro h
          simp only at h
          subst h
          rfl
        | ok w =>
          rw [hw] at hcx
          simp only at hcx ⊢
          obtain ⟨m1, y, h1, h2⟩ := hcx
          rw [h1] at hg ⊢
          simp only at hg ⊢
          have hn1 : m1.node a = some (.arr ys) := by rw [hg.old hlt]; exact hn
          have hp : push a y m1 = (set a (.arr (ys ++ [y])) m1, .ok a) := by unfold push; rw [hn1]
          rw [hp]
          simp only
          have hi1 : Inv m1 := hg.inv hi
          have hext : Ext (only (New p (a + 1) m) m) (only (New p (a + 1) (set a (.arr (ys ++ [y])) m1)) (set a (.arr (ys ++ [y])) m1)) := by
            refine only_ext (fun z n hz hzn => ?_)
            have hza : z ≠ a := by rcases hz with hz | hz <;> omega
            refine ⟨?_, ?_⟩
            · rcases hz with hz | ⟨g1, g2⟩
              · exact .inl hz
              · obtain ⟨_, l, h3, _⟩ := hg.pool
                exact .inr ⟨g1, by show z ∈ m1.pool p; rw [h3]; simp [g2]⟩
            · simp only [Heap.set]; rw [if_neg hza]; exact hg.ext hi z n hzn
          have hy1 : read (only (New p (a + 1) (set a (.arr (ys ++ [y])) m1)) (set a (.arr (ys ++ [y])) m1)) f y = .ok w := by
            refine read_mono (only_ext (fun z n hz hzn => ?_)) f f y w (Nat.le_refl _) h2
            have hza : z ≠ a := by rcases hz with hz | hz <;> omega
            refine ⟨?_, ?_⟩
            · rcases hz with hz | ⟨g1, g2⟩
              · exact .inl hz
              · exact .inr ⟨by omega, g2⟩
            · simp only [Heap.set]; rw [if_neg hza]; exact hzn
          refine cloneItems_ok hc m0 a ha h0 xs us (ws ++ [w]) _ (ys ++ [y]) ?_ ?_ ?_ ?_ ?_ hz
          · exact hi1.set _ ha hn1
          · intro z n hzn
            have h3 := hg.ext hi z n (he z n hzn)
            simp only [Heap.set]
            split
            · next e =>
              subst e
              rw [h0] at hzn; cases hzn
            · exact h3
          · have := hg.next; simp only [Heap.set]; omega
          · simp [Heap.set]
          · exact readItems_append (readItems_mono (fun x v h => read_mono hext f f x v (Nat.le_refl _) h) ys ws hy) hy1

theorem cloneMembers_ok {cfg : Cfg} {p f : Nat} (hc : CloneOk cfg p f) (m0 : Mem) (a : Nat) (ha : a ≠ 0) (h0 : m0.node a = none) : ∀ (xs : List (Bytes × Nat)) (vs ws : List (Bytes × Value)) (m : Mem) (ys : List (Bytes × Nat)), Inv m → Ext m0 m → a < m.next →
    m.node a = some (.str ys) → readMembers (read (only (New p (a + 1) m) m) f) ys = .ok ws → readMembers (read m0 f) xs = .ok vs →
    match Clone.cloneMembers cfg ws vs with
    | .ok rs => ∃ m' ys', cloneMembers (clone cfg p f) a xs m = (m', .ok a) ∧ m'.node a = some (.str ys') ∧ readMembers (read (only (New p (a + 1) m') m') f) ys' = .ok rs
    | .error e => (cloneMembers (clone cfg p f) a xs m).2 = .error e
  | [], vs, ws, m, ys, _, _, _, hn, hy, hx => by
    simp only [readMembers] at hx; cases hx
    simp only [Clone.cloneMembers]
    exact ⟨m, ys, rfl, hn, hy⟩
  | (k, x) :: xs, vs, ws, m, ys, hi, he, hlt, hn, hy, hx => by
    unfold readMembers at hx
    cases hv : read m0 f x with
    | error e => rw [hv] at hx; cases hx
    | ok v =>
      rw [hv] at hx
      simp only at hx
      cases hz : readMembers (read m0 f) xs with
      | error e => rw [hz] at hx; cases hx
      | ok us =>
        rw [hz] at hx
        cases hx
        have hcx := hc x m v hi (read_mono he f f x v (Nat.le_refl _) hv)
        have hg := clone_grow cfg p f x m
        simp only [Clone.cloneMembers, bind, Except.bind]
        unfold cloneMembers
        cases hw : Clone.clone cfg v with
        | error e =>
          rw [hw] at hcx
          simp only at hcx ⊢
          revert hcx
          generalize clone cfg p f x m = q
          obtain ⟨m1, r⟩ := q
          intro h
          simp only at h
          subst h
          rfl
        | ok w =>
          rw [hw] at hcx
          simp only at hcx ⊢
          obtain ⟨m1, y, h1, h2⟩ := hcx
          rw [h1] at hg ⊢
          simp only at hg ⊢
          have hn1 : m1.node a = some (.str ys) := by rw [hg.old hlt]; exact hn
          have hp : insert a k y m1 = (set a (.str (SMap.insert k y ys).1) m1, .ok a) := by unfold Heap.insert; rw [hn1]
          rw [hp]
          simp only
          have hi1 : Inv m1 := hg.inv hi
          have hext : Ext (only (New p (a + 1) m) m) (only (New p (a + 1) (set a (.str (SMap.insert k y ys).1) m1)) (set a (.str (SMap.insert k y ys).1) m1)) := by
            refine only_ext (fun z n hz hzn => ?_)
            have hza : z ≠ a := by rcases hz with hz | hz <;> omega
            refine ⟨?_, ?_⟩
            · rcases hz with hz | ⟨g1, g2⟩
              · exact .inl hz
              · obtain ⟨_, l, h3, _⟩ := hg.pool
                exact .inr ⟨g1, by show z ∈ m1.pool p; rw [h3]; simp [g2]⟩
            · simp only [Heap.set]; rw [if_neg hza]; exact hg.ext hi z n hzn
          have hy1 : read (only (New p (a + 1) (set a (.str (SMap.insert k y ys).1) m1)) (set a (.str (SMap.insert k y ys).1) m1)) f y = .ok w := by
            refine read_mono (only_ext (fun z n hz hzn => ?_)) f f y w (Nat.le_refl _) h2
            have hza : z ≠ a := by rcases hz with hz | hz <;> omega
            refine ⟨?_, ?_⟩
            · rcases hz with hz | ⟨g1, g2⟩
              · exact .inl hz
              · exact .inr ⟨by omega, g2⟩
            · simp only [Heap.set]; rw [if_neg hza]; exact hzn
          refine cloneMembers_ok hc m0 a ha h0 xs us (SMap.insert k w ws).1 _ (SMap.insert k y ys).1 ?_ ?_ ?_ ?_ ?_ hz
          · exact hi1.set _ ha hn1
          · intro z n hzn
            have h3 := hg.ext hi z n (he z n hzn)
            simp only [Heap.set]
            split
            · next e =>
              subst e
              rw [h0] at hzn; cases hzn
            · exact h3
          · have := hg.next; simp only [Heap.set]; omega
          · simp [Heap.set]
          · exact (readMembers_insert hy1 (readMembers_mono (fun x v h => read_mono hext f f x v (Nat.le_refl _) h) ys ws hy)).1


theorem scalar_ok {p f : Nat} (m : Mem) (hi : Inv m) (w : Value) : read (only (New p m.next (scalar p w m).1) (scalar p w m).1) (f + 1) (scalar p w m).2 = .ok w := by
  have key : ∀ w : Value, read (only (New p m.next (alloc p (.leaf w) m).1) (alloc p (.leaf w) m).1) (f + 1) (alloc p (.leaf w) m).2 = .ok w := by
    intro w
    have : (only (New p m.next (alloc p (.leaf w) m).1) (alloc p (.leaf w) m).1).node (alloc p (.leaf w) m).2 = some (.leaf w) :=
      only_node.2 ⟨.inr ⟨Nat.le_refl _, by simp [alloc]⟩, by simp [alloc]⟩
    unfold read
    rw [this]
  unfold scalar
  split
  · have : (only (New p m.next m) m).node nullAt = some (.leaf .null) := only_node.2 ⟨.inl rfl, hi.null⟩
    unfold read
    rw [this]
  · exact key _

theorem fresh_none {m : Mem} (hi : Inv m) : m.node m.next = none := by
  cases hk : m.node m.next with
  | none => rfl
  | some k => exact absurd (hi.below _ _ hk) (by omega)

/-- A clone is the clone of the tree, of new objects of the pool. -/
theorem clone_ok (cfg : Cfg) (p : Nat) : ∀ f, CloneOk cfg p f
  | 0 => by intro x m v _ h; cases h
  | f + 1 => by
    intro x m v hi h
    have ih := clone_ok cfg p f
    have hext : ∀ n, Ext m (alloc p n m).1 := fun n => (alloc_grow (lo := m.next) n m (Nat.le_refl _)).ext hi
    have h0 : m.next ≠ 0 := by have := hi.pos; omega
    unfold read at h
    unfold clone
    cases hx : m.node x with
    | none => rw [hx] at h; cases h
    | some n =>
      rw [hx] at h
      cases n with
      | leaf u =>
        simp only at h ⊢
        cases h
        cases hw : Clone.clone cfg v with
        | error e => rfl
        | ok w => exact ⟨_, _, rfl, scalar_ok m hi w⟩
      | secret y =>
        simp only at h ⊢
        cases hy : read m f y with
        | error e => rw [hy] at h; cases h
        | ok u =>
          rw [hy] at h
          cases h
          have hc := ih y m u hi hy
          have hg := clone_grow cfg p f y m
          simp only [Clone.clone, bind, Except.bind, pure, Except.pure]
          cases hw : Clone.clone cfg u with
          | error e =>
            rw [hw] at hc
            simp only at hc ⊢
            revert hc
            generalize clone cfg p f y m = q
            obtain ⟨m1, r⟩ := q
            intro h
            simp only at h
            subst h
            rfl
          | ok w =>
            rw [hw] at hc
            simp only at hc ⊢
            obtain ⟨m1, z, h1, h2⟩ := hc
            rw [h1] at hg ⊢
            refine ⟨_, _, rfl, ?_⟩
            have hi1 := hg.inv hi
            have hn : (only (New p m.next (alloc p (.secret z) m1).1) (alloc p (.secret z) m1).1).node (alloc p (.secret z) m1).2 = some (.secret z) :=
              only_node.2 ⟨.inr ⟨hg.next, by simp [alloc]⟩, by simp [alloc]⟩
            have hz : read (only (New p m.next (alloc p (.secret z) m1).1) (alloc p (.secret z) m1).1) f z = .ok w := by
              refine read_mono (only_ext (fun t n ht htn => ⟨?_, ?_⟩)) f f z w (Nat.le_refl _) h2
              · rcases ht with ht | ⟨g1, g2⟩
                · exact .inl ht
                · exact .inr ⟨g1, by simp [alloc, g2]⟩
              · exact (alloc_grow (p := p) (lo := m1.next) _ m1 (Nat.le_refl _)).ext hi1 t n htn
            unfold read
            rw [hn]
            simp only [hz]
      | arr xs =>
        simp only at h ⊢
        cases hy : readItems (read m f) xs with
        | error e => rw [hy] at h; cases h
        | ok us =>
          rw [hy] at h
          cases h
          have hl := cloneItems_ok ih m m.next h0 (fresh_none hi) xs us [] (alloc p (.arr []) m).1 [] (hi.alloc p _) (hext _) (by simp [alloc]) (by simp [alloc]) rfl hy
          have hg : Grow p m.next (alloc p (.arr []) m).1 (cloneItems (clone cfg p f) m.next xs (alloc p (.arr []) m).1).1 :=
            cloneItems_grow (clone_grow cfg p f) (Nat.le_refl _) _ _ (by simp [alloc])
          simp only [Clone.clone, bind, Except.bind, pure, Except.pure]
          cases hw : Clone.cloneItems cfg [] us with
          | error e => rw [hw] at hl; exact hl
          | ok ws =>
            rw [hw] at hl
            obtain ⟨m', ys, h1, h2, h3⟩ := hl
            rw [h1] at hg
            refine ⟨m', m.next, h1, ?_⟩
            have hn : (only (New p m.next m') m').node m.next = some (.arr ys) := by
              refine only_node.2 ⟨.inr ⟨Nat.le_refl _, ?_⟩, h2⟩
              obtain ⟨_, l, h4, _⟩ := hg.pool
              rw [h4]; simp [alloc]
            have h5 := readItems_mono (fun t u ht => read_mono (only_ext (S' := New p m.next m') (m' := m') (fun z n hz hzn => ⟨by
              rcases hz with hz | ⟨g1, g2⟩
              · exact .inl hz
              · exact .inr ⟨by omega, g2⟩, hzn⟩)) f f t u (Nat.le_refl _) ht) ys ws h3
            unfold read
            rw [hn]
            simp only [h5]
      | str xs =>
        simp only at h ⊢
        cases hy : readMembers (read m f) xs with
        | error e => rw [hy] at h; cases h
        | ok us =>
          rw [hy] at h
          cases h
          have hl := cloneMembers_ok ih m m.next h0 (fresh_none hi) xs us [] (alloc p (.str []) m).1 [] (hi.alloc p _) (hext _) (by simp [alloc]) (by simp [alloc]) rfl hy
          have hg : Grow p m.next (alloc p (.str []) m).1 (cloneMembers (clone cfg p f) m.next xs (alloc p (.str []) m).1).1 :=
            cloneMembers_grow (clone_grow cfg p f) (Nat.le_refl _) _ _ (by simp [alloc])
          simp only [Clone.clone, bind, Except.bind, pure, Except.pure]
          cases hw : Clone.cloneMembers cfg [] us with
          | error e => rw [hw] at hl; exact hl
          | ok ws =>
            rw [hw] at hl
            obtain ⟨m', ys, h1, h2, h3⟩ := hl
            rw [h1] at hg
            refine ⟨m', m.next, h1, ?_⟩
            have hn : (only (New p m.next m') m').node m.next = some (.str ys) := by
              refine only_node.2 ⟨.inr ⟨Nat.le_refl _, ?_⟩, h2⟩
              obtain ⟨_, l, h4, _⟩ := hg.pool
              rw [h4]; simp [alloc]
            have h5 := readMembers_mono (fun t u ht => read_mono (only_ext (S' := New p m.next m') (m' := m') (fun z n hz hzn => ⟨by
              rcases hz with hz | ⟨g1, g2⟩
              · exact .inl hz
              · exact .inr ⟨by omega, g2⟩, hzn⟩)) f f t u (Nat.le_refl _) ht) ys ws h3
            unfold read
            rw [hn]
            simp only [h5]

/-! ## Endless values -/

theorem read_endless {m : Mem} : ∀ (f x : Nat) (v : Value), Endless m x → read m f x ≠ .ok v
  | 0, _, _, _ => by simp [read]
  | f + 1, x, v, ⟨S, hx, hS⟩ => by
    intro h
    obtain ⟨y, hp, hy⟩ := hS x hx
    obtain ⟨w, hw⟩ := read_points h hp
    exact read_endless f y w ⟨S, hy, hS⟩ hw

theorem Endless.ext {m m' : Mem} {x : Nat} (h : Endless m x) (he : Ext m m') : Endless m' x := by
  obtain ⟨S, h1, h2⟩ := h
  refine ⟨S, h1, fun s hs => ?_⟩
  obtain ⟨y, ⟨n, hn, hy⟩, hys⟩ := h2 s hs
  exact ⟨y, ⟨n, he s n hn, hy⟩, hys⟩

theorem clone_endless (cfg : Cfg) (p : Nat) : ∀ (f x y : Nat) (m : Mem), Inv m → Endless m x → (clone cfg p f x m).2 ≠ .ok y
  | 0, _, _, _, _, _ => by simp [clone]
  | f + 1, x, y, m, hi, he => by
    obtain ⟨S, hx, hS⟩ := he
    obtain ⟨t, ⟨n, hn, ht⟩, hts⟩ := hS x hx
    have ih := fun (x y : Nat) (m : Mem) => clone_endless cfg p f x y m
    have hext : ∀ n, Ext m (alloc p n m).1 := fun n => (alloc_grow (lo := m.next) n m (Nat.le_refl _)).ext hi
    unfold clone
    rw [hn]
    cases n with
    | leaf v => simp [targets] at ht
    | secret z =>
      simp only [targets, List.mem_singleton] at ht
      subst ht
      have h := fun y => ih t y m hi ⟨S, hts, hS⟩
      revert h
      simp only
      generalize clone cfg p f t m = q
      obtain ⟨m1, r⟩ := q
      intro h
      cases r with
      | error e => simp
      | ok z => exact absurd rfl (h z)
    | arr xs =>
      simp only
      have aux : ∀ (xs : List Nat) (m1 : Mem) (a : Nat), m.node a = none → a ≠ 0 → a < m1.next → Inv m1 → Ext m m1 → t ∈ xs → ∀ y, (cloneItems (clone cfg p f) a xs m1).2 ≠ .ok y := by
        intro xs
        induction xs with
        | nil => intro m1 a _ _ _ _ _ ht; simp at ht
        | cons z zs ihs =>
          intro m1 a ha ha0 hal hi1 he1 ht y
          unfold cloneItems
          have hz := clone_grow cfg p f z m1
          have hzt : z = t → ∀ y, (clone cfg p f z m1).2 ≠ .ok y := fun e y => e ▸ ih t y m1 hi1 (Endless.ext ⟨S, hts, hS⟩ he1)
          revert hz hzt
          generalize clone cfg p f z m1 = q
          obtain ⟨m2, r⟩ := q
          intro hz hzt
          cases r with
          | error e => simp
          | ok w =>
            have ht : t ∈ zs := by
              rcases List.mem_cons.1 ht with e | ht
              · exact absurd rfl (hzt e.symm w)
              · exact ht
            simp only
            have he2 : Ext m m2 := he1.trans (hz.ext hi1)
            have hn2 := hz.next
            simp only at hn2
            unfold push
            split
            · next heq =>
              split at heq
              · next hna => cases heq
              · cases heq; simp
            · next heq =>
              split at heq
              · next hna =>
                cases heq
                refine ihs _ a ha ha0 ?_ ((hz.inv hi1).set _ ha0 hna) ?_ ht y
                · simp only [Heap.set]; omega
                · intro s k hs
                  simp only [Heap.set]
                  rw [if_neg (fun e => by rw [e, ha] at hs; cases hs)]
                  exact he2 s k hs
              · cases heq
      exact aux xs _ _ (fresh_none hi) (fun e => by have := hi.pos; have e : m.next = 0 := e; omega) (by simp [alloc]) (hi.alloc p _) (hext _) ht y
    | str xs =>
      simp only
      have aux : ∀ (xs : List (Bytes × Nat)) (m1 : Mem) (a : Nat), m.node a = none → a ≠ 0 → a < m1.next → Inv m1 → Ext m m1 → t ∈ xs.map (·.2) → ∀ y, (cloneMembers (clone cfg p f) a xs m1).2 ≠ .ok y := by
        intro xs
        induction xs with
        | nil => intro m1 a _ _ _ _ _ ht; simp at ht
        | cons z zs ihs =>
          obtain ⟨k, z⟩ := z
          intro m1 a ha ha0 hal hi1 he1 ht y
          unfold cloneMembers
          have hz := clone_grow cfg p f z m1
          have hzt : z = t → ∀ y, (clone cfg p f z m1).2 ≠ .ok y := fun e y => e ▸ ih t y m1 hi1 (Endless.ext ⟨S, hts, hS⟩ he1)
          revert hz hzt
          generalize clone cfg p f z m1 = q
          obtain ⟨m2, r⟩ := q
          intro hz hzt
          cases r with
          | error e => simp
          | ok w =>
            have ht : t ∈ zs.map (·.2) := by
              simp only [List.map_cons, List.mem_cons] at ht
              rcases ht with e | ht
              · exact absurd rfl (hzt e.symm w)
              · exact ht
            simp only
            have he2 : Ext m m2 := he1.trans (hz.ext hi1)
            have hn2 := hz.next
            simp only at hn2
            unfold Heap.insert
            split
            · next heq =>
              split at heq
              · next hna => cases heq
              · cases heq; simp
            · next heq =>
              split at heq
              · next hna =>
                cases heq
                refine ihs _ a ha ha0 ?_ ((hz.inv hi1).set _ ha0 hna) ?_ ht y
                · simp only [Heap.set]; omega
                · intro s k hs
                  simp only [Heap.set]
                  rw [if_neg (fun e => by rw [e, ha] at hs; cases hs)]
                  exact he2 s k hs
              · cases heq
      exact aux xs _ _ (fresh_none hi) (fun e => by have := hi.pos; have e : m.next = 0 := e; omega) (by simp [alloc]) (hi.alloc p _) (hext _) ht y

end Heap
end Frpc
