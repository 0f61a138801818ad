import Verif.Spec.Converters
import Verif.Props.Heap
/-!
# Native containers as values: C123
-/
namespace Frpc
namespace Converters
open Heap
open Spec.Heap
open Spec.Converters (Wanted Convertible Narrow Each First)

/-! ## The value, as a function -/

def vals {A : Type} (f : A → Except Err Value) : List A → Except Err (List Value)
  | [] => .ok []
  | x :: xs =>
    match f x with
    | .error e => .error e
    | .ok v => (vals f xs).map (v :: ·)

theorem vals_cons {A : Type} (f : A → Except Err Value) (x : A) (xs : List A) : vals f (x :: xs) = match f x with | .error e => .error e | .ok v => (vals f xs).map (v :: ·) := rfl

def memVals {A : Type} (f : A → Except Err Value) : List (Bytes × A) → Except Err (List (Bytes × Value))
  | [] => .ok []
  | (k, x) :: xs =>
    match f x with
    | .error e => .error e
    | .ok v => (memVals f xs).map ((k, v) :: ·)

theorem memVals_cons {A : Type} (f : A → Except Err Value) (k : Bytes) (x : A) (xs : List (Bytes × A)) :
    memVals f ((k, x) :: xs) = match f x with | .error e => .error e | .ok v => (memVals f xs).map ((k, v) :: ·) := rfl

def firsts {α : Type} (acc ms : List (Bytes × α)) : List (Bytes × α) := ms.foldl (fun a km => (SMap.insert km.1 km.2 a).1) acc

def val (E : Env) : (c : Cnvt) → Native c → Except Err Value
  | .int, n => .ok (.int n)
  | .double, x => .ok (.double x)
  | .string, s => ofString E s
  | .wstring, s => ofWide s
  | .bool, b => .ok (.bool b)
  | .binary, s => .ok (.binary s)
  | .dateTime, s => (DateTimeMake.ofIso E.L s).map .dateTime
  | .localTime, t => .ok (.dateTime (DateTimeMake.localTime E.L t))
  | .utcTime, t => .ok (.dateTime (DateTimeMake.utcStamp E.L t))
  | .array c, xs => (vals (val E c) xs).map .array
  | .map c, xs => (memVals (val E c) xs).map (fun ms => .struct (firsts [] ms))

/-! ## The objects -/

theorem items_grow {A : Type} {p lo a : Nat} {c : A → Mem → Mem × Except Err Nat} (hc : ∀ x m, Grow p m.next m (c x m).1) (ha : lo ≤ a) :
    ∀ (xs : List A) (m : Mem), lo ≤ m.next → Grow p lo m (items c a xs m).1
  | [], m, _ => .refl _
  | x :: xs, m, hm => by
    have h1 := (hc x m).weaken hm
    unfold items
    revert h1
    generalize c x m = q
    obtain ⟨m1, r⟩ := q
    intro h1
    cases r with
    | error e => exact h1
    | ok y =>
      have h2 := push_grow (p := p) (x := y) m1 ha
      simp only
      revert h2
      generalize push a y m1 = q
      obtain ⟨m2, r⟩ := q
      intro h2
      cases r with
      | error e => exact h1.trans h2
      | ok z => exact (h1.trans h2).trans (items_grow hc ha xs m2 (Nat.le_trans hm (h1.trans h2).next))

theorem members_grow {A : Type} {p lo a : Nat} {c : A → Mem → Mem × Except Err Nat} (hc : ∀ x m, Grow p m.next m (c x m).1) (ha : lo ≤ a) :
    ∀ (xs : List (Bytes × A)) (m : Mem), lo ≤ m.next → Grow p lo m (members c a xs m).1
  | [], m, _ => .refl _
  | (k, x) :: xs, m, hm => by
    have h1 := (hc x m).weaken hm
    unfold members
    revert h1
    generalize c x m = q
    obtain ⟨m1, r⟩ := q
    intro h1
    cases r with
    | error e => exact h1
    | ok y =>
      have h2 := insert_grow (p := p) (x := y) k m1 ha
      simp only
      revert h2
      generalize Heap.insert a k y m1 = q
      obtain ⟨m2, r⟩ := q
      intro h2
      cases r with
      | error e => exact h1.trans h2
      | ok z => exact (h1.trans h2).trans (members_grow hc ha xs m2 (Nat.le_trans hm (h1.trans h2).next))

theorem convert_grow (E : Env) (p : Nat) : ∀ (c : Cnvt) (x : Native c) (m : Mem), Grow p m.next m (convert E p c x m).1 := by
  have hm : ∀ (r : Except Err Value) (m : Mem), Grow p m.next m (make p r m).1 := by
    intro r m
    cases r with
    | error e => exact .refl _
    | ok v => exact scalar_grow v m (Nat.le_refl _)
  intro c
  induction c with
  | array c ih =>
    intro x m
    exact (alloc_grow _ m (Nat.le_refl _)).trans (items_grow ih (Nat.le_refl _) x _ (by simp [alloc]))
  | map c ih =>
    intro x m
    exact (alloc_grow _ m (Nat.le_refl _)).trans (members_grow ih (Nat.le_refl _) x _ (by simp [alloc]))
  | _ => intro x m; exact hm _ m

/-- A converter makes the value, of new objects of the pool. -/
def Ok {A : Type} (p : Nat) (c : A → Mem → Mem × Except Err Nat) (f : A → Except Err Value) : Prop := ∀ (x : A) (m : Mem), Inv m →
  match f x with
  | .ok v => ∃ m' y F, c x m = (m', .ok y) ∧ read (only (New p m.next m') m') F y = .ok v
  | .error e => (c x m).2 = .error e

theorem Mems.ins {c : Mem} {k : Bytes} {ys : List (Bytes × Nat)} {vs : List (Bytes × Value)} {y F : Nat} {v : Value} (hi : Mems c ys vs) (hy : read c F y = .ok v) :
    Mems c (SMap.insert k y ys).1 (SMap.insert k v vs).1 := by
  obtain ⟨G, hG⟩ := hi
  exact ⟨max F G, (readMembers_insert (read_mono (Ext.refl c) F (max F G) y v (Nat.le_max_left _ _) hy) (readMembers_mono (fun x v => read_mono (Ext.refl c) G (max F G) x v (Nat.le_max_right _ _)) _ _ hG)).1⟩

/-- An item made after the container, and the container changed. -/
theorem put_ext {p a y F : Nat} {v : Value} {m m1 : Mem} (n : Node) (ha : a ≠ 0) (hlt : a < m.next) (hi : Inv m) (hg : Grow p m.next m m1) (h2 : read (only (New p m.next m1) m1) F y = .ok v) :
    Ext (only (New p (a + 1) m) m) (only (New p (a + 1) (set a n m1)) (set a n m1)) ∧ read (only (New p (a + 1) (set a n m1)) (set a n m1)) F y = .ok v := by
  refine ⟨only_ext (fun z n hz hzn => ?_), read_mono (only_ext (fun z n hz hzn => ?_)) F F y v (Nat.le_refl _) h2⟩
  · have hza : z ≠ a := by rcases hz with hz | hz <;> omega
    refine ⟨?_, ?_⟩
    · rcases hz with hz | ⟨g1, g2⟩
      · exact .inl hz
      · obtain ⟨_, l, h3, _⟩ := hg.pool
        exact .inr ⟨g1, by show z ∈ m1.pool p; rw [h3]; simp [g2]⟩
    · simp only [Heap.set]; rw [if_neg hza]; exact hg.ext hi z n hzn
  · have hza : z ≠ a := by rcases hz with hz | hz <;> omega
    refine ⟨?_, ?_⟩
    · rcases hz with hz | ⟨g1, g2⟩
      · exact .inl hz
      · exact .inr ⟨by omega, g2⟩
    · simp only [Heap.set]; rw [if_neg hza]; exact hzn

theorem items_ok {A : Type} {p : Nat} {c : A → Mem → Mem × Except Err Nat} {f : A → Except Err Value} (hgr : ∀ x m, Grow p m.next m (c x m).1) (hc : Ok p c f) (a : Nat) (ha : a ≠ 0) :
    ∀ (xs : List A) (ws : List Value) (m : Mem) (ys : List Nat), Inv m → a < m.next → m.node a = some (.arr ys) → Items (only (New p (a + 1) m) m) ys ws →
    match vals f xs with
    | .ok vs => ∃ m' ys', items c a xs m = (m', .ok a) ∧ m'.node a = some (.arr ys') ∧ Items (only (New p (a + 1) m') m') ys' (ws ++ vs)
    | .error e => (items c a xs m).2 = .error e
  | [], ws, m, ys, _, _, hn, hy => by
    simp only [vals, List.append_nil]
    exact ⟨m, ys, rfl, hn, hy⟩
  | x :: xs, ws, m, ys, hi, hlt, hn, hy => by
    have hcx := hc x m hi
    have hg := hgr x m
    unfold items vals
    cases hw : f x with
    | error e =>
      rw [hw] at hcx
      simp only at hcx ⊢
      revert hcx
      generalize c x m = q
      obtain ⟨m1, r⟩ := q
      intro h
      simp only at h
      subst h
      rfl
    | ok w =>
      rw [hw] at hcx
      simp only at hcx ⊢
      obtain ⟨m1, y, F, h1, h2⟩ := hcx
      rw [h1] at hg ⊢
      simp only at hg ⊢
      have hn1 : m1.node a = some (.arr ys) := by rw [hg.old hlt]; exact hn
      have hp : push a y m1 = (set a (.arr (ys ++ [y])) m1, .ok a) := by unfold push; rw [hn1]
      rw [hp]
      simp only
      have hi1 : Inv m1 := hg.inv hi
      obtain ⟨k1, k2⟩ := put_ext (.arr (ys ++ [y])) ha hlt hi hg h2
      have ih := items_ok hgr hc a ha xs (ws ++ [w]) _ (ys ++ [y]) (hi1.set _ ha hn1) (by have := hg.next; simp only [Heap.set]; omega) (by simp [Heap.set])
        ((hy.mono k1).add k2)
      cases hv : vals f xs with
      | error e => rw [hv] at ih; exact ih
      | ok vs =>
        rw [hv] at ih
        simpa only [Except.map, List.append_assoc, List.singleton_append] using ih

theorem members_ok {A : Type} {p : Nat} {c : A → Mem → Mem × Except Err Nat} {f : A → Except Err Value} (hgr : ∀ x m, Grow p m.next m (c x m).1) (hc : Ok p c f) (a : Nat) (ha : a ≠ 0) :
    ∀ (xs : List (Bytes × A)) (ws : List (Bytes × Value)) (m : Mem) (ys : List (Bytes × Nat)), Inv m → a < m.next → m.node a = some (.str ys) → Mems (only (New p (a + 1) m) m) ys ws →
    match memVals f xs with
    | .ok vs => ∃ m' ys', members c a xs m = (m', .ok a) ∧ m'.node a = some (.str ys') ∧ Mems (only (New p (a + 1) m') m') ys' (firsts ws vs)
    | .error e => (members c a xs m).2 = .error e
  | [], ws, m, ys, _, _, hn, hy => by
    simp only [memVals]
    exact ⟨m, ys, rfl, hn, hy⟩
  | (k, x) :: xs, ws, m, ys, hi, hlt, hn, hy => by
    have hcx := hc x m hi
    have hg := hgr x m
    unfold members memVals
    cases hw : f x with
    | error e =>
      rw [hw] at hcx
      simp only at hcx ⊢
      revert hcx
      generalize c x m = q
      obtain ⟨m1, r⟩ := q
      intro h
      simp only at h
      subst h
      rfl
    | ok w =>
      rw [hw] at hcx
      simp only at hcx ⊢
      obtain ⟨m1, y, F, h1, h2⟩ := hcx
      rw [h1] at hg ⊢
      simp only at hg ⊢
      have hn1 : m1.node a = some (.str ys) := by rw [hg.old hlt]; exact hn
      have hp : Heap.insert a k y m1 = (set a (.str (SMap.insert k y ys).1) m1, .ok a) := by unfold Heap.insert; rw [hn1]
      rw [hp]
      simp only
      have hi1 : Inv m1 := hg.inv hi
      obtain ⟨k1, k2⟩ := put_ext (.str (SMap.insert k y ys).1) ha hlt hi hg h2
      have ih := members_ok hgr hc a ha xs (SMap.insert k w ws).1 _ (SMap.insert k y ys).1 (hi1.set _ ha hn1) (by have := hg.next; simp only [Heap.set]; omega) (by simp [Heap.set])
        (Mems.ins (hy.mono k1) k2)
      cases hv : memVals f xs with
      | error e => rw [hv] at ih; exact ih
      | ok vs => rw [hv] at ih; exact ih

theorem convert_ok (E : Env) (p : Nat) : ∀ c, Ok p (convert E p c) (val E c) := by
  have hm : ∀ (r : Except Err Value) (m : Mem), Inv m →
      match r with
      | .ok v => ∃ m' y F, make p r m = (m', .ok y) ∧ read (only (New p m.next m') m') F y = .ok v
      | .error e => (make p r m).2 = .error e := by
    intro r m hi
    cases r with
    | error e => rfl
    | ok v => exact ⟨_, _, 1, rfl, scalar_ok m hi v⟩
  intro c
  induction c with
  | array c ih =>
    intro xs m hi
    have h0 : m.next ≠ 0 := by have := hi.pos; omega
    have hl := items_ok (convert_grow E p c) ih m.next h0 xs [] (alloc p (.arr []) m).1 [] (hi.alloc p _) (by simp [alloc]) (by simp [alloc]) ⟨0, rfl⟩
    have hg : Grow p m.next (alloc p (.arr []) m).1 (items (convert E p c) m.next xs (alloc p (.arr []) m).1).1 :=
      items_grow (convert_grow E p c) (Nat.le_refl _) _ _ (by simp [alloc])
    simp only [val]
    cases hw : vals (val E c) xs with
    | error e => rw [hw] at hl; exact hl
    | ok ws =>
      rw [hw] at hl
      obtain ⟨m', ys, h1, h2, F, h3⟩ := hl
      rw [h1] at hg
      refine ⟨m', m.next, F + 1, h1, ?_⟩
      have hn : (only (New p m.next m') m').node m.next = some (.arr ys) := by
        refine only_node.2 ⟨.inr ⟨Nat.le_refl _, ?_⟩, h2⟩
        obtain ⟨_, l, h4, _⟩ := hg.pool
        rw [h4]; simp [alloc]
      have h5 := readItems_mono (fun t u ht => read_mono (only_ext (S' := New p m.next m') (m' := m') (fun z n hz hzn => ⟨by
        rcases hz with hz | ⟨g1, g2⟩
        · exact .inl hz
        · exact .inr ⟨by omega, g2⟩, hzn⟩)) F F t u (Nat.le_refl _) ht) ys _ h3
      unfold Heap.read
      rw [hn]
      simp only [h5, List.nil_append]
  | map c ih =>
    intro xs m hi
    have h0 : m.next ≠ 0 := by have := hi.pos; omega
    have hl := members_ok (convert_grow E p c) ih m.next h0 xs [] (alloc p (.str []) m).1 [] (hi.alloc p _) (by simp [alloc]) (by simp [alloc]) ⟨0, rfl⟩
    have hg : Grow p m.next (alloc p (.str []) m).1 (members (convert E p c) m.next xs (alloc p (.str []) m).1).1 :=
      members_grow (convert_grow E p c) (Nat.le_refl _) _ _ (by simp [alloc])
    simp only [val]
    cases hw : memVals (val E c) xs with
    | error e => rw [hw] at hl; exact hl
    | ok ws =>
      rw [hw] at hl
      obtain ⟨m', ys, h1, h2, F, h3⟩ := hl
      rw [h1] at hg
      refine ⟨m', m.next, F + 1, h1, ?_⟩
      have hn : (only (New p m.next m') m').node m.next = some (.str ys) := by
        refine only_node.2 ⟨.inr ⟨Nat.le_refl _, ?_⟩, h2⟩
        obtain ⟨_, l, h4, _⟩ := hg.pool
        rw [h4]; simp [alloc]
      have h5 := readMembers_mono (fun t u ht => read_mono (only_ext (S' := New p m.next m') (m' := m') (fun z n hz hzn => ⟨by
        rcases hz with hz | ⟨g1, g2⟩
        · exact .inl hz
        · exact .inr ⟨by omega, g2⟩, hzn⟩)) F F t u (Nat.le_refl _) ht) ys _ h3
      unfold Heap.read
      rw [hn]
      simp only [h5]
  | _ => intro x m hi; exact hm (val E _ x) m hi

/-! ## The value is the wanted one -/

theorem find_app {α : Type} (k : Bytes) : ∀ (a b : List (Bytes × α)), SMap.find? k (a ++ b) = match SMap.find? k a with | some v => some v | none => SMap.find? k b
  | [], b => rfl
  | x :: a, b => by
    simp only [List.cons_append, SMap.find?]
    by_cases c : k = x.1
    · simp only [if_pos c]
    · simp only [if_neg c]; exact find_app k a b

theorem firsts_spec {α : Type} (ms acc : List (Bytes × α)) (hs : Frpc.Sorted acc) : Frpc.Sorted (firsts acc ms) ∧ ∀ k, SMap.find? k (firsts acc ms) = SMap.find? k (acc ++ ms) := by
  induction ms generalizing acc with
  | nil => exact ⟨hs, fun k => by simp [firsts]⟩
  | cons km ms ih =>
    obtain ⟨i1, i2, _⟩ := Frpc.insert_spec km.1 km.2 acc hs
    obtain ⟨h1, h2⟩ := ih (SMap.insert km.1 km.2 acc).1 i2
    refine ⟨h1, fun k => ?_⟩
    show SMap.find? k (firsts (SMap.insert km.1 km.2 acc).1 ms) = _
    rw [h2, find_app, find_app, i1]
    by_cases c : k = km.1
    · subst c
      cases hf : SMap.find? km.1 acc with
      | none => simp [SMap.find?]
      | some v => simp
    · simp only [c, false_and, if_false]
      cases hf : SMap.find? k acc with
      | none => simp only [SMap.find?, if_neg c]
      | some v => rfl

theorem find_first {A : Type} {R : A → Value → Prop} {f : A → Except Err Value} (hR : ∀ x v, f x = .ok v → R x v) {k : Bytes} {w : Value} :
    ∀ {xs : List (Bytes × A)} {ms : List (Bytes × Value)}, memVals f xs = .ok ms → SMap.find? k ms = some w → ∃ x, First k x xs ∧ R x w
  | [], ms, h, hf => by simp only [memVals] at h; cases h; cases hf
  | (k', x) :: xs, ms, h, hf => by
    unfold memVals at h
    cases hx : f x with
    | error e => rw [hx] at h; cases h
    | ok v =>
      rw [hx] at h
      simp only at h
      cases hm : memVals f xs with
      | error e => rw [hm] at h; cases h
      | ok ms' =>
        rw [hm] at h
        simp only [Except.map, Except.ok.injEq] at h
        subst h
        simp only [SMap.find?] at hf
        by_cases c : k = k'
        · rw [if_pos c] at hf
          cases hf
          subst c
          exact ⟨x, ⟨[], xs, rfl, by simp⟩, hR _ _ hx⟩
        · rw [if_neg c] at hf
          obtain ⟨x', ⟨b, a, e, hb⟩, hr⟩ := find_first hR hm hf
          refine ⟨x', ⟨(k', x) :: b, a, by rw [e]; rfl, ?_⟩, hr⟩
          intro e he
          rcases List.mem_cons.1 he with rfl | he
          · exact fun h => c h.symm
          · exact hb e he

theorem memVals_keys {A : Type} {f : A → Except Err Value} : ∀ {xs : List (Bytes × A)} {ms : List (Bytes × Value)}, memVals f xs = .ok ms → ms.map (·.1) = xs.map (·.1)
  | [], ms, h => by simp only [memVals] at h; cases h; rfl
  | (k, x) :: xs, ms, h => by
    unfold memVals at h
    cases hx : f x with
    | error e => rw [hx] at h; cases h
    | ok v =>
      rw [hx] at h
      simp only at h
      cases hm : memVals f xs with
      | error e => rw [hm] at h; cases h
      | ok ms' =>
        rw [hm] at h
        simp only [Except.map, Except.ok.injEq] at h
        subst h
        simp [memVals_keys hm]

theorem find_some_of_mem {α : Type} {k : Bytes} : ∀ {ms : List (Bytes × α)}, k ∈ ms.map (·.1) → ∃ w, SMap.find? k ms = some w
  | (k', v) :: ms, h => by
    simp only [SMap.find?]
    by_cases c : k = k'
    · exact ⟨v, by rw [if_pos c]⟩
    · rw [if_neg c]
      exact find_some_of_mem (by simpa [c] using h)

theorem mem_of_find {α : Type} {k : Bytes} {w : α} : ∀ {ms : List (Bytes × α)}, SMap.find? k ms = some w → (k, w) ∈ ms
  | (k', v) :: ms, h => by
    simp only [SMap.find?] at h
    by_cases c : k = k'
    · rw [if_pos c] at h; cases h; subst c; simp
    · rw [if_neg c] at h; exact List.mem_cons_of_mem _ (mem_of_find h)

theorem find_of_mem {α : Type} {k : Bytes} {w : α} : ∀ {ms : List (Bytes × α)}, ms.Pairwise (fun a b => a.1 ≠ b.1) → (k, w) ∈ ms → SMap.find? k ms = some w
  | (k', v) :: ms, hp, h => by
    simp only [SMap.find?]
    rcases List.mem_cons.1 h with e | h
    · cases e; rw [if_pos rfl]
    · rw [List.pairwise_cons] at hp
      rw [if_neg (fun e => hp.1 _ h e.symm)]
      exact find_of_mem hp.2 h

theorem sorted_distinct {α : Type} {ms : List (Bytes × α)} (h : Frpc.Sorted ms) : ms.Pairwise (fun a b => a.1 ≠ b.1) := by
  refine h.imp (fun {a b} hab e => ?_)
  rw [e] at hab
  simp [keyLt_irrefl] at hab

theorem vals_each {A : Type} {R : A → Value → Prop} {f : A → Except Err Value} (hR : ∀ x v, f x = .ok v → R x v) : ∀ {xs : List A} {vs : List Value}, vals f xs = .ok vs → Each R xs vs
  | [], vs, h => by simp only [vals] at h; cases h; trivial
  | x :: xs, vs, h => by
    unfold vals at h
    cases hx : f x with
    | error e => rw [hx] at h; cases h
    | ok v =>
      rw [hx] at h
      simp only at h
      cases hm : vals f xs with
      | error e => rw [hm] at h; cases h
      | ok vs' =>
        rw [hm] at h
        simp only [Except.map, Except.ok.injEq] at h
        subst h
        exact ⟨hR _ _ hx, vals_each hR hm⟩

theorem val_wanted (E : Env) : ∀ (c : Cnvt), Narrow c → ∀ (x : Native c) (v : Value), val E c x = .ok v → Wanted E c x v := by
  intro c
  induction c with
  | wstring => intro h; exact absurd h (by simp [Narrow])
  | string =>
    intro _ x v h
    simp only [val, ofString] at h
    split at h
    · cases h; rfl
    · cases h
  | dateTime =>
    intro _ x v h
    simp only [val] at h
    cases hd : DateTimeMake.ofIso E.L x with
    | error e => rw [hd] at h; cases h
    | ok d => rw [hd] at h; cases h; exact ⟨d, hd, rfl⟩
  | array c ih =>
    intro hn x v h
    simp only [val] at h
    cases hd : vals (val E c) x with
    | error e => rw [hd] at h; cases h
    | ok vs => rw [hd] at h; cases h; exact ⟨vs, rfl, vals_each (ih hn) hd⟩
  | map c ih =>
    intro hn x v h
    simp only [val] at h
    cases hd : memVals (val E c) x with
    | error e => rw [hd] at h; cases h
    | ok ms =>
      rw [hd] at h; cases h
      obtain ⟨s1, s2⟩ := firsts_spec ms [] (by simp [Frpc.Sorted])
      have hdist := sorted_distinct s1
      refine ⟨_, rfl, hdist, fun k w hw => ?_, fun k y hy => ?_⟩
      · have := find_of_mem hdist hw
        rw [s2] at this
        exact find_first (ih hn) hd this
      · have : k ∈ ms.map (·.1) := by rw [memVals_keys hd]; exact List.mem_map_of_mem hy
        obtain ⟨w, hw⟩ := find_some_of_mem this
        refine ⟨w, mem_of_find ?_⟩
        rw [s2]; exact hw
  | _ => intro _ x v h; cases h; rfl

theorem val_convertible (E : Env) : ∀ (c : Cnvt) (x : Native c), Convertible E c x ↔ ∃ v, val E c x = .ok v := by
  intro c
  induction c with
  | string =>
    intro x
    simp only [Convertible, val, ofString]
    by_cases h : E.strOk x = true
    · simp [h]
    · simp [h]
  | dateTime =>
    intro x
    simp only [Convertible, val]
    cases DateTimeMake.ofIso E.L x with
    | error e => simp [Except.map]
    | ok d => simp [Except.map]
  | array c ih =>
    intro x
    simp only [Convertible, val]
    have : (∀ y ∈ x, Convertible E c y) ↔ ∃ vs, vals (val E c) x = .ok vs := by
      induction x with
      | nil => simp [vals]
      | cons y ys ihy =>
        rw [List.forall_mem_cons, ihy, ih y, vals_cons]
        cases val E c y with
        | error e => simp
        | ok v =>
          simp only [Except.ok.injEq, exists_eq', true_and]
          cases vals (val E c) ys with
          | error e => simp [Except.map]
          | ok vs => simp [Except.map]
    rw [this]
    cases vals (val E c) x with
    | error e => simp [Except.map]
    | ok vs => simp [Except.map]
  | map c ih =>
    intro x
    simp only [Convertible, val]
    have : (∀ y ∈ x, Convertible E c y.2) ↔ ∃ vs, memVals (val E c) x = .ok vs := by
      induction x with
      | nil => simp [memVals]
      | cons y ys ihy =>
        obtain ⟨k, y⟩ := y
        rw [List.forall_mem_cons, ihy, ih y, memVals_cons]
        cases val E c y with
        | error e => simp
        | ok v =>
          simp only [Except.ok.injEq, exists_eq', true_and]
          cases memVals (val E c) ys with
          | error e => simp [Except.map]
          | ok vs => simp [Except.map]
    rw [this]
    cases memVals (val E c) x with
    | error e => simp [Except.map]
    | ok vs => simp [Except.map]
  | _ => intro x; simp only [Convertible, true_iff]; exact ⟨_, rfl⟩

/-! ## C123 -/

/-- **C123.** At any time, a converter, however its arrays and structs are nested, of data that is however large: makes the value that is wanted, of new objects of its pool; or throws, just if some text
in the data is not valid or no date-time. All objects there were are as they were, also when it throws; other pools own what they owned. Missing: wide strings. -/
theorem C123_partial (E : Env) (cfg : TreeBuilder.Cfg) (depth : Nat) (ops : List Op) (p : Nat) (c : Cnvt) (hc : Narrow c) (x : Native c) :
    let m := history cfg depth start ops
    let r := convert E p c x m
    ((Convertible E c x ∧ ∃ y v, r.2 = .ok y ∧ Is r.1 y v ∧ Wanted E c x v ∧ ∀ z, Reach r.1 y z → z = nullAt ∨ (m.node z = none ∧ z ∈ r.1.pool p)) ∨
     (¬ Convertible E c x ∧ ∃ e, r.2 = .error e)) ∧
    (∀ z n, m.node z = some n → r.1.node z = some n) ∧ (∀ q, q ≠ p → r.1.pool q = m.pool q) ∧ m.pool p <+: r.1.pool p := by
  intro m r
  have hi : Inv m := Inv.reachable cfg depth ops
  have hg := convert_grow E p c x m
  have ho := convert_ok E p c x m hi
  refine ⟨?_, hg.ext hi, fun q hq => hg.pool.1 q hq, ?_⟩
  · cases hv : val E c x with
    | error e =>
      rw [hv] at ho
      refine .inr ⟨fun h => ?_, e, ho⟩
      obtain ⟨v, h⟩ := (val_convertible E c x).1 h
      rw [hv] at h; cases h
    | ok v =>
      rw [hv] at ho
      obtain ⟨m', y, F, h1, h2⟩ := ho
      refine .inl ⟨(val_convertible E c x).2 ⟨v, hv⟩, y, v, ?_, ?_, val_wanted E c hc x v hv, ?_⟩
      · show (convert E p c x m).2 = _
        rw [h1]
      · show Is (convert E p c x m).1 y v
        rw [h1]
        exact ⟨F, read_mono (only_sub _ _) F F y v (Nat.le_refl _) h2⟩
      · show ∀ z, Reach (convert E p c x m).1 y z → _
        intro z hz
        show z = nullAt ∨ (m.node z = none ∧ z ∈ (convert E p c x m).1.pool p)
        rw [h1] at hz ⊢
        rcases read_only hz h2 with e | ⟨e1, e2⟩
        · exact .inl e
        · refine .inr ⟨?_, e2⟩
          cases hn : m.node z with
          | none => rfl
          | some n => exact absurd (hi.below _ _ hn) (by omega)
  · obtain ⟨_, l, e, _⟩ := hg.pool
    exact ⟨l, e.symm⟩

/-- **C123 is violated for wide strings.** Every wide string becomes the empty string: it is lost, without an exception. -/
theorem C123_wide_violated (E : Env) (cfg : TreeBuilder.Cfg) (depth : Nat) (ops : List Op) (p : Nat) (s : List Nat) (hs : s ≠ []) :
    let r := convert E p .wstring s (history cfg depth start ops)
    ∃ y, r.2 = .ok y ∧ Is r.1 y (.string []) ∧ ¬ Wanted E .wstring s (.string []) := by
  intro r
  have ho := convert_ok E p .wstring s (history cfg depth start ops) (Inv.reachable cfg depth ops)
  obtain ⟨m', y, F, h1, h2⟩ := ho
  refine ⟨y, ?_, ?_, ?_⟩
  · show (convert E p .wstring s (history cfg depth start ops)).2 = _
    rw [h1]
  · show Is (convert E p .wstring s (history cfg depth start ops)).1 y _
    rw [h1]
    exact ⟨F, read_mono (only_sub _ _) F F y _ (Nat.le_refl _) h2⟩
  · rintro ⟨t, h, h'⟩
    cases h
    cases s with
    | nil => exact hs rfl
    | cons a s => simp at h'

/-! ### Witnesses -/

/-- A list of maps from names to numbers, with a name that comes twice. -/
def sampleData : Native (.array (.map .int)) := [[([97], 1), ([98], 2), ([97], 3)], []]

example (E : Env) : (convert E 1 (.array (.map .int)) sampleData (history cfg0 9 start twice)).2 = .ok 4 ∧
    Is (convert E 1 (.array (.map .int)) sampleData (history cfg0 9 start twice)).1 4 (.array [.struct [([97], .int 1), ([98], .int 2)], .struct []]) := ⟨rfl, 4, rfl⟩
example (E : Env) : Narrow (.array (.map .int)) ∧ Convertible E (.array (.map .int)) sampleData := by
  refine ⟨trivial, ?_⟩
  intro x _ y _
  trivial
/-- A text that is not valid, in a list. -/
example : (convert ⟨prague, fun s => s.length < 2⟩ 1 (.array .string) [[97], [97, 98]] start).2 = .error .type := rfl

end Converters
end Frpc
