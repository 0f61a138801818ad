import Verif.Proofs.HeapRead
/-! # The tree builder at work on objects: it builds the tree of `Model/TreeBuilder` -/
namespace Frpc
namespace Heap
open TreeBuilder (Cfg TB Slot Cont place openC attach loseRoot addTo)

/-- The finished objects: new ones of the pool that are not open. -/
noncomputable def done (p lo : Nat) (st : List Nat) (m : Mem) : Mem := only (fun z => New p lo m z ∧ z ∉ st) m

def Items (c : Mem) (ys : List Nat) (vs : List Value) : Prop := ∃ F, readItems (read c F) ys = .ok vs
def Mems (c : Mem) (ys : List (Bytes × Nat)) (vs : List (Bytes × Value)) : Prop := ∃ F, readMembers (read c F) ys = .ok vs

theorem Items.mono {c c' : Mem} (h : Ext c c') {ys : List Nat} {vs : List Value} (hi : Items c ys vs) : Items c' ys vs := by
  obtain ⟨F, hF⟩ := hi
  exact ⟨F, readItems_mono (fun x v => read_mono h F F x v (Nat.le_refl _)) _ _ hF⟩

theorem Mems.mono {c c' : Mem} (h : Ext c c') {ys : List (Bytes × Nat)} {vs : List (Bytes × Value)} (hi : Mems c ys vs) : Mems c' ys vs := by
  obtain ⟨F, hF⟩ := hi
  exact ⟨F, readMembers_mono (fun x v => read_mono h F F x v (Nat.le_refl _)) _ _ hF⟩

theorem Items.add {c : Mem} {ys : List Nat} {vs : List Value} {y F : Nat} {v : Value} (hi : Items c ys vs) (hy : read c F y = .ok v) : Items c (ys ++ [y]) (vs ++ [v]) := by
  obtain ⟨G, hG⟩ := hi
  exact ⟨max F G, readItems_append (readItems_mono (fun x v => read_mono (Ext.refl c) G (max F G) x v (Nat.le_max_right _ _)) _ _ hG) (read_mono (Ext.refl c) F (max F G) y v (Nat.le_max_left _ _) hy)⟩

theorem Mems.add {c : Mem} {k : Bytes} {ys : List (Bytes × Nat)} {vs : List (Bytes × Value)} {y F : Nat} {v : Value} (hi : Mems c ys vs) (hy : read c F y = .ok v) :
    Mems c (SMap.append k y ys) (SMap.append k v vs) := by
  obtain ⟨G, hG⟩ := hi
  exact ⟨max F G, readMembers_append (read_mono (Ext.refl c) F (max F G) y v (Nat.le_max_left _ _) hy) (readMembers_mono (fun x v => read_mono (Ext.refl c) G (max F G) x v (Nat.le_max_right _ _)) _ _ hG)⟩

/-- The open container that hangs in an array, a struct. -/
def itemOf : Option (Nat × Slot) → List Nat
  | some (b, .item) => [b]
  | _ => []
def keyOf (ys : List (Bytes × Nat)) : Option (Nat × Slot) → List (Bytes × Nat)
  | some (b, .key k) => SMap.append k b ys
  | _ => ys

/-- An open container is what is on the stack of the tree. -/
def NodeIs (c : Mem) (inner : Option (Nat × Slot)) (n : Option Node) : Cont → Prop
  | .arr vs => (∀ b k, inner ≠ some (b, .key k)) ∧ ∃ ys, Items c ys vs ∧ n = some (.arr (ys ++ itemOf inner))
  | .str ms => (∀ b, inner ≠ some (b, .item)) ∧ ∃ ys, Mems c ys ms ∧ n = some (.str (keyOf ys inner))

/-- So are all of them. -/
def Frames (c : Mem) (node : Nat → Option Node) (ret : Option Nat) : Option (Nat × Slot) → List Nat → List (Slot × Cont) → Prop
  | inner, [], [] => ∀ b s, inner = some (b, s) → s = .root ∨ s = .lost
  | inner, a :: as, (s, k) :: fs => NodeIs c inner (node a) k ∧ (s = .root → ret = some a) ∧ Frames c node ret (some (a, s)) as fs
  | _, _, _ => False

theorem NodeIs.mono {c c' : Mem} (h : Ext c c') {inner : Option (Nat × Slot)} {n : Option Node} {k : Cont} (hn : NodeIs c inner n k) : NodeIs c' inner n k := by
  cases k with
  | arr vs => obtain ⟨h1, ys, h2, h3⟩ := hn; exact ⟨h1, ys, h2.mono h, h3⟩
  | str ms => obtain ⟨h1, ys, h2, h3⟩ := hn; exact ⟨h1, ys, h2.mono h, h3⟩

theorem Frames.mono {c c' : Mem} {node node' : Nat → Option Node} {ret ret' : Option Nat} (h : Ext c c') : ∀ {inner : Option (Nat × Slot)} {st : List Nat} {fs : List (Slot × Cont)}, (∀ a ∈ st, node' a = node a) →
    ((∃ f ∈ fs, f.1 = .root) → ret' = ret) → Frames c node ret inner st fs → Frames c' node' ret' inner st fs
  | _, [], [], _, _, hf => hf
  | _, [], _ :: _, _, _, hf => hf.elim
  | _, _ :: _, [], _, _, hf => hf.elim
  | inner, a :: as, (s, k) :: fs, hn, hr, ⟨h1, h2, h3⟩ => by
    refine ⟨?_, fun e => ?_, Frames.mono h (fun x hx => hn x (by simp [hx])) (fun ⟨f, hf, e⟩ => hr ⟨f, by simp [hf], e⟩) h3⟩
    · rw [hn a (by simp)]; exact h1.mono h
    · rw [hr ⟨(s, k), by simp, e⟩]; exact h2 e

/-- The slot of what hangs nowhere does not matter. -/
theorem Frames.inner {c : Mem} {node : Nat → Option Node} {ret : Option Nat} {i i' : Option (Nat × Slot)} {st : List Nat} {fs : List (Slot × Cont)}
    (h : ∀ b s, i = some (b, s) → s = .root ∨ s = .lost) (h' : ∀ b s, i' = some (b, s) → s = .root ∨ s = .lost) (hf : Frames c node ret i st fs) : Frames c node ret i' st fs := by
  match st, fs, hf with
  | [], [], _ => exact h'
  | a :: as, (s, k) :: fs, ⟨h1, h2, h3⟩ =>
    refine ⟨?_, h2, h3⟩
    have e1 : itemOf i = itemOf i' := by
      have : ∀ j : Option (Nat × Slot), (∀ b s, j = some (b, s) → s = .root ∨ s = .lost) → itemOf j = [] := by
        intro j hj
        match j, hj with
        | none, _ => rfl
        | some (b, .item), hj => rcases hj b _ rfl with e | e <;> cases e
        | some (b, .root), _ => rfl
        | some (b, .lost), _ => rfl
        | some (b, .key k), _ => rfl
      rw [this i h, this i' h']
    have e2 : ∀ ys, keyOf ys i = keyOf ys i' := by
      intro ys
      have : ∀ j : Option (Nat × Slot), (∀ b s, j = some (b, s) → s = .root ∨ s = .lost) → keyOf ys j = ys := by
        intro j hj
        match j, hj with
        | none, _ => rfl
        | some (b, .key k), hj => rcases hj b _ rfl with e | e <;> cases e
        | some (b, .root), _ => rfl
        | some (b, .lost), _ => rfl
        | some (b, .item), _ => rfl
      rw [this i h, this i' h']
    cases k with
    | arr vs =>
      obtain ⟨_, ys, g1, g2⟩ := h1
      refine ⟨fun b k e => ?_, ys, g1, by rw [← e1]; exact g2⟩
      rcases h' b _ e with e | e <;> cases e
    | str ms =>
      obtain ⟨_, ys, g1, g2⟩ := h1
      refine ⟨fun b e => ?_, ys, g1, by rw [← e2]; exact g2⟩
      rcases h' b _ e with e | e <;> cases e

theorem Frames.lose {c : Mem} {node : Nat → Option Node} {ret ret' : Option Nat} : ∀ {i i' : Option (Nat × Slot)} {st : List Nat} {fs : List (Slot × Cont)},
    (i' = i ∨ ∃ b, i = some (b, .root) ∧ i' = some (b, .lost)) → Frames c node ret i st fs → Frames c node ret' i' st (fs.map loseRoot)
  | i, i', [], [], h, hf => by
    rcases h with rfl | ⟨b, h1, h2⟩
    · exact hf
    · intro b' s' e
      rw [h2] at e
      cases e
      exact .inr rfl
  | _, _, [], _ :: _, _, hf => hf.elim
  | _, _, _ :: _, [], _, hf => hf.elim
  | i, i', a :: as, (s, k) :: fs, h, ⟨h1, h2, h3⟩ => by
    refine ⟨?_, ?_, ?_⟩
    · rcases h with rfl | ⟨b, e1, e2⟩
      · exact h1
      · subst e1; subst e2
        cases k with
        | arr vs => obtain ⟨_, ys, g1, g2⟩ := h1; exact ⟨by simp, ys, g1, g2⟩
        | str ms => obtain ⟨_, ys, g1, g2⟩ := h1; exact ⟨by simp, ys, g1, g2⟩
    · intro e
      simp only at e
      split at e <;> simp_all
    · refine Frames.lose ?_ h3
      simp only
      split
      · next e => rw [e]; exact .inr ⟨a, rfl, rfl⟩
      · exact .inl rfl

theorem loseRoot_not (f : Slot × Cont) : (loseRoot f).1 ≠ .root := by
  simp only [loseRoot]
  split <;> simp_all

/-- `retValue` is the tree's. -/
def RetIs (c : Mem) : Option Nat → Option Value → Prop
  | none, none => True
  | some b, some v => ∃ F, read c F b = .ok v
  | _, _ => False

theorem RetIs.mono {c c' : Mem} (h : Ext c c') {r : Option Nat} {v : Option Value} (hr : RetIs c r v) : RetIs c' r v := by
  match r, v, hr with
  | none, none, _ => trivial
  | some b, some v, ⟨F, hF⟩ => exact ⟨F, read_mono h F F b v (Nat.le_refl _) hF⟩

/-- The builder with objects is that of the tree. -/
structure R (p lo : Nat) (m : Mem) (b : HB) (tb : TB) : Prop where
  inv : Inv m
  low : lo ≤ m.next
  first : b.first = tb.first
  memberName : b.memberName = tb.memberName
  methodName : b.methodName = tb.methodName
  errNum : b.errNum = tb.errNum
  errMsg : b.errMsg = tb.errMsg
  nodup : b.stack.Nodup
  own : ∀ a ∈ b.stack, lo ≤ a ∧ a ∈ m.pool p
  frames : Frames (done p lo b.stack m) m.node b.ret none b.stack tb.frames
  ret : (∀ f ∈ tb.frames, f.1 ≠ .root) → RetIs (done p lo b.stack m) b.ret tb.ret

/-- More objects of the pool. -/
theorem done_alloc {p lo : Nat} {m : Mem} (hi : Inv m) (st st' : List Nat) (n : Node) (hs : ∀ x ∈ st', x ∈ st ∨ x = m.next) : Ext (done p lo st m) (done p lo st' (alloc p n m).1) := by
  refine only_ext (fun z k ⟨h1, h2⟩ hz => ?_)
  have hl := hi.below _ _ hz
  refine ⟨⟨?_, fun e => ?_⟩, (alloc_grow (p := p) (lo := m.next) n m (Nat.le_refl _)).ext hi z k hz⟩
  · rcases h1 with h1 | ⟨h1, h3⟩
    · exact .inl h1
    · exact .inr ⟨h1, by simp [alloc, h3]⟩
  · rcases hs z e with e | e
    · exact h2 e
    · omega

theorem done_set {p lo : Nat} (m : Mem) (st : List Nat) (a : Nat) (n : Node) (ha : a ∈ st) : Ext (done p lo st m) (done p lo st (set a n m)) := by
  refine only_ext (fun z k ⟨h1, h2⟩ hz => ⟨⟨h1, h2⟩, ?_⟩)
  simp only [set]
  rw [if_neg (fun (e : z = a) => h2 (by rw [e]; exact ha))]
  exact hz

theorem R.alloc {p lo : Nat} {m : Mem} {b : HB} {tb : TB} (h : R p lo m b tb) (n : Node) : R p lo (alloc p n m).1 b tb := by
  have he := done_alloc (p := p) (lo := lo) h.inv b.stack b.stack n (fun x hx => .inl hx)
  refine ⟨h.inv.alloc p n, by have := h.low; simp only [Heap.alloc]; omega, h.first, h.memberName, h.methodName, h.errNum, h.errMsg, h.nodup, fun a ha => ?_, ?_, fun hr => (h.ret hr).mono he⟩
  · obtain ⟨h1, h2⟩ := h.own a ha
    exact ⟨h1, by simp [Heap.alloc, h2]⟩
  · refine Frames.mono he (fun a ha => ?_) (fun _ => rfl) h.frames
    obtain ⟨_, h2⟩ := h.own a ha
    obtain ⟨_, k, hk⟩ := h.inv.owned _ _ h2
    have := h.inv.below _ _ hk
    simp only [Heap.alloc]
    rw [if_neg (by omega)]

theorem alive_ne {m : Mem} (hi : Inv m) {a : Nat} {p : Nat} (h : a ∈ m.pool p) : a < m.next ∧ a ≠ 0 := by
  obtain ⟨h1, k, hk⟩ := hi.owned _ _ h
  exact ⟨hi.below _ _ hk, h1⟩

/-- A finished value is put where it belongs. -/
theorem put_ok {p lo : Nat} {m : Mem} {b : HB} {tb : TB} (h : R p lo m b tb) {y F : Nat} {v : Value} (hy : read (done p lo b.stack m) F y = .ok v) :
    match place tb v with
    | .ok tb' => ∃ m' b', put y b m = .ok (m', b') ∧ R p lo m' b' tb' ∧ Grow p lo m m'
    | .error e => put y b m = .error e := by
  have hfr := h.frames
  unfold place put
  cases hst : b.stack with
  | nil =>
    cases hfs : tb.frames with
    | cons f fs => rw [hst, hfs] at hfr; exact hfr.elim
    | nil =>
      simp only
      rw [h.first]
      by_cases hf : tb.first = true
      · rw [if_pos hf, if_pos hf]
        rw [hst] at hy
        refine ⟨m, _, rfl, ⟨h.inv, h.low, rfl, h.memberName, h.methodName, h.errNum, h.errMsg, by simp, by simp, ?_, fun _ => ⟨F, hy⟩⟩, .refl _⟩
        intro b s e; cases e
      · rw [if_neg hf, if_neg hf]
  | cons a as =>
    cases hfs : tb.frames with
    | nil => rw [hst, hfs] at hfr; exact hfr.elim
    | cons f fs =>
      obtain ⟨s, k⟩ := f
      rw [hst, hfs] at hfr
      obtain ⟨h1, h2, h3⟩ := hfr
      have ha : a ∈ b.stack := by rw [hst]; simp
      obtain ⟨hlo, hpa⟩ := h.own a ha
      have ha0 := (alive_ne h.inv hpa).2
      have hnd := h.nodup
      rw [hst] at hnd
      have hna := (List.nodup_cons.1 hnd).1
      -- after a change of the container
      have upd : ∀ (n n0 : Node) (k' : Cont), m.node a = some n0 → n0 ≠ .leaf .null → NodeIs (done p lo b.stack (set a n m)) none (some n) k' → R p lo (set a n m) b { tb with frames := (s, k') :: fs } ∧ Grow p lo m (set a n m) := by
        intro n n0 k' hn0 hnl hk'
        have he := done_set (p := p) (lo := lo) m b.stack a n ha
        refine ⟨⟨h.inv.set n ha0 hn0, h.low, h.first, h.memberName, h.methodName, h.errNum, h.errMsg, h.nodup, h.own, ?_, fun hr => ?_⟩, .set a n n0 hlo hn0 hnl (.refl _)⟩
        · rw [hst]
          refine ⟨?_, h2, Frames.mono (by rw [hst] at he; exact he) (fun x hx => ?_) (fun _ => rfl) h3⟩
          · have : (set a n m).node a = some n := by simp [set]
            rw [this]; rw [hst] at hk'; exact hk'
          · simp only [set]; rw [if_neg (fun (e : x = a) => hna (by rw [← e]; exact hx))]
        · refine (h.ret (fun f hf => ?_)).mono he
          rw [hfs] at hf
          rcases List.mem_cons.1 hf with rfl | hf
          · exact hr (s, k') (by simp)
          · exact hr f (by simp [hf])
      cases k with
      | arr vs =>
        obtain ⟨_, ys, g1, g2⟩ := h1
        simp only [itemOf, List.append_nil] at g2
        simp only [addTo, bind, Except.bind, pure, Except.pure, g2, push]
        have he := done_set (p := p) (lo := lo) m b.stack a (.arr (ys ++ [y])) ha
        have hit : Items (done p lo b.stack (set a (.arr (ys ++ [y])) m)) (ys ++ [y]) (vs ++ [v]) := by
          rw [hst] at hy
          rw [hst] at he
          rw [hst]
          exact (g1.add hy).mono he
        obtain ⟨r1, r2⟩ := upd (.arr (ys ++ [y])) _ (.arr (vs ++ [v])) g2 (by simp) ⟨by simp, ys ++ [y], hit, by simp [itemOf]⟩
        exact ⟨_, _, rfl, r1, r2⟩
      | str ms =>
        obtain ⟨_, ys, g1, g2⟩ := h1
        simp only [keyOf] at g2
        simp only [addTo, bind, Except.bind, pure, Except.pure, g2, append, SMap.appendChecked, h.memberName]
        by_cases hl : tb.memberName.length > 255
        · simp only [if_pos hl]
        · simp only [if_neg hl]
          have he := done_set (p := p) (lo := lo) m b.stack a (.str (SMap.append tb.memberName y ys)) ha
          have hit : Mems (done p lo b.stack (set a (.str (SMap.append tb.memberName y ys)) m)) (SMap.append tb.memberName y ys) (SMap.append tb.memberName v ms) := by
            rw [hst] at hy
            rw [hst] at he
            rw [hst]
            exact (g1.add hy).mono he
          obtain ⟨r1, r2⟩ := upd (.str (SMap.append tb.memberName y ys)) _ (.str (SMap.append tb.memberName v ms)) g2 (by simp) ⟨by simp, SMap.append tb.memberName y ys, hit, by simp [keyOf]⟩
          exact ⟨_, _, rfl, r1, r2⟩

theorem scalar_R {p lo : Nat} {m : Mem} {b : HB} {tb : TB} (h : R p lo m b tb) (v : Value) : R p lo (scalar p v m).1 b tb ∧ Grow p lo m (scalar p v m).1 ∧ read (done p lo b.stack (scalar p v m).1) 1 (scalar p v m).2 = .ok v := by
  have key : ∀ v : Value, R p lo (alloc p (.leaf v) m).1 b tb ∧ Grow p lo m (alloc p (.leaf v) m).1 ∧ read (done p lo b.stack (alloc p (.leaf v) m).1) 1 (alloc p (.leaf v) m).2 = .ok v := by
    intro v
    refine ⟨h.alloc _, alloc_grow _ m h.low, ?_⟩
    have : (done p lo b.stack (alloc p (.leaf v) m).1).node (alloc p (.leaf v) m).2 = some (.leaf v) := by
      refine only_node.2 ⟨⟨.inr ⟨h.low, by simp [alloc]⟩, fun e => ?_⟩, by simp [alloc]⟩
      have := (alive_ne h.inv (h.own _ e).2).1
      simp only [alloc] at this
      omega
    unfold read
    rw [this]
  unfold scalar
  split
  · refine ⟨h, .refl _, ?_⟩
    have : (done p lo b.stack m).node nullAt = some (.leaf .null) := by
      refine only_node.2 ⟨⟨.inl rfl, fun e => ?_⟩, h.inv.null⟩
      exact (alive_ne h.inv (h.own _ e).2).2 rfl
    unfold read
    rw [this]
  · exact key _

theorem buildScalar_ok {p lo : Nat} {m : Mem} {b : HB} {tb : TB} (h : R p lo m b tb) (v : Value) :
    match place tb v with
    | .ok tb' => ∃ m' b', buildScalar p v b m = .ok (m', b') ∧ R p lo m' b' tb' ∧ Grow p lo m m'
    | .error e => buildScalar p v b m = .error e := by
  obtain ⟨h1, h2, h3⟩ := scalar_R h v
  have h4 := put_ok h1 h3
  unfold buildScalar
  simp only
  cases hp : place tb v with
  | error e => rw [hp] at h4; exact h4
  | ok tb' =>
    rw [hp] at h4
    obtain ⟨m', b', g1, g2, g3⟩ := h4
    exact ⟨m', b', g1, g2, h2.trans g3⟩

/-- A new container is put where it belongs, and is open. -/
theorem openNode_ok {p lo : Nat} {m : Mem} {b : HB} {tb : TB} (h : R p lo m b tb) (k : Cont) (n : Node) (hk : (k = .arr [] ∧ n = .arr []) ∨ (k = .str [] ∧ n = .str [])) :
    match openC tb k with
    | .ok tb' => ∃ m' b', openNode p n b m = .ok (m', b') ∧ R p lo m' b' tb' ∧ Grow p lo m m'
    | .error e => openNode p n b m = .error e := by
  have hfr := (h.alloc n).frames
  have hnx : m.next ∉ b.stack := fun e => by have := (alive_ne h.inv (h.own _ e).2).1; omega
  have hnew : ∀ c, NodeIs c none (some n) k := by
    intro c
    rcases hk with ⟨rfl, rfl⟩ | ⟨rfl, rfl⟩
    · exact ⟨by simp, [], ⟨0, rfl⟩, rfl⟩
    · exact ⟨by simp, [], ⟨0, rfl⟩, rfl⟩
  have hi1 := h.inv.alloc p n
  have hn1 : (alloc p n m).1.node m.next = some n := by simp [alloc]
  unfold openC openNode put
  cases hst : b.stack with
  | nil =>
    cases hfs : tb.frames with
    | cons f fs => rw [hst, hfs] at hfr; exact hfr.elim
    | nil =>
      simp only
      rw [h.first]
      by_cases hf : tb.first = true
      · rw [if_pos hf, if_pos hf]
        refine ⟨_, _, rfl, ⟨hi1, by have := h.low; simp only [alloc]; omega, rfl, h.memberName, h.methodName, h.errNum, h.errMsg, ?_, ?_, ?_, ?_⟩, alloc_grow _ m h.low⟩
        · simp [hst]
        · intro a ha
          simp only [hst, List.mem_singleton] at ha
          subst ha
          exact ⟨h.low, by simp [alloc]⟩
        · simp only [hst]
          refine ⟨?_, fun _ => rfl, ?_⟩
          · have : (alloc p n m).2 = m.next := rfl
            rw [this, hn1]; exact hnew _
          · intro b' s' e; cases e; exact .inl rfl
        · intro hr; exact absurd rfl (hr (.root, k) (by simp))
      · rw [if_neg hf, if_neg hf]
  | cons a as =>
    cases hfs : tb.frames with
    | nil => rw [hst, hfs] at hfr; exact hfr.elim
    | cons f fs =>
      obtain ⟨s, k0⟩ := f
      rw [hst, hfs] at hfr
      obtain ⟨h1, h2, h3⟩ := hfr
      have ha : a ∈ b.stack := by rw [hst]; simp
      obtain ⟨hlo, hpa⟩ := h.own a ha
      have ha0 := (alive_ne h.inv hpa).2
      have hal := (alive_ne h.inv hpa).1
      have hnd := h.nodup
      rw [hst] at hnd
      have hna := (List.nodup_cons.1 hnd).1
      have upd : ∀ (n1 n0 : Node) (sl : Slot), (alloc p n m).1.node a = some n0 → n0 ≠ .leaf .null → sl ≠ .root →
          NodeIs (done p lo (m.next :: b.stack) (set a n1 (alloc p n m).1)) (some (m.next, sl)) (some n1) k0 →
          R p lo (set a n1 (alloc p n m).1) { b with stack := m.next :: b.stack } { tb with frames := (sl, k) :: tb.frames } ∧ Grow p lo m (set a n1 (alloc p n m).1) := by
        intro n1 n0 sl hn0 hnl hsl hk'
        have he : Ext (done p lo b.stack m) (done p lo (m.next :: b.stack) (set a n1 (alloc p n m).1)) :=
          (done_alloc h.inv b.stack (m.next :: b.stack) n (by simp only [List.mem_cons]; rintro x (e | e); exact .inr e; exact .inl e)).trans (done_set _ _ a n1 (by simp [ha]))
        refine ⟨⟨hi1.set n1 ha0 hn0, by have := h.low; simp only [alloc, set]; omega, h.first, h.memberName, h.methodName, h.errNum, h.errMsg, ?_, ?_, ?_, fun hr => ?_⟩, (alloc_grow _ m h.low).trans (.set a n1 n0 hlo hn0 hnl (.refl _))⟩
        · exact List.nodup_cons.2 ⟨hnx, h.nodup⟩
        · intro x hx
          rcases List.mem_cons.1 hx with rfl | hx
          · exact ⟨h.low, by simp [alloc, set]⟩
          · exact ⟨(h.own x hx).1, by simp [alloc, set, (h.own x hx).2]⟩
        · rw [hst, hfs]
          refine ⟨?_, fun e => absurd e hsl, ?_, h2, ?_⟩
          · have e : (set a n1 (alloc p n m).1).node m.next = some n := by
              simp only [set]; rw [if_neg (by omega)]; exact hn1
            rw [e]; exact hnew _
          · have e : (set a n1 (alloc p n m).1).node a = some n1 := by simp [set]
            rw [e]; rw [hst] at hk'; exact hk'
          · have h3' := h.frames
            rw [hst, hfs] at h3'
            refine Frames.mono (by rw [hst] at he; exact he) (fun x hx => ?_) (fun _ => rfl) h3'.2.2
            simp only [set]
            rw [if_neg (fun (e : x = a) => hna (by rw [← e]; exact hx))]
            have := (alive_ne h.inv (h.own x (by rw [hst]; simp [hx])).2).1
            simp only [alloc]
            rw [if_neg (by omega)]
        · exact (h.ret (fun f hf => hr f (by simp [hf]))).mono he
      have hold : Ext (done p lo b.stack (alloc p n m).1) (done p lo (m.next :: b.stack) (alloc p n m).1) → True := fun _ => trivial
      cases k0 with
      | arr vs =>
        have h1' := h.frames
        rw [hst, hfs] at h1'
        obtain ⟨⟨_, ys, g1, g2⟩, _⟩ := h1'
        simp only [itemOf, List.append_nil] at g2
        have g3 : (alloc p n m).1.node a = some (.arr ys) := by simp only [alloc]; rw [if_neg (by omega)]; exact g2
        simp only [g3, push]
        have hit : Items (done p lo (m.next :: b.stack) (set a (.arr (ys ++ [m.next])) (alloc p n m).1)) ys vs := by
          rw [← hst] at g1
          exact g1.mono ((done_alloc h.inv b.stack (m.next :: b.stack) n (by simp only [List.mem_cons]; rintro x (e | e); exact .inr e; exact .inl e)).trans (done_set _ _ a _ (by simp [ha])))
        obtain ⟨r1, r2⟩ := upd (.arr (ys ++ [m.next])) _ .item g3 (by simp) (by simp) ⟨by simp, ys, hit, rfl⟩
        rw [hfs] at r1
        exact ⟨_, _, rfl, r1, r2⟩
      | str ms =>
        have h1' := h.frames
        rw [hst, hfs] at h1'
        obtain ⟨⟨_, ys, g1, g2⟩, _⟩ := h1'
        simp only [keyOf] at g2
        have g3 : (alloc p n m).1.node a = some (.str ys) := by simp only [alloc]; rw [if_neg (by omega)]; exact g2
        simp only [g3, append, SMap.appendChecked, h.memberName]
        by_cases hl : tb.memberName.length > 255
        · simp only [if_pos hl]
        · simp only [if_neg hl]
          have hit : Mems (done p lo (m.next :: b.stack) (set a (.str (SMap.append tb.memberName m.next ys)) (alloc p n m).1)) ys ms := by
            rw [← hst] at g1
            exact g1.mono ((done_alloc h.inv b.stack (m.next :: b.stack) n (by simp only [List.mem_cons]; rintro x (e | e); exact .inr e; exact .inl e)).trans (done_set _ _ a _ (by simp [ha])))
          obtain ⟨r1, r2⟩ := upd (.str (SMap.append tb.memberName m.next ys)) _ (.key tb.memberName) g3 (by simp) (by simp) ⟨by simp, ys, hit, rfl⟩
          rw [hfs] at r1
          exact ⟨_, _, rfl, r1, r2⟩

/-- A container is finished. -/
theorem closeNode_ok {p lo : Nat} {m : Mem} {b : HB} {tb : TB} (h : R p lo m b tb) :
    match TreeBuilder.close tb with
    | .ok tb' => ∃ b', closeNode b m = .ok (m, b') ∧ R p lo m b' tb' ∧ b'.ret = b.ret
    | .error e => closeNode b m = .error e := by
  have hfr := h.frames
  unfold TreeBuilder.close closeNode
  cases hst : b.stack with
  | nil =>
    cases hfs : tb.frames with
    | cons f fs => rw [hst, hfs] at hfr; exact hfr.elim
    | nil => rfl
  | cons a as =>
    cases hfs : tb.frames with
    | nil => rw [hst, hfs] at hfr; exact hfr.elim
    | cons f fs =>
      obtain ⟨s, k⟩ := f
      rw [hst, hfs] at hfr
      obtain ⟨h1, h2, h3⟩ := hfr
      have ha : a ∈ b.stack := by rw [hst]; simp
      obtain ⟨hlo, hpa⟩ := h.own a ha
      have hnd := h.nodup
      rw [hst] at hnd
      obtain ⟨hna, hnd⟩ := List.nodup_cons.1 hnd
      have he : Ext (done p lo (a :: as) m) (done p lo as m) := only_ext (fun z n ⟨g1, g2⟩ hz => ⟨⟨g1, fun e => g2 (by simp [e])⟩, hz⟩)
      -- the container itself is finished now
      have hself : ∃ F, read (done p lo as m) F a = .ok k.val := by
        have hn : ∀ n, m.node a = some n → (done p lo as m).node a = some n := fun n hn => only_node.2 ⟨⟨.inr ⟨hlo, hpa⟩, hna⟩, hn⟩
        cases k with
        | arr vs =>
          obtain ⟨_, ys, g1, g2⟩ := h1
          obtain ⟨F, hF⟩ := g1.mono he
          refine ⟨F + 1, ?_⟩
          simp only [itemOf, List.append_nil] at g2
          unfold read
          rw [hn _ g2]
          simp only [hF, Cont.val]
        | str ms =>
          obtain ⟨_, ys, g1, g2⟩ := h1
          obtain ⟨F, hF⟩ := g1.mono he
          refine ⟨F + 1, ?_⟩
          simp only [keyOf] at g2
          unfold read
          rw [hn _ g2]
          simp only [hF, Cont.val]
      obtain ⟨F, hF⟩ := hself
      have hrest : Frames (done p lo as m) m.node b.ret (some (a, s)) as fs := h3.mono he (fun _ _ => rfl) (fun _ => rfl)
      have hown : ∀ x ∈ as, lo ≤ x ∧ x ∈ m.pool p := fun x hx => h.own x (by rw [hst]; simp [hx])
      have mk : ∀ (r : Option Value) (fs' : List (Slot × Cont)), Frames (done p lo as m) m.node b.ret none as fs' → ((∀ f ∈ fs', f.1 ≠ .root) → RetIs (done p lo as m) b.ret r) →
          R p lo m { b with stack := as } { tb with ret := r, frames := fs' } := fun r fs' g1 g2 =>
        ⟨h.inv, h.low, h.first, h.memberName, h.methodName, h.errNum, h.errMsg, hnd, hown, g1, g2⟩
      have hret : (∀ f ∈ tb.frames, f.1 ≠ .root) → RetIs (done p lo as m) b.ret tb.ret := fun hr => by
        have := h.ret hr
        rw [hst] at this
        exact this.mono he
      simp only
      cases s with
      | root =>
        refine ⟨_, rfl, mk _ _ ?_ (fun _ => ?_), rfl⟩
        · exact Frames.inner (by rintro b' s' e; cases e; exact .inl rfl) (by simp) hrest
        · rw [h2 rfl]; exact ⟨F, hF⟩
      | lost =>
        refine ⟨_, rfl, mk _ _ ?_ (fun hr => hret (fun f hf => ?_)), rfl⟩
        · exact Frames.inner (by rintro b' s' e; cases e; exact .inr rfl) (by simp) hrest
        · rw [hfs] at hf
          rcases List.mem_cons.1 hf with rfl | hf
          · simp
          · exact hr f hf
      | item =>
        cases as with
        | nil =>
          cases fs with
          | nil => have := hrest a _ rfl; rcases this with e | e <;> cases e
          | cons _ _ => exact hrest.elim
        | cons a2 as =>
          cases fs with
          | nil => exact hrest.elim
          | cons f fs =>
            obtain ⟨s2, k2⟩ := f
            obtain ⟨q1, q2, q3⟩ := hrest
            cases k2 with
            | str ms => exact absurd rfl (q1.1 a)
            | arr vs =>
              obtain ⟨_, ys, g1, g2⟩ := q1
              refine ⟨_, rfl, mk _ _ ⟨⟨by simp, ys ++ [a], g1.add hF, ?_⟩, q2, q3⟩ (fun hr => hret (fun f hf => ?_)), rfl⟩
              · rw [g2]; simp [itemOf]
              · rw [hfs] at hf
                simp only [List.mem_cons] at hf
                rcases hf with rfl | rfl | hf
                · simp
                · exact hr (s2, .arr (vs ++ [k.val])) (by simp [attach])
                · exact hr f (by simp [attach, hf])
      | key kk =>
        cases as with
        | nil =>
          cases fs with
          | nil => have := hrest a _ rfl; rcases this with e | e <;> cases e
          | cons _ _ => exact hrest.elim
        | cons a2 as =>
          cases fs with
          | nil => exact hrest.elim
          | cons f fs =>
            obtain ⟨s2, k2⟩ := f
            obtain ⟨q1, q2, q3⟩ := hrest
            cases k2 with
            | arr vs => exact absurd rfl (q1.1 a kk)
            | str ms =>
              obtain ⟨_, ys, g1, g2⟩ := q1
              refine ⟨_, rfl, mk _ _ ⟨⟨by simp, SMap.append kk a ys, g1.add hF, ?_⟩, q2, q3⟩ (fun hr => hret (fun f hf => ?_)), rfl⟩
              · rw [g2]; simp [keyOf]
              · rw [hfs] at hf
                simp only [List.mem_cons] at hf
                rcases hf with rfl | rfl | hf
                · simp
                · exact hr (s2, .str (SMap.append kk k.val ms)) (by simp [attach])
                · exact hr f (by simp [attach, hf])

/-- One call: the same on both. -/
theorem build_ok {cfg : Cfg} {p lo : Nat} {m : Mem} {b : HB} {tb : TB} (h : R p lo m b tb) (e : Event) :
    match TreeBuilder.build cfg tb e with
    | .ok tb' => ∃ m' b', build cfg p (m, b) e = .ok (m', b') ∧ R p lo m' b' tb' ∧ Grow p lo m m'
    | .error x => build cfg p (m, b) e = .error x := by
  have hnx : m.next ∉ b.stack := fun e => by have := (alive_ne h.inv (h.own _ e).2).1; omega
  cases e with
  | int n => exact buildScalar_ok h _
  | bool n => exact buildScalar_ok h _
  | double n => exact buildScalar_ok h _
  | null => exact buildScalar_ok h _
  | binary n => exact buildScalar_ok h _
  | dateTime n => exact buildScalar_ok h _
  | string s =>
    simp only [TreeBuilder.build, build]
    by_cases hs : cfg.strOk s = true
    · rw [if_pos hs, if_pos hs]; exact buildScalar_ok h _
    · rw [if_neg hs, if_neg hs]
  | member k => exact ⟨m, _, rfl, ⟨h.inv, h.low, h.first, rfl, h.methodName, h.errNum, h.errMsg, h.nodup, h.own, h.frames, h.ret⟩, .refl _⟩
  | openArray n => exact openNode_ok h _ _ (.inl ⟨rfl, rfl⟩)
  | openStruct n => exact openNode_ok h _ _ (.inr ⟨rfl, rfl⟩)
  | closeArray =>
    have := closeNode_ok h
    simp only [TreeBuilder.build, build]
    revert this
    cases TreeBuilder.close tb with
    | error e => exact id
    | ok tb' => rintro ⟨b', g1, g2, _⟩; exact ⟨m, b', g1, g2, .refl _⟩
  | closeStruct =>
    have := closeNode_ok h
    simp only [TreeBuilder.build, build]
    revert this
    cases TreeBuilder.close tb with
    | error e => exact id
    | ok tb' => rintro ⟨b', g1, g2, _⟩; exact ⟨m, b', g1, g2, .refl _⟩
  | methodResponse => exact ⟨m, b, rfl, h, .refl _⟩
  | fault code msg =>
    refine ⟨m, _, rfl, ⟨h.inv, h.low, rfl, h.memberName, h.methodName, rfl, rfl, h.nodup, h.own, h.frames.lose (.inl rfl), fun _ => trivial⟩, .refl _⟩
  | methodCall name =>
    have he := done_alloc (p := p) (lo := lo) h.inv b.stack (m.next :: b.stack) (.arr []) (by simp only [List.mem_cons]; rintro x (e | e); exact .inr e; exact .inl e)
    refine ⟨_, _, rfl, ⟨h.inv.alloc p _, by have := h.low; simp only [alloc]; omega, rfl, h.memberName, rfl, h.errNum, h.errMsg, List.nodup_cons.2 ⟨hnx, h.nodup⟩, ?_, ?_, ?_⟩, alloc_grow _ m h.low⟩
    · intro x hx
      rcases List.mem_cons.1 hx with rfl | hx
      · exact ⟨h.low, by simp [alloc]⟩
      · exact ⟨(h.own x hx).1, by simp [alloc, (h.own x hx).2]⟩
    · refine ⟨⟨by simp, [], ⟨0, rfl⟩, by simp [alloc, itemOf]⟩, fun _ => rfl, ?_⟩
      refine Frames.inner (i := none) (by simp) (by rintro b' s' e; cases e; exact .inl rfl) ?_
      refine Frames.lose (ret := b.ret) (.inl rfl) (h.frames.mono he (fun x hx => ?_) (fun _ => rfl))
      have := (alive_ne h.inv (h.own x hx).2).1
      simp only [alloc]
      rw [if_neg (by omega)]
    · intro hr; exact absurd rfl (hr (.root, .arr []) (by simp))

theorem R.start {p : Nat} {m : Mem} (hi : Inv m) : R p m.next m HB.init TreeBuilder.init :=
  ⟨hi, Nat.le_refl _, rfl, rfl, rfl, rfl, rfl, by simp [HB.init], by simp [HB.init], (by intro b s e; cases e), fun _ => trivial⟩

theorem attach_length (v : Value) (s : Slot) (r : Option Value) (fs : List (Slot × Cont)) : (attach v s r fs).2.length = fs.length := by
  cases s with
  | root => rfl
  | lost => rfl
  | item =>
    match fs with
    | [] => rfl
    | (_, .arr _) :: _ => simp [attach]
    | (_, .str _) :: _ => rfl
  | key k =>
    match fs with
    | [] => rfl
    | (_, .str _) :: _ => simp [attach]
    | (_, .arr _) :: _ => rfl

/-- What `getUnMarshaledDataPtr` gives. -/
theorem R.data {p lo : Nat} {m : Mem} : ∀ {k : Nat} {b : HB} {tb : TB}, tb.frames.length = k → R p lo m b tb → RetIs (only (New p lo m) m) b.ret (TreeBuilder.data tb)
  | 0, b, tb, hk, h => by
    have hf : tb.frames = [] := List.length_eq_zero_iff.1 hk
    have hfr := h.frames
    rw [hf] at hfr
    have hst : b.stack = [] := by
      cases hs : b.stack with
      | nil => rfl
      | cons a as => rw [hs] at hfr; exact hfr.elim
    have hr := h.ret (by rw [hf]; simp)
    have : TreeBuilder.data tb = tb.ret := by unfold TreeBuilder.data; rw [hf]; rfl
    rw [this]
    refine hr.mono (only_ext (fun z n ⟨g1, _⟩ hz => ⟨g1, hz⟩))
  | k + 1, b, tb, hk, h => by
    have hc := closeNode_ok h
    unfold TreeBuilder.close at hc
    cases hf : tb.frames with
    | nil => rw [hf] at hk; simp at hk
    | cons f fs =>
      obtain ⟨s, c⟩ := f
      rw [hf] at hc
      obtain ⟨b', _, g2, g3⟩ := hc
      have hk' : fs.length = k := by rw [hf] at hk; simpa using hk
      have := R.data (k := k) (by rw [← hk']; exact attach_length _ _ _ _) g2
      rw [g3] at this
      have e : TreeBuilder.data { tb with ret := (attach c.val s tb.ret fs).1, frames := (attach c.val s tb.ret fs).2 } = TreeBuilder.data tb := by
        unfold TreeBuilder.data
        rw [hf]
        simp only [List.length_cons, TreeBuilder.collapse, attach_length]
      rw [e] at this
      exact this

end Heap
end Frpc
