import Verif.Proofs.Sizes
/-! # What the tree builder holds is no larger than the calls it was given -/
namespace Frpc
open Spec BinUnMarshaller
open TreeBuilder (Cfg TB Cont Slot addTo place openC close build attach loseRoot)

namespace TreeBuilder

/-- Kind of an open container. -/
def Cont.sort : Cont → CKind
  | .arr _ => .array
  | .str _ => .struct

/-- The frames are the open containers of the stream (`x`: the array of the parameters below them); only the innermost may wait for a value with a name. -/
structure Fits (x : List CKind) (s : List Open) (tb : TB) : Prop where
  sorts : tb.frames.map (fun f => f.2.sort) = s.map Open.kind ++ x
  named : ∀ o ∈ s.tail, o.named = false

/-- Size of where a container hangs. -/
def slotSize : Slot → Nat
  | .key k => 1 + k.length
  | _ => 0

/-- Size of what hangs on the frames. -/
def framesSize : List (Slot × Cont) → Nat
  | [] => 0
  | f :: fs => slotSize f.1 + leastSize f.2.val + framesSize fs

/-- A name given that waits for its value. -/
def waiting : List Open → TB → Nat
  | o :: _, tb => if o.named then 1 + tb.memberName.length else 0
  | [], _ => 0

/-- The root. -/
def retSize : Option Value → Nat
  | some v => leastSize v
  | none => 0

/-- Size of all that the builder holds. -/
def held (s : List Open) (tb : TB) : Nat := retSize tb.ret + framesSize tb.frames + waiting s tb

theorem insert_same (k : Bytes) (v : Value) : ∀ ms : List (Bytes × Value), (SMap.insert k v ms).2 = false → (SMap.insert k v ms).1 = ms
  | [], h => by simp [SMap.insert] at h
  | (k', v') :: ms, h => by
    simp only [SMap.insert] at h ⊢
    split
    · next h1 => simp [h1] at h
    · next h1 =>
      split
      · rfl
      · next h2 =>
        simp only [h1, h2, if_false, Bool.false_eq_true] at h
        simp only [insert_same k v ms h]

theorem append_least (k : Bytes) (v : Value) (ms : List (Bytes × Value)) : leastMembers (SMap.append k v ms) ≤ leastMembers ms + (1 + k.length + leastSize v) := by
  have h1 := insert_least k v ms
  simp only [SMap.append]
  split
  · exact h1
  · next hn =>
    have h2 := insert_same k v ms (by simpa using hn)
    rw [h2]
    exact assign_least k v ms

theorem attach_size (v : Value) (sl : Slot) (r : Option Value) (fs : List (Slot × Cont)) :
    retSize (attach v sl r fs).1 + framesSize (attach v sl r fs).2 ≤ retSize r + framesSize fs + slotSize sl + leastSize v := by
  unfold attach
  split
  · simp only [retSize, slotSize]; omega
  · simp only; omega
  · simp only [framesSize, Cont.val, leastSize, leastItems_append, leastItems]; omega
  · next k s ms fs =>
    have := append_least k v ms
    simp only [framesSize, Cont.val, leastSize, slotSize]; omega
  · simp only; omega

theorem attach_sorts (v : Value) (sl : Slot) (r : Option Value) (fs : List (Slot × Cont)) :
    (attach v sl r fs).2.map (fun f => f.2.sort) = fs.map (fun f => f.2.sort) := by
  unfold attach
  split <;> rfl

/-- Starting an item: kinds stay, the names are used up. -/
theorem item_facts {s s' : List Open} (h : item s = some s') : s'.map Open.kind = s.map Open.kind ∧ s'.tail = s.tail ∧
    (∀ o ∈ s'.head?, o.named = false) ∧ (∀ o ∈ s.head?, o.kind = .struct → o.named = true) := by
  unfold item at h
  split at h <;> simp at h <;> subst h <;> simp

theorem waiting_item {s s' : List Open} {tb : TB} (h : item s = some s') : waiting s' tb = 0 := by
  have := (item_facts h).2.2.1
  cases s' with
  | nil => rfl
  | cons o s' => simp [waiting, this o (by simp)]

theorem place_size {x : List CKind} {s s' : List Open} {tb tb' : TB} {v : Value} (hn : item s = some s') (hf : Fits x s tb) (hx : x = [] ∨ x = [.array])
    (h : place tb v = .ok tb') : Fits x s' tb' ∧ held s' tb' ≤ held s tb + leastSize v := by
  have hi := item_facts hn
  unfold place at h
  have hs := hf.sorts
  cases hfr : tb.frames with
  | nil =>
    rw [hfr] at h hs
    simp only at h
    split at h
    · cases h
      refine ⟨⟨?_, by rw [hi.2.1]; exact hf.named⟩, ?_⟩
      · simp only [hfr]; rw [hi.1]; exact hs
      · unfold held
        rw [waiting_item hn]
        simp only [hfr, retSize, framesSize]; omega
    · cases h
  | cons f fs =>
    obtain ⟨sl, c⟩ := f
    rw [hfr] at h hs
    simp only at h
    cases c with
    | arr vs =>
      cases h
      refine ⟨⟨?_, by rw [hi.2.1]; exact hf.named⟩, ?_⟩
      · simp only [List.map_cons, Cont.sort] at hs ⊢; rw [hi.1]; exact hs
      · unfold held
        rw [waiting_item hn]
        simp only [hfr, framesSize, Cont.val, leastSize, leastItems_append, leastItems]; omega
    | str ms =>
      simp only [addTo, SMap.appendChecked] at h
      split at h
      · cases h
      · cases h
        refine ⟨⟨?_, by rw [hi.2.1]; exact hf.named⟩, ?_⟩
        · simp only [List.map_cons, Cont.sort] at hs ⊢; rw [hi.1]; exact hs
        · have hw : waiting s tb = 1 + tb.memberName.length := by
            cases s with
            | nil =>
              exfalso
              simp only [List.map_cons, List.map_nil, List.nil_append, Cont.sort] at hs
              rcases hx with rfl | rfl <;> simp at hs
            | cons o s =>
              simp only [List.map_cons, List.cons_append, List.cons.injEq, Cont.sort] at hs
              have := hi.2.2.2 o (by simp) hs.1.symm
              simp [waiting, this]
          have := append_least tb.memberName v ms
          unfold held
          rw [waiting_item hn, hw]
          simp only [hfr, framesSize, Cont.val, leastSize]; omega

theorem open_size {x : List CKind} {s s' : List Open} {q : Open} {tb tb' : TB} {c : Cont} (hn : item s = some s') (hq : q.kind = c.sort) (hq2 : q.named = false)
    (hc : leastSize c.val = 2) (hf : Fits x s tb) (hx : x = [] ∨ x = [.array])
    (h : openC tb c = .ok tb') : Fits x (q :: s') tb' ∧ held (q :: s') tb' ≤ held s tb + 2 := by
  have hi := item_facts hn
  have hs := hf.sorts
  have hnamed : ∀ o ∈ s', o.named = false := by
    intro o ho
    cases s' with
    | nil => cases ho
    | cons o' s' =>
      rcases List.mem_cons.mp ho with rfl | ho
      · exact hi.2.2.1 _ (by simp)
      · refine hf.named o ?_
        rw [← hi.2.1]; exact ho
  unfold openC at h
  split at h
  · next hfr =>
    cases h
    refine ⟨⟨?_, hnamed⟩, ?_⟩
    · simp only [List.map_cons, List.cons_append, hi.1, hs, hq]
    · unfold held
      simp only [waiting, hq2, framesSize, slotSize, hc]
      simp; omega
  · next hfr =>
    split at h
    · cases h
    · cases h
      refine ⟨⟨?_, hnamed⟩, ?_⟩
      · simp only [List.map_cons, List.cons_append, hi.1, hs, hq]
      · have hw : waiting s tb = 1 + tb.memberName.length := by
          rw [hfr] at hs
          cases s with
          | nil =>
            exfalso
            simp only [List.map_cons, List.map_nil, List.nil_append, Cont.sort] at hs
            rcases hx with rfl | rfl <;> simp at hs
          | cons o s =>
            simp only [List.map_cons, List.cons_append, List.cons.injEq, Cont.sort] at hs
            have := hi.2.2.2 o (by simp) hs.1.symm
            simp [waiting, this]
        unfold held
        rw [hw]
        simp only [waiting, hq2, framesSize, slotSize, hc]
        simp; omega
  · next hfr =>
    split at h
    · cases h
      refine ⟨⟨?_, hnamed⟩, ?_⟩
      · rw [hfr] at hs
        simp only [List.map_cons, List.map_nil, List.cons_append, hi.1, hq]
        rw [← hs]; rfl
      · unfold held
        simp only [waiting, hq2, framesSize, slotSize, hc, hfr]
        simp
    · cases h

theorem close_size {x : List CKind} {s : List Open} {q : Open} {tb tb' : TB} (hf : Fits x (q :: s) tb)
    (h : close tb = .ok tb') : Fits x s tb' ∧ held s tb' ≤ held (q :: s) tb := by
  have hs := hf.sorts
  unfold close at h
  split at h
  · cases h
  · next sl c fs hfr =>
    cases h
    rw [hfr] at hs
    simp only [List.map_cons, List.cons_append, List.cons.injEq] at hs
    refine ⟨⟨?_, fun o ho => hf.named o (by simp only [List.tail_cons]; exact List.mem_of_mem_tail ho)⟩, ?_⟩
    · simp only [attach_sorts]; exact hs.2
    · have ha := attach_size c.val sl tb.ret fs
      unfold held
      have hw : waiting s { tb with ret := (attach c.val sl tb.ret fs).1, frames := (attach c.val sl tb.ret fs).2 } = 0 := by
        cases s with
        | nil => rfl
        | cons o s => simp [waiting, hf.named o (by simp)]
      rw [hw]
      simp only [hfr, framesSize]
      omega

theorem build_size {cfg : Cfg} {x : List CKind} {s s' : List Open} {tb tb' : TB} {e : Event} (hn : nest s e = some s') (hf : Fits x s tb) (hx : x = [] ∨ x = [.array])
    (h : build cfg tb e = .ok tb') : Fits x s' tb' ∧ held s' tb' ≤ held s tb + cost e := by
  cases e with
  | int a => exact place_size hn hf hx h
  | bool a => exact place_size hn hf hx h
  | double a => exact place_size hn hf hx h
  | null => exact place_size hn hf hx h
  | binary a => exact place_size hn hf hx h
  | dateTime a => exact place_size hn hf hx h
  | string a =>
    simp only [build] at h
    split at h
    · exact place_size hn hf hx h
    · cases h
  | member k =>
    simp only [nest] at hn
    split at hn
    · next n s =>
      cases hn
      cases h
      refine ⟨⟨hf.sorts, hf.named⟩, ?_⟩
      unfold held
      simp only [waiting, cost]
      simp
    · cases hn
  | openArray k =>
    simp only [nest] at hn
    cases hi : item s with
    | none => rw [hi] at hn; cases hn
    | some s1 => rw [hi] at hn; cases hn; exact open_size hi rfl rfl rfl hf hx h
  | openStruct k =>
    simp only [nest] at hn
    cases hi : item s with
    | none => rw [hi] at hn; cases hn
    | some s1 => rw [hi] at hn; cases hn; exact open_size hi rfl rfl rfl hf hx h
  | closeArray =>
    simp only [nest] at hn
    split at hn
    · cases hn; exact close_size hf h
    · cases hn
  | closeStruct =>
    simp only [nest] at hn
    split at hn
    · cases hn; exact close_size hf h
    · cases hn
  | methodCall a => simp [nest] at hn
  | methodResponse => simp [nest] at hn
  | fault a b => simp [nest] at hn

theorem run_size {cfg : Cfg} {x : List CKind} (hx : x = [] ∨ x = [.array]) : ∀ (es : List Event) (s s' : List Open) (tb tb' : TB), Spec.run s es = some s' → Fits x s tb →
    applyEvents (builder cfg) tb es = (tb', none) → Fits x s' tb' ∧ held s' tb' ≤ held s tb + costs es
  | [], s, s', tb, tb', hr, hf, ha => by
    simp [Spec.run] at hr; simp [applyEvents] at ha; subst hr; subst ha
    exact ⟨hf, by simp [costs]⟩
  | e :: es, s, s', tb, tb', hr, hf, ha => by
    simp only [Spec.run] at hr
    cases hn : nest s e with
    | none => rw [hn] at hr; cases hr
    | some s1 =>
      rw [hn] at hr
      simp only [Option.bind_some] at hr
      unfold applyEvents at ha
      cases hb : (builder cfg).build tb e with
      | error y => rw [hb] at ha; simp at ha
      | ok b1 =>
        rw [hb] at ha
        obtain ⟨h1, h2⟩ := build_size hn hf hx hb
        obtain ⟨h3, h4⟩ := run_size hx es s1 s' b1 tb' hr h1 ha
        refine ⟨h3, ?_⟩
        simp only [costs]; omega

theorem collapse_size : ∀ (n : Nat) (r : Option Value) (fs : List (Slot × Cont)), retSize (collapse n r fs) ≤ retSize r + framesSize fs
  | 0, r, fs => by simp only [collapse]; omega
  | n + 1, r, [] => by simp [collapse, framesSize]
  | n + 1, r, (s, c) :: fs => by
    simp only [collapse, framesSize]
    have h1 := attach_size c.val s r fs
    have h2 := collapse_size n (attach c.val s r fs).1 (attach c.val s r fs).2
    omega

end TreeBuilder
end Frpc
