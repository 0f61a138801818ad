import Verif.Proofs.HeapBuild
import Verif.Proofs.AnyBuilder
import Verif.Proofs.StructMap
/-!
# C104–C107: values are objects that pools own

Specification: `Spec/Heap` (what is reached, what an operation touches), `Spec/Descriptors` (what was made and deleted).
-/
namespace Frpc
namespace Heap
open Descriptors (Act replay_append)
open Spec.Descriptors (replay)
open Spec.Heap
open TreeBuilder (Cfg)
open BinUnMarshaller

theorem Inv.setC {m : Mem} (h : Inv m) {x : Nat} (n : Node) {k : Node} (hx : m.node x = some k) (hk : k ≠ .leaf .null) : Inv (Heap.set x n m) := by
  refine h.set n (fun e => ?_) hx
  rw [e, h.null] at hx
  cases hx
  exact hk rfl

/-- What one operation does: it makes objects in a pool, or changes one object, or deletes those of a pool, or pools exchange what they own. -/
theorem step_kind (cfg : Cfg) (d : Nat) (m : Mem) (op : Op) (hl : Inv m) :
    (∃ p, Grow p m.next m (step cfg d m op).1 ∧ changes op = none ∧ ∀ q, op ≠ .free q) ∨
    (∃ x k n, changes op = some x ∧ m.node x = some k ∧ k ≠ .leaf .null ∧ (step cfg d m op).1 = set x n m) ∨
    (step cfg d m op).1 = m ∨ (∃ p, op = .free p) ∨ (∃ p o, op = .steal p o) ∨ (∃ p o, op = .move p o) := by
  have _ := hl
  have le := Nat.le_refl m.next
  cases op with
  | scalar p v => exact .inl ⟨p, scalar_grow v m le, rfl, by simp⟩
  | array p xs => exact .inl ⟨p, alloc_grow _ m le, rfl, by simp⟩
  | struct p ms => exact .inl ⟨p, alloc_grow _ m le, rfl, by simp⟩
  | secret p x => exact .inl ⟨p, alloc_grow _ m le, rfl, by simp⟩
  | clone x p => exact .inl ⟨p, clone_grow cfg p d x m, rfl, by simp⟩
  | free p => exact .inr (.inr (.inr (.inl ⟨p, rfl⟩)))
  | steal p o => exact .inr (.inr (.inr (.inr (.inl ⟨p, o, rfl⟩))))
  | move p o => exact .inr (.inr (.inr (.inr (.inr ⟨p, o, rfl⟩))))
  | push a x =>
    simp only [step, push]
    split
    · next ps h => exact .inr (.inl ⟨a, _, _, rfl, h, by simp, rfl⟩)
    · exact .inr (.inr (.inl rfl))
  | replace a i x =>
    simp only [step, replace]
    split
    · next ps h =>
      split
      · exact .inr (.inr (.inl rfl))
      · exact .inr (.inl ⟨a, _, _, rfl, h, by simp, rfl⟩)
    · exact .inr (.inr (.inl rfl))
  | append s k x =>
    simp only [step, append]
    split
    · next ms h =>
      split
      · exact .inr (.inl ⟨s, _, _, rfl, h, by simp, rfl⟩)
      · exact .inr (.inr (.inl rfl))
    · exact .inr (.inr (.inl rfl))
  | insert s k x =>
    simp only [step, insert]
    split
    · next ms h => exact .inr (.inl ⟨s, _, _, rfl, h, by simp, rfl⟩)
    · exact .inr (.inr (.inl rfl))
  | erase s k =>
    simp only [step, erase]
    split
    · next ms h => exact .inr (.inl ⟨s, _, _, rfl, h, by simp, rfl⟩)
    · exact .inr (.inr (.inl rfl))
  | clear x =>
    simp only [step, clear]
    split
    · next ps h => exact .inr (.inl ⟨x, _, _, rfl, h, by simp, rfl⟩)
    · next ps h => exact .inr (.inl ⟨x, _, _, rfl, h, by simp, rfl⟩)
    · exact .inr (.inr (.inl rfl))

theorem Inv.step {m : Mem} (h : Inv m) (cfg : Cfg) (d : Nat) (op : Op) : Inv (step cfg d m op).1 := by
  rcases step_kind cfg d m op h with ⟨p, hg, _⟩ | ⟨x, k, n, _, hx, hk, e⟩ | e | ⟨p, rfl⟩ | ⟨p, o, rfl⟩ | ⟨p, o, rfl⟩
  · exact hg.inv h
  · rw [e]; exact h.setC n hx hk
  · rw [e]; exact h
  · exact h.free p
  · exact h.steal p o
  · exact h.move p o

theorem history_cons (cfg : Cfg) (d : Nat) (m : Mem) (op : Op) (ops : List Op) : history cfg d m (op :: ops) = history cfg d (step cfg d m op).1 ops := rfl

theorem Inv.history {cfg : Cfg} {d : Nat} : ∀ (ops : List Op) {m : Mem}, Inv m → Inv (history cfg d m ops)
  | [], _, h => h
  | op :: ops, _, h => Inv.history ops (h.step cfg d op)

theorem Inv.reachable (cfg : Cfg) (d : Nat) (ops : List Op) : Inv (Heap.history cfg d Heap.start ops) := Inv.history ops Inv.start

/-- The default configuration, for examples. -/
def cfg0 : Cfg := ⟨fun _ => true, none⟩

/-! ## C104: nothing is deleted twice; nothing is left -/

/-- Every living object but the static one belongs to a pool. -/
def Covered (m : Mem) : Prop := ∀ x n, x ≠ 0 → m.node x = some n → ∃ p, x ∈ m.pool p

theorem Covered.grow {p lo : Nat} {a b : Mem} (h : Grow p lo a b) (hc : Covered a) : Covered b := by
  induction h with
  | refl => exact hc
  | @alloc m m' n h1 _ ih =>
    refine ih (fun x k hx hk => ?_)
    simp only [alloc] at hk ⊢
    split at hk
    · next e => exact ⟨p, by simp [e]⟩
    · obtain ⟨q, hq⟩ := hc x k hx hk
      refine ⟨q, ?_⟩
      split
      · next e => rw [e] at hq; simp [hq]
      · exact hq
  | @set m m' y n k _ hy _ _ ih =>
    refine ih (fun x k' hx hk => ?_)
    simp only [set] at hk ⊢
    split at hk
    · next e => exact hc x k hx (by rw [e]; exact hy)
    · exact hc x k' hx hk

theorem Covered.step {m : Mem} (hi : Inv m) (hc : Covered m) (cfg : Cfg) (d : Nat) (op : Op) (hl : ¬ Leaks m op) : Covered (step cfg d m op).1 := by
  rcases step_kind cfg d m op hi with ⟨p, hg, _⟩ | ⟨x, k, n, _, hx, hk, e⟩ | e | ⟨p, rfl⟩ | ⟨p, o, rfl⟩ | ⟨p, o, rfl⟩
  · exact hc.grow hg
  · rw [e]; exact hc.grow (Grow.set (p := 0) (lo := 0) x n k (Nat.zero_le _) hx hk (.refl _))
  · rw [e]; exact hc
  · intro x n hx hn
    simp only [Heap.step, free] at hn ⊢
    split at hn
    · cases hn
    · next hne =>
      obtain ⟨q, hq⟩ := hc x n hx hn
      refine ⟨q, ?_⟩
      rw [if_neg (fun (e : q = p) => hne (by rw [← e]; exact hq))]
      exact hq
  · intro x n hx hn
    obtain ⟨q, hq⟩ := hc x n hx hn
    have hpo : p ≠ o := hl
    simp only [Heap.step, steal]
    by_cases e1 : q = o
    · subst e1
      exact ⟨p, by rw [if_neg hpo, if_pos rfl]; simp [hq]⟩
    · by_cases e2 : q = p
      · subst e2
        exact ⟨q, by rw [if_neg e1, if_pos rfl]; simp [hq]⟩
      · exact ⟨q, by rw [if_neg e1, if_neg e2]; exact hq⟩
  · intro x n hx hn
    obtain ⟨q, hq⟩ := hc x n hx hn
    have hpo : p ≠ o := fun e => hl (.inl e)
    have hpe : m.pool p = [] := Classical.byContradiction (fun e => hl (.inr e))
    simp only [Heap.step, move]
    by_cases e1 : q = o
    · subst e1
      exact ⟨p, by rw [if_neg hpo, if_pos rfl]; exact hq⟩
    · by_cases e2 : q = p
      · subst e2; rw [hpe] at hq; simp at hq
      · exact ⟨q, by rw [if_neg e1, if_neg e2]; exact hq⟩

theorem Covered.history {cfg : Cfg} {d : Nat} : ∀ (ops : List Op) {m : Mem}, Inv m → Covered m → NoLeaks cfg d m ops → Covered (history cfg d m ops)
  | [], _, _, h, _ => h
  | op :: ops, _, hi, h, ⟨h1, h2⟩ => Covered.history ops (hi.step cfg d op) (h.step hi cfg d op h1) h2

theorem Covered.start : Covered start := by
  intro x n hx hn
  have : Heap.start.node x = none := if_neg hx
  rw [this] at hn; cases hn

theorem freeAll_ok : ∀ (ps : List Nat) (m : Mem), Inv m → Covered m → Inv (freeAll ps m) ∧ Covered (freeAll ps m) ∧ ∀ q, (freeAll ps m).pool q = if q ∈ ps then [] else m.pool q
  | [], m, hi, hc => ⟨hi, hc, fun q => by simp [freeAll]⟩
  | p :: ps, m, hi, hc => by
    obtain ⟨h1, h2, h3⟩ := freeAll_ok ps (free p m) (hi.free p) (Covered.step hi hc ⟨fun _ => true, none⟩ 0 (.free p) (fun h => h))
    refine ⟨h1, h2, fun q => ?_⟩
    have : freeAll (p :: ps) m = freeAll ps (free p m) := rfl
    rw [this, h3]
    simp only [free, List.mem_cons]
    by_cases e1 : q ∈ ps
    · simp [e1]
    · by_cases e2 : q = p
      · simp [e2]
      · simp [e1, e2]

/-- **C104 (pools).** Whatever is done with pools and values: no object is deleted that was not made or was deleted before, what a pool owns is alive, and no object is owned twice. If pools are neither assigned to
while they have values nor steal from themselves, then after the last pool is gone nothing is left, and only the static null is alive. Missing: those two, see `C104_leak_violated`. -/
theorem C104_pools_partial (cfg : Cfg) (depth : Nat) (ops : List Op) :
    let m := history cfg depth start ops
    (∃ left, replay ⟨[], []⟩ m.log = some ⟨[], left⟩) ∧
    (∀ p x, x ∈ m.pool p → m.node x ≠ none) ∧ (∀ p, (m.pool p).Nodup) ∧ (∀ p q x, x ∈ m.pool p → x ∈ m.pool q → p = q) ∧
    ∀ ps, (∀ p, m.pool p ≠ [] → p ∈ ps) → (∃ left, replay ⟨[], []⟩ (freeAll ps m).log = some ⟨[], left⟩) ∧
      (NoLeaks cfg depth start ops → replay ⟨[], []⟩ (freeAll ps m).log = some ⟨[], []⟩ ∧ ∀ x, (freeAll ps m).node x ≠ none ↔ x = nullAt) := by
  intro m
  have hi : Inv m := Inv.reachable cfg depth ops
  have inv_free : ∀ (ps : List Nat) (m : Mem), Inv m → Inv (freeAll ps m) := by
    intro ps
    induction ps with
    | nil => exact fun _ h => h
    | cons p ps ih => exact fun m h => ih _ (h.free p)
  refine ⟨?_, ?_, hi.nodup, hi.disj, fun ps hps => ⟨?_, fun hnl => ?_⟩⟩
  · obtain ⟨u, h, _⟩ := hi.ledger; exact ⟨u, h⟩
  · intro p x hx e
    obtain ⟨_, n, hn⟩ := hi.owned p x hx
    rw [e] at hn; cases hn
  · obtain ⟨u, h, _⟩ := (inv_free ps m hi).ledger; exact ⟨u, h⟩
  · obtain ⟨h1, h2, h3⟩ := freeAll_ok ps m hi (Covered.history ops Inv.start Covered.start hnl)
    have hempty : ∀ q, (freeAll ps m).pool q = [] := fun q => by
      rw [h3]
      split
      · rfl
      · next e => exact Classical.byContradiction (fun c => e (hps q c))
    have hdead : ∀ x n, (freeAll ps m).node x = some n → x = 0 := fun x n hn => by
      refine Classical.byContradiction (fun hx => ?_)
      obtain ⟨p, hp⟩ := h2 x n hx hn
      rw [hempty] at hp; simp at hp
    obtain ⟨u, g1, _, g3⟩ := h1.ledger
    have hu : u = [] := by
      refine List.eq_nil_iff_forall_not_mem.2 (fun x hx => ?_)
      obtain ⟨h4, n, hn⟩ := (g3 x).1 hx
      exact h4 (hdead x n hn)
    refine ⟨by rw [g1, hu], fun x => ⟨fun hx => ?_, fun hx => ?_⟩⟩
    · cases hn : (freeAll ps m).node x with
      | none => exact absurd hn hx
      | some n => exact hdead x n hn
    · rw [hx, show nullAt = 0 from rfl, h1.null]; simp

/-- Two pools, one value in the other's array, a clone, stolen and freed: all is made and deleted once. -/
def story : List Op := [.scalar 1 (.int 5), .array 2 [1], .scalar 1 .null, .clone 2 1, .steal 2 1, .free 1]

example : NoLeaks cfg0 5 start story := by
  refine ⟨fun h => h, fun h => h, fun h => h, fun h => h, ?_, fun h => h, trivial⟩
  show ¬ (2 : Nat) = 1
  decide
example : (history cfg0 5 start story).pool 2 = [2, 1, 3, 4] := by decide +kernel
example : (freeAll [1, 2] (history cfg0 5 start story)).log
    = [.made 1, .made 2, .made 3, .made 4, .delete 2, .delete 1, .delete 3, .delete 4] := by decide +kernel

/-- **C104 is false when** a pool with values is assigned to (`pool = std::move(other)`), or steals from itself: its values are never deleted, whichever pools are destroyed. -/
theorem C104_leak_violated :
    (∃ ops, ops = [Op.scalar 1 (.int 5), .move 1 2] ∧ ∀ cfg depth ps, (freeAll ps (history cfg depth start ops)).node 1 ≠ none) ∧
    (∃ ops, ops = [Op.scalar 1 (.int 5), .steal 1 1] ∧ ∀ cfg depth ps, (freeAll ps (history cfg depth start ops)).node 1 ≠ none) := by
  have key : ∀ (m : Mem) (ps : List Nat), (∀ q, 1 ∉ m.pool q) → m.node 1 ≠ none → (freeAll ps m).node 1 ≠ none := by
    intro m ps
    induction ps generalizing m with
    | nil => exact fun _ h => h
    | cons p ps ih =>
      intro h1 h2
      refine ih (free p m) (fun q => ?_) ?_
      · simp only [free]; split
        · simp
        · exact h1 q
      · simp only [free]; rw [if_neg (h1 p)]; exact h2
  refine ⟨⟨_, rfl, fun cfg d ps => key _ ps ?_ ?_⟩, ⟨_, rfl, fun cfg d ps => key _ ps ?_ ?_⟩⟩
  · intro q
    simp only [history, List.foldl, step, scalar, alloc, move, start]
    repeat' split
    all_goals simp_all
  · simp [history, step, scalar, alloc, move, start]
  · intro q
    simp only [history, List.foldl, step, scalar, alloc, steal, start]
    repeat' split
    all_goals simp_all
  · simp [history, step, scalar, alloc, steal, start]

/-! ## C105: values stay as they are; clones -/

/-- What is not touched stays. -/
theorem step_keeps {m : Mem} (hi : Inv m) (cfg : Cfg) (d : Nat) (op : Op) {z : Nat} {n : Node} (hz : m.node z = some n) (ht : ¬ Touches m op z) : (step cfg d m op).1.node z = some n := by
  rcases step_kind cfg d m op hi with ⟨p, hg, _⟩ | ⟨x, k, n', hc, hx, hk, e⟩ | e | ⟨p, rfl⟩ | ⟨p, o, rfl⟩ | ⟨p, o, rfl⟩
  · exact hg.ext hi z n hz
  · rw [e]
    simp only [set]
    rw [if_neg (fun e : z = x => ht (.inl (by rw [hc, e])))]
    exact hz
  · rw [e]; exact hz
  · simp only [step, free]
    rw [if_neg (fun e => ht (.inr ⟨p, rfl, e⟩))]
    exact hz
  · exact hz
  · exact hz

theorem spared_keeps {cfg : Cfg} {d : Nat} {S : Nat → Prop} : ∀ (ops : List Op) {m : Mem}, Inv m → Spared cfg d S m ops → ∀ z n, S z → m.node z = some n → (history cfg d m ops).node z = some n
  | [], _, _, _, _, _, _, h => h
  | op :: ops, _, hi, ⟨h1, h2⟩, z, n, hz, h => spared_keeps ops (hi.step cfg d op) h2 z n hz (step_keeps hi cfg d op h (h1 z hz))

theorem reach_trans {m : Mem} {x y z : Nat} (h : Reach m x y) (g : Reach m y z) : Reach m x z := by
  induction h with
  | refl => exact g
  | step h1 _ ih => exact .step h1 (ih g)

theorem reach_kept {m m' : Mem} {x z : Nat} (hal : ∀ z, Reach m x z → ∃ n, m.node z = some n) (hk : ∀ z n, Reach m x z → m.node z = some n → m'.node z = some n) : Reach m x z ↔ Reach m' x z := by
  constructor
  · intro h
    have key : ∀ y, Reach m y z → Reach m x y → Reach m' y z := by
      clear h
      intro y h
      induction h with
      | refl => exact fun _ => .refl _
      | @step a b c hp _ ih =>
        intro ha
        obtain ⟨n, hn, hy⟩ := hp
        exact .step ⟨n, hk _ _ ha hn, hy⟩ (ih (reach_trans ha (.step ⟨n, hn, hy⟩ (.refl _))))
    exact key x h (.refl _)
  · intro h
    have key : ∀ y, Reach m' y z → Reach m x y → Reach m y z := by
      clear h
      intro y h
      induction h with
      | refl => exact fun _ => .refl _
      | @step a b c hp _ ih =>
        intro ha
        obtain ⟨n, hn, hy⟩ := hp
        obtain ⟨n', hn'⟩ := hal a ha
        have := hk _ _ ha hn'
        rw [hn] at this
        cases this
        exact .step ⟨n, hn', hy⟩ (ih (reach_trans ha (.step ⟨n, hn', hy⟩ (.refl _))))
    exact key x h (.refl _)

theorem is_alive {m : Mem} {x z : Nat} {v : Value} (h : Is m x v) (hr : Reach m x z) : ∃ n, m.node z = some n := by
  obtain ⟨f, hf⟩ := h
  induction hr generalizing f v with
  | refl => exact read_alive hf
  | @step a b c hp _ ih =>
    cases f with
    | zero => cases hf
    | succ f =>
      obtain ⟨w, hw⟩ := read_points hf hp
      exact ih f hw

/-- **C105 (a value stays).** At any time and for any later operations: if none of them changes or deletes an object that is reached from the value, it is the same tree in the end, made of the same objects.
In particular pools may steal from it. -/
theorem C105_untouched (cfg : Cfg) (depth : Nat) (before ops : List Op) (x : Nat) (v : Value) (h : Is (history cfg depth start before) x v)
    (hs : Spared cfg depth (Reach (history cfg depth start before) x) (history cfg depth start before) ops) :
    let m := history cfg depth start (before ++ ops)
    Is m x v ∧ ∀ z, Reach (history cfg depth start before) x z ↔ Reach m x z := by
  intro m
  have hm : m = history cfg depth (history cfg depth start before) ops := by simp [m, history]
  have hi := Inv.reachable cfg depth before
  have hk := spared_keeps ops hi hs
  obtain ⟨f, hf⟩ := h
  rw [hm]
  refine ⟨⟨f, read_mono (only_sub _ _) f f x v (Nat.le_refl _) (read_frame hf (fun z n hz hn => hk z n hz hn))⟩, fun z => reach_kept (fun z hz => is_alive ⟨f, hf⟩ hz) (fun z n hz hn => hk z n hz hn)⟩

/-- An array of an integer is that array still, though its pool is stolen from, another value is made, put elsewhere and freed. -/
example : ∃ before ops, Is (history cfg0 5 start before) 2 (.array [.int 5]) ∧ Spared cfg0 5 (Reach (history cfg0 5 start before) 2) (history cfg0 5 start before) ops ∧ ops.length = 4 := by
  refine ⟨[.scalar 1 (.int 5), .array 1 [1]], [.steal 2 1, .array 3 [2], .push 3 2, .free 3], ⟨2, rfl⟩, ?_, rfl⟩
  have hr : ∀ z, Reach (history cfg0 5 start [.scalar 1 (.int 5), .array 1 [1]]) 2 z → z = 1 ∨ z = 2 := by
    intro z hz
    cases hz with
    | refl => exact .inr rfl
    | step hp h2 =>
      obtain ⟨n, hn, hy⟩ := hp
      have : n = .arr [1] := by
        have e : (history cfg0 5 start [.scalar 1 (.int 5), .array 1 [1]]).node 2 = some (.arr [1]) := rfl
        rw [e] at hn; cases hn; rfl
      subst this
      simp only [targets, List.mem_singleton] at hy
      subst hy
      cases h2 with
      | refl => exact .inl rfl
      | step hp _ =>
        obtain ⟨n, hn, hy⟩ := hp
        have e : (history cfg0 5 start [.scalar 1 (.int 5), .array 1 [1]]).node 1 = some (.leaf (.int 5)) := rfl
        rw [e] at hn; cases hn
        simp [targets] at hy
  refine ⟨?_, ?_, ?_, ?_, trivial⟩
  · rintro z hz (h | ⟨p, h, _⟩) <;> cases h
  · rintro z hz (h | ⟨p, h, _⟩) <;> cases h
  · rintro z hz (h | ⟨p, h, _⟩)
    · cases h; rcases hr _ hz with e | e <;> cases e
    · cases h
  · rintro z hz (h | ⟨p, h, hp⟩)
    · cases h
    · cases h
      have e : (step cfg0 5 (step cfg0 5 (step cfg0 5 (history cfg0 5 start [.scalar 1 (.int 5), .array 1 [1]]) (.steal 2 1)).1 (.array 3 [2])).1 (.push 3 2)).1.pool 3 = [3] := rfl
      rw [e] at hp
      simp only [List.mem_singleton] at hp
      subst hp
      rcases hr _ hz with e | e <;> cases e

/-- **C105 (clone).** At any time, the clone of a value that is a tree is the clone of the tree (C32: the tree itself unless it has date-times or strings that validation changes or refuses), and is made of new
objects that the pool owns (and the static null). All objects there were are as they were, also when it throws; other pools own what they owned. -/
theorem C105_clone (cfg : Cfg) (depth : Nat) (ops : List Op) (x p : Nat) (v : Value) (h : Is (history cfg depth start ops) x v) :
    let m := history cfg depth start ops
    ∃ d, ∀ d' ≥ d, let r := clone cfg p d' x m
      (match Clone.clone cfg v with
       | .ok w => ∃ y, r.2 = .ok y ∧ Is r.1 y w ∧ ∀ z, Reach r.1 y z → z = nullAt ∨ (m.node z = none ∧ z ∈ r.1.pool p)
       | .error e => r.2 = .error e) ∧
      (∀ z n, m.node z = some n → r.1.node z = some n) ∧ (∀ q, q ≠ p → r.1.pool q = m.pool q) ∧ m.pool p <+: r.1.pool p := by
  intro m
  obtain ⟨f, hf⟩ := h
  refine ⟨f, fun d' hd => ?_⟩
  have hi : Inv m := Inv.reachable cfg depth ops
  have hg := clone_grow cfg p d' x m
  refine ⟨?_, hg.ext hi, fun q hq => hg.pool.1 q hq, ?_⟩
  · have hc := clone_ok cfg p d' x m v hi (read_mono (Ext.refl m) f d' x v hd hf)
    cases hw : Clone.clone cfg v with
    | error e => rw [hw] at hc; exact hc
    | ok w =>
      rw [hw] at hc
      obtain ⟨m', y, h1, h2⟩ := hc
      rw [h1]
      refine ⟨y, rfl, ⟨d', read_mono (only_sub _ _) d' d' y w (Nat.le_refl _) h2⟩, fun z hz => ?_⟩
      rcases read_only hz h2 with e | ⟨e1, e2⟩
      · exact .inl e
      · refine .inr ⟨?_, e2⟩
        cases hn : m.node z with
        | none => rfl
        | some n => exact absurd (hi.below _ _ hn) (by omega)
  · obtain ⟨_, l, e, _⟩ := hg.pool
    exact ⟨l, e.symm⟩

/-- A struct that holds the same array twice, and the clone of it, which holds two. -/
def twice : List Op := [.scalar 1 (.int 5), .array 1 [1], .struct 1 [([97], 2), ([98], 2)]]

example : Is (history cfg0 9 start twice) 3 (.struct [([97], .array [.int 5]), ([98], .array [.int 5])]) := ⟨3, rfl⟩
example : (clone cfg0 2 9 3 (history cfg0 9 start twice)).1.pool 2 = [4, 5, 6, 7, 8] := rfl
example : Is (clone cfg0 2 9 3 (history cfg0 9 start twice)).1 4 (.struct [([97], .array [.int 5]), ([98], .array [.int 5])]) := ⟨3, rfl⟩

theorem elsewhere_spared {cfg : Cfg} {d p : Nat} {m0 : Mem} {S : Nat → Prop} (hS : ∀ z, S z → z = nullAt ∨ m0.node z = none) : ∀ (ops : List Op) {m : Mem}, Inv m → (∀ z, S z → z = nullAt ∨ z ∈ m.pool p) → (m0.node nullAt).isSome →
    (∀ op ∈ ops, Elsewhere m0 p op ∧ changes op ≠ some nullAt) → Spared cfg d S m ops
  | [], _, _, _, _, _ => trivial
  | op :: ops, m, hi, hp, h0, hops => by
    obtain ⟨⟨e1, e2, e3, e4⟩, e5⟩ := hops op (by simp)
    refine ⟨fun z hz ht => ?_, elsewhere_spared hS ops (hi.step cfg d op) (fun z hz => ?_) h0 (fun o ho => hops o (by simp [ho]))⟩
    · rcases ht with h | ⟨q, h, hq⟩
      · rcases hS z hz with e | e
        · exact e5 (by rw [h, e])
        · obtain ⟨n, hn⟩ := e1 z h
          rw [e] at hn; cases hn
      · rcases hp z hz with e | e
        · exact (alive_ne hi hq).2 e
        · exact e2 q h (hi.disj _ _ _ hq e)
    · rcases hp z hz with e | e
      · exact .inl e
      · refine .inr ?_
        rcases step_kind cfg d m op hi with ⟨q, hg, _⟩ | ⟨x, k, n', hc, hx, hk, e'⟩ | e' | ⟨q, rfl⟩ | ⟨q, o, rfl⟩ | ⟨q, o, rfl⟩
        · by_cases hqp : q = p
          · subst hqp
            obtain ⟨_, l, hl, _⟩ := hg.pool
            rw [hl]; simp [e]
          · rw [hg.pool.1 p (fun e => hqp e.symm)]; exact e
        · rw [e']; exact e
        · rw [e']; exact e
        · simp only [step, free]; rw [if_neg (fun c => e2 q rfl c.symm)]; exact e
        · simp only [step, steal]; rw [if_neg (fun c => e3 q o rfl c.symm)]
          split
          · next c => rw [← c]; simp [e]
          · exact e
        · simp only [step, move]; rw [if_neg (fun c => (e4 q o rfl).2 c.symm), if_neg (fun c => (e4 q o rfl).1 c.symm)]; exact e

/-- **C105 (independent).** A clone is what it is whatever is done later to the objects there were before it was made and to pools other than its own: even if all of the original is deleted. -/
theorem C105_independent (cfg : Cfg) (depth : Nat) (ops later : List Op) (x p y : Nat) (v w : Value) (hv : read (history cfg depth start ops) depth x = .ok v) (hcl : Clone.clone cfg v = .ok w)
    (hy : (clone cfg p depth x (history cfg depth start ops)).2 = .ok y)
    (hl : ∀ op ∈ later, Elsewhere (history cfg depth start ops) p op) :
    Is (history cfg depth (clone cfg p depth x (history cfg depth start ops)).1 later) y w := by
  have hi := Inv.reachable cfg depth ops
  generalize history cfg depth start ops = m at hv hy hl hi ⊢
  have hc := clone_ok cfg p depth x m v hi hv
  rw [hcl] at hc
  obtain ⟨m', y', h1, h2⟩ := hc
  rw [h1] at hy ⊢
  cases hy
  have hi' : Inv m' := by have := (clone_grow cfg p depth x m).inv hi; rw [h1] at this; exact this
  -- an operation that changes the static null changes nothing
  have hchange : ∀ (m : Mem), Inv m → ∀ op, changes op = some nullAt → (step cfg depth m op).1 = m := by
    intro m hi op hc
    rcases step_kind cfg depth m op hi with ⟨q, _, e, _⟩ | ⟨x, k, n', e, hx, hk, _⟩ | e | ⟨q, rfl⟩ | ⟨q, o, rfl⟩ | ⟨q, o, rfl⟩
    · rw [hc] at e; cases e
    · rw [hc] at e; cases e
      rw [show nullAt = 0 from rfl, hi.null] at hx; cases hx
      exact absurd rfl hk
    · exact e
    · cases hc
    · cases hc
    · cases hc
  have hfilter : ∀ (ops : List Op) (m : Mem), Inv m → history cfg depth m ops = history cfg depth m (ops.filter (fun op => decide (changes op ≠ some nullAt))) := by
    intro ops
    induction ops with
    | nil => exact fun _ _ => rfl
    | cons op ops ih =>
      intro m hi
      by_cases e : changes op = some nullAt
      · rw [history_cons, hchange m hi op e, List.filter_cons_of_neg (by simp [e])]
        exact ih m hi
      · rw [history_cons, List.filter_cons_of_pos (by simp [e]), history_cons]
        exact ih _ (hi.step cfg depth op)
  simp only
  rw [hfilter later m' hi']
  have hsp : Spared cfg depth (Reach m' y) m' (later.filter (fun op => decide (changes op ≠ some nullAt))) := by
    refine elsewhere_spared (p := p) (m0 := m) (fun z hz => ?_) _ hi' (fun z hz => ?_) ?_ (fun op ho => ?_)
    · rcases read_only hz h2 with e | ⟨e1, _⟩
      · exact .inl e
      · refine .inr ?_
        cases hn : m.node z with
        | none => rfl
        | some n => exact absurd (hi.below _ _ hn) (by omega)
    · rcases read_only hz h2 with e | ⟨_, e2⟩
      · exact .inl e
      · exact .inr e2
    · rw [show nullAt = 0 from rfl, hi.null]; rfl
    · simp only [List.mem_filter, decide_eq_true_eq] at ho
      exact ⟨hl op ho.1, ho.2⟩
  have hk := spared_keeps _ hi' hsp
  have h3 := read_mono (only_sub _ _) depth depth y w (Nat.le_refl _) h2
  exact ⟨depth, read_mono (only_sub _ _) depth depth y w (Nat.le_refl _) (read_frame h3 (fun z n hz hn => hk z n hz hn))⟩

/-- The original is cleared and its pool freed; the clone is the struct still. -/
example : Is (history cfg0 9 (clone cfg0 2 9 3 (history cfg0 9 start twice)).1 [.clear 2, .push 2 3, .free 1]) 4 (.struct [([97], .array [.int 5]), ([98], .array [.int 5])]) := by
  refine C105_independent cfg0 9 twice _ 3 2 4 _ _ rfl rfl rfl (fun op ho => ?_)
  simp only [List.mem_cons, List.not_mem_nil, or_false] at ho
  rcases ho with rfl | rfl | rfl
  · exact ⟨fun z e => by cases e; exact ⟨_, rfl⟩, by simp, by simp, by simp⟩
  · exact ⟨fun z e => by cases e; exact ⟨_, rfl⟩, by simp, by simp, by simp⟩
  · exact ⟨fun z e => (by cases e), by simp, by simp, by simp⟩

/-- Without a clone it is not: a value put into two structs is seen through both when it changes. -/
theorem C105_shared_violated : ∃ ops, Is (history cfg0 9 start twice) 3 (.struct [([97], .array [.int 5]), ([98], .array [.int 5])]) ∧
    ops = [Op.push 2 nullAt] ∧ Is (history cfg0 9 (history cfg0 9 start twice) ops) 3 (.struct [([97], .array [.int 5, .null]), ([98], .array [.int 5, .null])]) :=
  ⟨_, ⟨3, rfl⟩, rfl, ⟨3, rfl⟩⟩

/-! ## C106: what is received -/

theorem R.made {p : Nat} {m m' : Mem} {b : HB} {tb : TreeBuilder.TB} (hi : Inv m) (h : R p m.next m' b tb) (hg : Grow p m.next m m') : Made p m m' b tb := by
  refine ⟨?_, h.methodName, h.errNum, h.errMsg, hg.ext hi, hg.pool.1, ?_⟩
  · have := R.data rfl h
    revert this
    cases TreeBuilder.data tb with
    | none =>
      cases b.ret with
      | none => exact fun _ => rfl
      | some _ => exact fun h => h.elim
    | some v =>
      cases b.ret with
      | none => exact fun h => h.elim
      | some x =>
        rintro ⟨F, hF⟩
        refine ⟨x, rfl, ⟨F, read_mono (only_sub _ _) F F x v (Nat.le_refl _) hF⟩, fun z hz => ?_⟩
        rcases read_only hz hF with e | ⟨e1, e2⟩
        · exact .inl e
        · refine .inr ⟨?_, e2⟩
          cases hn : m.node z with
          | none => rfl
          | some n => exact absurd (hi.below _ _ hn) (by omega)
  · obtain ⟨_, l, e, _⟩ := hg.pool
    exact ⟨l, e.symm⟩

theorem applyEvents_sim {cfg : Cfg} {p lo : Nat} : ∀ (es : List Event) {m : Mem} {b : HB} {tb : TreeBuilder.TB}, R p lo m b tb →
    ∃ m' b', applyEvents (builder cfg p) (m, b) es = ((m', b'), (applyEvents (TreeBuilder.builder cfg) tb es).2) ∧ R p lo m' b' (applyEvents (TreeBuilder.builder cfg) tb es).1 ∧ Grow p lo m m'
  | [], m, b, tb, h => ⟨m, b, rfl, h, .refl _⟩
  | e :: es, m, b, tb, h => by
    have hb := build_ok (cfg := cfg) h e
    cases he : TreeBuilder.build cfg tb e with
    | error x =>
      rw [he] at hb
      have e1 : (builder cfg p).build (m, b) e = .error x := hb
      have e2 : (TreeBuilder.builder cfg).build tb e = .error x := he
      refine ⟨m, b, ?_, ?_, .refl _⟩
      · simp [applyEvents, e1, e2]
      · simp only [applyEvents, e2]; exact h
    | ok tb' =>
      rw [he] at hb
      obtain ⟨m1, b1, g1, g2, g3⟩ := hb
      have e1 : (builder cfg p).build (m, b) e = .ok (m1, b1) := g1
      have e2 : (TreeBuilder.builder cfg).build tb e = .ok tb' := he
      obtain ⟨m2, b2, k1, k2, k3⟩ := applyEvents_sim es g2
      refine ⟨m2, b2, ?_, ?_, g3.trans k3⟩
      · simp only [applyEvents, e1, e2]; exact k1
      · simp only [applyEvents, e2]; exact k2

/-- **C106 (any calls).** At any time, for any calls of a builder: it makes the same tree as that of `Model/TreeBuilder` and throws the same. The tree is made of new objects that the pool owns (and the static null);
all objects there were are as they were. -/
theorem C106_built (cfg : Cfg) (depth : Nat) (ops : List Op) (p : Nat) (es : List Event) :
    let m := history cfg depth start ops
    let t := applyEvents (TreeBuilder.builder cfg) TreeBuilder.init es
    ∃ m' b', applyEvents (builder cfg p) (m, HB.init) es = ((m', b'), t.2) ∧ Made p m m' b' t.1 := by
  intro m t
  have hi : Inv m := Inv.reachable cfg depth ops
  obtain ⟨m', b', h1, h2, h3⟩ := applyEvents_sim (cfg := cfg) es (R.start (p := p) hi)
  exact ⟨m', b', h1, h2.made hi h3⟩

theorem applyEvents_stop {β} {B : Builder β} {b' : β} {e : Err} : ∀ (es : List Event) (rest : List Event) {b : β}, applyEvents B b es = (b', some e) → applyEvents B b (es ++ rest) = (b', some e)
  | [], _, b, h => by simp [applyEvents] at h
  | x :: es, rest, b, h => by
    simp only [List.cons_append]
    unfold applyEvents at h ⊢
    cases hb : B.build b x with
    | error y => rw [hb] at h; simpa using h
    | ok b1 => rw [hb] at h; exact applyEvents_stop (b := b1) es rest h

/-- What any builder is after any input. -/
theorem all_input {β} (B : Builder β) (req : Req) (b : β) (ps : List Bytes) :
    (unMarshallAll B req init b ps).2 = ((applyEvents B b (trace req ps)).1, ((applyEvents B b (trace req ps)).2.or (unMarshallAll traceBuilder req init [] ps).2.2)) := by
  rcases C04_any_builder B req b _ _ ps _ rfl with ⟨h1, h2⟩ | ⟨es, rest, e, h1, h2, h3⟩
  · rw [h1]
    refine Prod.ext rfl ?_
    rw [h2]; rfl
  · rw [h1, applyEvents_stop (b := b) es rest h2]
    exact Prod.ext rfl h3

/-- **C106 (any bytes).** So it is for any bytes in any pieces, given to the binary unmarshaller at any time. -/
theorem C106_received (cfg : Cfg) (depth : Nat) (ops : List Op) (p : Nat) (req : Req) (ps : List Bytes) :
    let m := history cfg depth start ops
    let t := unMarshallAll (TreeBuilder.builder cfg) req init TreeBuilder.init ps
    ∃ m' b', (unMarshallAll (builder cfg p) req init (m, HB.init) ps).2 = ((m', b'), t.2.2) ∧ Made p m m' b' t.2.1 := by
  intro m t
  obtain ⟨m', b', h1, h2⟩ := C106_built cfg depth ops p (trace req ps)
  refine ⟨m', b', ?_, ?_⟩
  · rw [all_input, h1, show t.2.2 = _ from congrArg Prod.snd (all_input (TreeBuilder.builder cfg) req TreeBuilder.init ps)]
  · rw [show t.2.1 = _ from congrArg Prod.fst (all_input (TreeBuilder.builder cfg) req TreeBuilder.init ps)]
    exact h2

/-- A response with `{a: [null, 5]}`, in two pieces, into the pool of other values. -/
example : (unMarshallAll (builder cfg0 1) .response init (history cfg0 9 start twice, HB.init) [[0xCA, 0x11, 2, 1, 0x70, 0x50, 1, 1], [97, 0x58, 2, 0x60, 0x38, 5]]).2.1.1.pool 1 = [1, 2, 3, 4, 5, 6] := by rfl
example : ((unMarshallAll (builder cfg0 1) .response init (history cfg0 9 start twice, HB.init) [[0xCA, 0x11, 2, 1, 0x70, 0x50, 1, 1], [97, 0x58, 2, 0x60, 0x38, 5]]).2.1.2.ret,
    (unMarshallAll (builder cfg0 1) .response init (history cfg0 9 start twice, HB.init) [[0xCA, 0x11, 2, 1, 0x70, 0x50, 1, 1], [97, 0x58, 2, 0x60, 0x38, 5]]).2.2) = (some 4, none) := by rfl
example : Is (unMarshallAll (builder cfg0 1) .response init (history cfg0 9 start twice, HB.init) [[0xCA, 0x11, 2, 1, 0x70, 0x50, 1, 1], [97, 0x58, 2, 0x60, 0x38, 5]]).2.1.1 4
    (.struct [([97], .array [.null, .int 5])]) := ⟨3, by rfl⟩

/-! ## C107: what can be walked -/

theorem acc_of_not_endless {m : Mem} {x : Nat} (h : ¬ Endless m x) : Acc (fun y x => Points m x y) x := by
  refine Classical.byContradiction (fun hn => h ⟨fun s => ¬ Acc (fun y x => Points m x y) s, hn, fun s hs => ?_⟩)
  refine Classical.byContradiction (fun hc => hs (Acc.intro s (fun y hy => ?_)))
  exact Classical.byContradiction (fun hy' => hc ⟨y, hy, hy'⟩)

theorem readItems_all {m : Mem} : ∀ (xs : List Nat), (∀ y ∈ xs, ∃ v, Is m y v) → ∃ F vs, readItems (read m F) xs = .ok vs
  | [], _ => ⟨0, [], rfl⟩
  | x :: xs, h => by
    obtain ⟨v, f, hf⟩ := h x (by simp)
    obtain ⟨F, vs, hF⟩ := readItems_all xs (fun y hy => h y (by simp [hy]))
    refine ⟨max f F, v :: vs, ?_⟩
    have h1 := read_mono (Ext.refl m) f (max f F) x v (Nat.le_max_left _ _) hf
    have h2 := readItems_mono (fun x v => read_mono (Ext.refl m) F (max f F) x v (Nat.le_max_right _ _)) _ _ hF
    simp [readItems, h1, h2]

theorem readMembers_all {m : Mem} : ∀ (xs : List (Bytes × Nat)), (∀ y ∈ xs.map (·.2), ∃ v, Is m y v) → ∃ F vs, readMembers (read m F) xs = .ok vs
  | [], _ => ⟨0, [], rfl⟩
  | (k, x) :: xs, h => by
    obtain ⟨v, f, hf⟩ := h x (by simp)
    obtain ⟨F, vs, hF⟩ := readMembers_all xs (fun y hy => h y (by simp only [List.map_cons, List.mem_cons]; exact .inr hy))
    refine ⟨max f F, (k, v) :: vs, ?_⟩
    have h1 := read_mono (Ext.refl m) f (max f F) x v (Nat.le_max_left _ _) hf
    have h2 := readMembers_mono (fun x v => read_mono (Ext.refl m) F (max f F) x v (Nat.le_max_right _ _)) _ _ hF
    simp [readMembers, h1, h2]

/-- **C107 (what is a tree).** Of any memory: a walk from a value ends well exactly if everything that is reached from it is alive and no endless path starts there. -/
theorem C107_walk (m : Mem) (x : Nat) : (∃ v, Is m x v) ↔ (∀ z, Reach m x z → m.node z ≠ none) ∧ ¬ Endless m x := by
  constructor
  · rintro ⟨v, h⟩
    refine ⟨fun z hz e => ?_, fun he => ?_⟩
    · obtain ⟨n, hn⟩ := is_alive h hz
      rw [e] at hn; cases hn
    · obtain ⟨f, hf⟩ := h
      exact read_endless f x v he hf
  · rintro ⟨hal, hne⟩
    have hacc := acc_of_not_endless hne
    clear hne
    induction hacc with
    | intro x _ ih =>
      cases hn : m.node x with
      | none => exact absurd hn (hal x (.refl _))
      | some n =>
        have ihc : ∀ y ∈ targets n, ∃ v, Is m y v := fun y hy => ih y ⟨n, hn, hy⟩ (fun z hz => hal z (.step ⟨n, hn, hy⟩ hz))
        cases n with
        | leaf v => exact ⟨v, 1, by simp [read, hn]⟩
        | secret y =>
          obtain ⟨v, f, hf⟩ := ihc y (by simp [targets])
          exact ⟨.secret v, f + 1, by simp [read, hn, hf]⟩
        | arr xs =>
          obtain ⟨F, vs, hF⟩ := readItems_all xs ihc
          exact ⟨.array vs, F + 1, by simp [read, hn, hF]⟩
        | str xs =>
          obtain ⟨F, vs, hF⟩ := readMembers_all xs ihc
          exact ⟨.struct vs, F + 1, by simp [read, hn, hF]⟩

example : ∃ v, Is (history cfg0 9 start twice) 3 v := ⟨_, 3, rfl⟩

/-- **C107 (endless).** From where an endless path of pointers starts, neither a walk nor `clone` comes to an end, however deep the recursion may go. -/
theorem C107_endless (cfg : Cfg) (depth : Nat) (ops : List Op) (x : Nat) (h : Endless (history cfg depth start ops) x) :
    (∀ d v, read (history cfg depth start ops) d x ≠ .ok v) ∧ ∀ p d y, (clone cfg p d x (history cfg depth start ops)).2 ≠ .ok y :=
  ⟨fun d v => read_endless d x v h, fun p d y => clone_endless cfg p d x y _ (Inv.reachable cfg depth ops) h⟩

/-- Any array that is appended to itself is one. -/
theorem C107_self (cfg : Cfg) (depth : Nat) (ops : List Op) (a : Nat) (items : List Nat) (h : (history cfg depth start ops).node a = some (.arr items)) :
    Endless (history cfg depth start (ops ++ [.push a a])) a := by
  have : history cfg depth start (ops ++ [.push a a]) = set a (.arr (items ++ [a])) (history cfg depth start ops) := by
    have e : history cfg depth start (ops ++ [.push a a]) = (push a a (history cfg depth start ops)).1 := by simp only [history, List.foldl_append]; rfl
    rw [e]
    simp only [push, h]
  rw [this]
  refine ⟨fun s => s = a, rfl, fun s hs => ⟨a, ⟨.arr (items ++ [a]), ?_, by simp [targets]⟩, rfl⟩⟩
  simp [set, hs]

example : Endless (history cfg0 9 start [.array 1 [], .push 1 1]) 1 := C107_self cfg0 9 [.array 1 []] 1 [] rfl

/-! ## Changes of a container -/

theorem no_cycle {m : Mem} {a y : Nat} {v : Value} (h : Is m a v) (hp : Points m a y) : ¬ Reach m y a := by
  intro hr
  obtain ⟨f, hf⟩ := h
  refine read_endless f a v ⟨fun s => Reach m s a, .refl _, fun s hs => ?_⟩ hf
  cases hs with
  | refl => exact ⟨y, hp, hr⟩
  | step h1 h2 => exact ⟨_, h1, h2⟩

theorem is_set {m : Mem} {a x : Nat} {v : Value} (n : Node) (h : Is m x v) (hr : ¬ Reach m x a) : Is (set a n m) x v := by
  obtain ⟨f, hf⟩ := h
  refine ⟨f, read_mono (only_sub _ _) f f x v (Nat.le_refl _) (read_frame hf (fun z k hz hk => ?_))⟩
  simp only [set]
  rw [if_neg (fun e : z = a => hr (by rw [← e]; exact hz))]
  exact hk

/-- Items, each of which is its tree. -/
def Are (m : Mem) : List Nat → List Value → Prop
  | [], [] => True
  | x :: xs, v :: vs => Is m x v ∧ Are m xs vs
  | _, _ => False

theorem are_items {m : Mem} : ∀ {xs : List Nat} {vs : List Value}, Are m xs vs → Items m xs vs
  | [], [], _ => ⟨0, rfl⟩
  | [], _ :: _, h => h.elim
  | _ :: _, [], h => h.elim
  | x :: xs, v :: vs, ⟨⟨f, hf⟩, h⟩ => by
    obtain ⟨F, hF⟩ := are_items h
    refine ⟨max f F, ?_⟩
    have h1 := read_mono (Ext.refl m) f (max f F) x v (Nat.le_max_left _ _) hf
    have h2 := readItems_mono (fun x v => read_mono (Ext.refl m) F (max f F) x v (Nat.le_max_right _ _)) _ _ hF
    simp [readItems, h1, h2]

theorem items_are {m : Mem} {F : Nat} : ∀ {xs : List Nat} {vs : List Value}, readItems (read m F) xs = .ok vs → Are m xs vs
  | [], vs, h => by simp only [readItems] at h; cases h; trivial
  | x :: xs, vs, h => by
    unfold readItems at h
    cases hx : read m F x with
    | error e => rw [hx] at h; cases h
    | ok v =>
      rw [hx] at h
      cases hxs : readItems (read m F) xs with
      | error e => rw [hxs] at h; cases h
      | ok ws =>
        rw [hxs] at h; cases h
        exact ⟨⟨F, hx⟩, items_are hxs⟩

theorem Are.set {m' : Mem} {y : Nat} {w : Value} (hy : Is m' y w) : ∀ {xs : List Nat} {vs : List Value} {i : Nat}, Are m' xs vs → Are m' (xs.set i y) (vs.set i w)
  | [], [], _, _ => trivial
  | [], _ :: _, _, h => h.elim
  | _ :: _, [], _, h => h.elim
  | x :: xs, v :: vs, 0, ⟨_, h⟩ => ⟨hy, h⟩
  | x :: xs, v :: vs, i + 1, ⟨h1, h⟩ => ⟨h1, h.set hy⟩

theorem Are.kept {m m' : Mem} : ∀ {xs : List Nat} {vs : List Value}, (∀ x ∈ xs, ∀ v, Is m x v → Is m' x v) → Are m xs vs → Are m' xs vs
  | [], [], _, _ => trivial
  | [], _ :: _, _, h => h.elim
  | _ :: _, [], _, h => h.elim
  | x :: xs, v :: vs, hk, ⟨h1, h⟩ => ⟨hk x (by simp) v h1, h.kept (fun y hy => hk y (by simp [hy]))⟩

theorem Are.length {m : Mem} : ∀ {xs : List Nat} {vs : List Value}, Are m xs vs → xs.length = vs.length
  | [], [], _ => rfl
  | [], _ :: _, h => h.elim
  | _ :: _, [], h => h.elim
  | x :: xs, v :: vs, ⟨_, h⟩ => by simp [h.length]

theorem is_arr {m : Mem} {a : Nat} {xs : List Nat} {vs : List Value} (hn : m.node a = some (.arr xs)) (h : Items m xs vs) : Is m a (.array vs) := by
  obtain ⟨F, hF⟩ := h
  exact ⟨F + 1, by simp [read, hn, hF]⟩

theorem is_str {m : Mem} {a : Nat} {xs : List (Bytes × Nat)} {vs : List (Bytes × Value)} (hn : m.node a = some (.str xs)) (h : Mems m xs vs) : Is m a (.struct vs) := by
  obtain ⟨F, hF⟩ := h
  exact ⟨F + 1, by simp [read, hn, hF]⟩

theorem arr_is {m : Mem} {a : Nat} {xs : List Nat} {v : Value} (hn : m.node a = some (.arr xs)) (h : Is m a v) : ∃ vs, v = .array vs ∧ Are m xs vs := by
  obtain ⟨f, hf⟩ := h
  cases f with
  | zero => cases hf
  | succ f =>
    unfold read at hf
    rw [hn] at hf
    simp only at hf
    cases hx : readItems (read m f) xs with
    | error e => rw [hx] at hf; cases hf
    | ok vs => rw [hx] at hf; cases hf; exact ⟨vs, rfl, items_are hx⟩

theorem str_is {m : Mem} {a : Nat} {xs : List (Bytes × Nat)} {v : Value} (hn : m.node a = some (.str xs)) (h : Is m a v) : ∃ vs, v = .struct vs ∧ ∃ F, readMembers (read m F) xs = .ok vs := by
  obtain ⟨f, hf⟩ := h
  cases f with
  | zero => cases hf
  | succ f =>
    unfold read at hf
    rw [hn] at hf
    simp only at hf
    cases hx : readMembers (read m f) xs with
    | error e => rw [hx] at hf; cases hf
    | ok vs => rw [hx] at hf; cases hf; exact ⟨vs, rfl, f, hx⟩

theorem Is.func {m : Mem} {x : Nat} {v w : Value} (h : Is m x v) (g : Is m x w) : v = w := by
  obtain ⟨f, hf⟩ := h
  obtain ⟨k, hk⟩ := g
  have h1 := read_mono (Ext.refl m) f (max f k) x v (Nat.le_max_left _ _) hf
  have h2 := read_mono (Ext.refl m) k (max f k) x w (Nat.le_max_right _ _) hk
  rw [h1] at h2; cases h2; rfl

/-- The members after a change of the struct that holds them. -/
theorem mems_kept {m : Mem} {a F : Nat} (n : Node) : ∀ {xs : List (Bytes × Nat)} {vs : List (Bytes × Value)}, (∀ y ∈ xs.map (·.2), ¬ Reach m y a) → readMembers (read m F) xs = .ok vs → Mems (set a n m) xs vs
  | [], vs, _, h => by simp only [readMembers] at h; cases h; exact ⟨0, rfl⟩
  | (k, x) :: xs, vs, hr, h => by
    unfold readMembers at h
    cases hx : read m F x with
    | error e => rw [hx] at h; cases h
    | ok v =>
      rw [hx] at h
      simp only at h
      cases hxs : readMembers (read m F) xs with
      | error e => rw [hxs] at h; cases h
      | ok ws =>
        rw [hxs] at h; cases h
        obtain ⟨G, hG⟩ := mems_kept (a := a) n (fun y hy => hr y (by simp only [List.map_cons, List.mem_cons]; exact .inr hy)) hxs
        obtain ⟨f, hf⟩ := is_set n ⟨F, hx⟩ (hr x (by simp))
        refine ⟨max f G, ?_⟩
        have h1 := read_mono (Ext.refl _) f (max f G) x v (Nat.le_max_left _ _) hf
        have h2 := readMembers_mono (fun x v => read_mono (Ext.refl _) G (max f G) x v (Nat.le_max_right _ _)) _ _ hG
        simp [readMembers, h1, h2]

/-- **C108 (arrays).** Of any memory: an array of a tree, and another value that is a tree from which the array is not reached. `append` and `replace` make it the array with that item at the end, in that place; other
values from which the array is not reached stay. A wrong index is refused, and nothing changes. -/
theorem C108_array (m : Mem) (cfg : Cfg) (depth a x : Nat) (items : List Nat) (vs : List Value) (v : Value) (hn : m.node a = some (.arr items)) (ha : Is m a (.array vs)) (hx : Is m x v)
    (hr : ¬ Reach m x a) :
    Is (step cfg depth m (.push a x)).1 a (.array (vs ++ [v])) ∧
    (∀ i, i < vs.length → Is (step cfg depth m (.replace a i x)).1 a (.array (vs.set i v))) ∧
    (∀ i, vs.length ≤ i → step cfg depth m (.replace a i x) = (m, .error .index)) ∧
    Is (step cfg depth m (.clear a)).1 a (.array []) ∧
    ∀ op, op = .push a x ∨ (∃ i, op = .replace a i x) ∨ op = .clear a → ∀ y w, ¬ Reach m y a → Is m y w → Is (step cfg depth m op).1 y w := by
  obtain ⟨vs', e, har⟩ := arr_is hn ha
  cases e
  have hit : ∀ n, Are (set a n m) items vs := fun n => har.kept (fun y hy w hw => is_set n hw (no_cycle ha ⟨_, hn, hy⟩))
  have hself : ∀ n, (set a n m).node a = some n := fun n => by simp [set]
  refine ⟨?_, fun i hi => ?_, fun i hi => ?_, ?_, ?_⟩
  · simp only [step, push, hn]
    obtain ⟨F, hF⟩ := is_set (.arr (items ++ [x])) hx hr
    exact is_arr (hself _) ((are_items (hit _)).add hF)
  · simp only [step, replace, hn]
    rw [if_neg (by rw [har.length]; omega)]
    exact is_arr (hself _) (are_items ((hit _).set (is_set _ hx hr)))
  · simp only [step, replace, hn]
    rw [if_pos (by rw [har.length]; omega)]
  · simp only [step, clear, hn]
    exact is_arr (hself _) ⟨0, rfl⟩
  · intro op hop y w hy hw
    have key : ∃ n, (step cfg depth m op).1 = set a n m ∨ (step cfg depth m op).1 = m := by
      rcases hop with rfl | ⟨i, rfl⟩ | rfl
      · exact ⟨_, .inl (by simp only [step, push, hn]; rfl)⟩
      · simp only [step, replace, hn]
        split
        · exact ⟨.arr [], .inr rfl⟩
        · exact ⟨_, .inl rfl⟩
      · exact ⟨_, .inl (by simp only [step, clear, hn]; rfl)⟩
    obtain ⟨n, e | e⟩ := key
    · rw [e]; exact is_set n hw hy
    · rw [e]; exact hw

example : Is (step cfg0 9 (history cfg0 9 start twice) (.push 2 nullAt)).1 2 (.array ([.int 5] ++ [.null])) := by
  have hr : ¬ Reach (history cfg0 9 start twice) nullAt 2 := by
    intro h
    cases h with
    | step hp _ =>
      obtain ⟨n, hn, hy⟩ := hp
      have e : (history cfg0 9 start twice).node nullAt = some (.leaf .null) := rfl
      rw [e] at hn; cases hn
      simp [targets] at hy
  exact (C108_array _ cfg0 9 2 nullAt [1] [.int 5] .null rfl ⟨2, rfl⟩ ⟨1, rfl⟩ hr).1

theorem smap_erase {F : Nat} {m : Mem} (k : Bytes) : ∀ {xs : List (Bytes × Nat)} {vs : List (Bytes × Value)}, readMembers (read m F) xs = .ok vs → readMembers (read m F) (SMap.erase k xs).1 = .ok (SMap.erase k vs).1 ∧ (SMap.erase k xs).2 = (SMap.erase k vs).2
  | [], vs, h => by simp only [readMembers] at h; cases h; exact ⟨rfl, rfl⟩
  | (k', x) :: xs, vs, h => by
    unfold readMembers at h
    cases hx : read m F x with
    | error e => rw [hx] at h; cases h
    | ok v =>
      rw [hx] at h
      simp only at h
      cases hxs : readMembers (read m F) xs with
      | error e => rw [hxs] at h; cases h
      | ok ws =>
        rw [hxs] at h; cases h
        have ih := smap_erase k hxs
        simp only [SMap.erase]
        by_cases c : k = k'
        · simp only [if_pos c]; exact ⟨hxs, trivial⟩
        · simp only [if_neg c, readMembers, hx, ih.1, ih.2]; trivial

/-- **C108 (structs).** So it is for structs and `append`, `insert`, `erase` and `clear`, which do what C36 says; a name of more than 255 bytes is refused by `append`, and nothing changes. -/
theorem C108_struct (m : Mem) (cfg : Cfg) (depth s x : Nat) (members : List (Bytes × Nat)) (vs : List (Bytes × Value)) (v : Value) (k : Bytes) (hn : m.node s = some (.str members)) (hs : Is m s (.struct vs)) (hx : Is m x v)
    (hr : ¬ Reach m x s) :
    (k.length ≤ 255 → Is (step cfg depth m (.append s k x)).1 s (.struct (SMap.append k v vs))) ∧
    (255 < k.length → step cfg depth m (.append s k x) = (m, .error .len)) ∧
    Is (step cfg depth m (.insert s k x)).1 s (.struct (SMap.insert k v vs).1) ∧
    Is (step cfg depth m (.erase s k)).1 s (.struct (SMap.erase k vs).1) ∧
    Is (step cfg depth m (.clear s)).1 s (.struct []) ∧
    ∀ op, op = .append s k x ∨ op = .insert s k x ∨ op = .erase s k ∨ op = .clear s → ∀ y w, ¬ Reach m y s → Is m y w → Is (step cfg depth m op).1 y w := by
  obtain ⟨vs', e, F, hF⟩ := str_is hn hs
  cases e
  have hno : ∀ y ∈ members.map (·.2), ¬ Reach m y s := fun y hy => no_cycle hs ⟨_, hn, hy⟩
  have hit : ∀ n, Mems (set s n m) members vs := fun n => mems_kept n hno hF
  have hself : ∀ n, (set s n m).node s = some n := fun n => by simp [set]
  refine ⟨fun hk => ?_, fun hk => ?_, ?_, ?_, ?_, ?_⟩
  · have e : ¬ k.length > 255 := by omega
    simp only [step, append, hn, SMap.appendChecked, if_neg e]
    obtain ⟨G, hG⟩ := is_set (.str (SMap.append k x members)) hx hr
    exact is_str (hself _) ((hit _).add hG)
  · simp only [step, append, hn, SMap.appendChecked, if_pos hk]
  · simp only [step, insert, hn]
    obtain ⟨G, hG⟩ := is_set (.str (SMap.insert k x members).1) hx hr
    obtain ⟨H, hH⟩ := hit (.str (SMap.insert k x members).1)
    exact is_str (hself _) ⟨max G H, (readMembers_insert (read_mono (Ext.refl _) G (max G H) x v (Nat.le_max_left _ _) hG)
      (readMembers_mono (fun x v => read_mono (Ext.refl _) H (max G H) x v (Nat.le_max_right _ _)) _ _ hH)).1⟩
  · simp only [step, erase, hn]
    obtain ⟨H, hH⟩ := hit (.str (SMap.erase k members).1)
    exact is_str (hself _) ⟨H, (smap_erase k hH).1⟩
  · simp only [step, clear, hn]
    exact is_str (hself _) ⟨0, rfl⟩
  · intro op hop y w hy hw
    have key : ∃ n, (step cfg depth m op).1 = set s n m ∨ (step cfg depth m op).1 = m := by
      rcases hop with rfl | rfl | rfl | rfl
      · simp only [step, append, hn]
        split
        · exact ⟨_, .inl rfl⟩
        · exact ⟨.arr [], .inr rfl⟩
      · exact ⟨_, .inl (by simp only [step, insert, hn]; rfl)⟩
      · exact ⟨_, .inl (by simp only [step, erase, hn]; rfl)⟩
      · exact ⟨_, .inl (by simp only [step, clear, hn]; rfl)⟩
    obtain ⟨n, e | e⟩ := key
    · rw [e]; exact is_set n hw hy
    · rw [e]; exact hw

example : Is (step cfg0 9 (history cfg0 9 start twice) (.append 3 [97] nullAt)).1 3 (.struct (SMap.append [97] .null [([97], .array [.int 5]), ([98], .array [.int 5])])) := by
  have hr : ¬ Reach (history cfg0 9 start twice) nullAt 3 := by
    intro h
    cases h with
    | step hp _ =>
      obtain ⟨n, hn, hy⟩ := hp
      have e : (history cfg0 9 start twice).node nullAt = some (.leaf .null) := rfl
      rw [e] at hn; cases hn
      simp [targets] at hy
  exact (C108_struct _ cfg0 9 3 nullAt _ _ .null [97] rfl ⟨3, rfl⟩ ⟨1, rfl⟩ hr).1 (by decide)

theorem members_spec (ms acc : List (Bytes × Nat)) (hs : Frpc.Sorted acc) :
    Frpc.Sorted (ms.foldl (fun a km => (SMap.insert km.1 km.2 a).1) acc) ∧
    ∀ k, SMap.find? k (ms.foldl (fun a km => (SMap.insert km.1 km.2 a).1) acc) = SMap.find? k (acc ++ ms) := by
  induction ms generalizing acc with
  | nil => exact ⟨hs, fun k => by simp⟩
  | cons km ms ih =>
    obtain ⟨i1, i2, _⟩ := Frpc.insert_spec km.1 km.2 acc hs
    obtain ⟨h1, h2⟩ := ih (SMap.insert km.1 km.2 acc).1 i2
    refine ⟨h1, fun k => ?_⟩
    rw [List.foldl_cons, h2]
    have app : ∀ (a b : List (Bytes × Nat)), SMap.find? k (a ++ b) = match SMap.find? k a with | some v => some v | none => SMap.find? k b := by
      intro a b
      induction a with
      | nil => rfl
      | cons x a iha =>
        simp only [List.cons_append, SMap.find?]
        by_cases c : k = x.1
        · simp only [if_pos c]
        · simp only [if_neg c]; exact iha
    rw [app, app, i1]
    by_cases c : k = km.1
    · subst c
      cases hf : SMap.find? km.1 acc with
      | none => simp [SMap.find?]
      | some v => simp
    · simp only [c, false_and, if_false]
      cases hf : SMap.find? k acc with
      | none => simp only [SMap.find?, if_neg c]
      | some v => rfl

/-- **C108 (a struct of given members).** `Pool_t::Struct(key1, item1, key2, item2, ...)`, and `to_struct` of the converters, make a struct in which every name, however long, has the item that was given with it FIRST (`append`
would keep the last and refuse long names); its names are those given, in order. -/
theorem C108_struct_of (cfg : Cfg) (depth p : Nat) (m : Mem) (ms : List (Bytes × Nat)) :
    ∃ members, (step cfg depth m (.struct p ms)).1.node m.next = some (.str members) ∧ (step cfg depth m (.struct p ms)).2 = .ok m.next ∧
      Frpc.Sorted members ∧ ∀ k, SMap.find? k members = SMap.find? k ms := by
  obtain ⟨h1, h2⟩ := members_spec ms [] (by simp [Frpc.Sorted])
  exact ⟨members ms, by simp [step, alloc], rfl, h1, fun k => by simpa [members] using h2 k⟩

/-- Two items with one name: the first is there. With `append` it would be the last. -/
example : members [([97], 1), ([98], 2), ([97], 3)] = [([97], 1), ([98], 2)] ∧ SMap.append [97] 3 [([97], 1), ([98], 2)] = [([97], 3), ([98], 2)] := by decide

end Heap
end Frpc
