import Verif.Model.Subscript
/-!
# C155: subscripts of values
-/
namespace Frpc

namespace SubscriptSpec
open Subscript

/-- A value is found in a tree by numbers of items and names of members. -/
inductive At : Value → List Step → Value → Prop
  | here (v : Value) : At v [] v
  | item {vs : List Value} {i : Nat} {v w : Value} {p : List Step} : vs[i]? = some v → At v p w → At (.array vs) (.idx i :: p) w
  | member {ms : List (Bytes × Value)} {k : Bytes} {v w : Value} {p : List Step} : (k, v) ∈ ms → At v p w → At (.struct ms) (.key k :: p) w

/-- The names in each struct of the tree are different, as they are in a `std::map`. -/
def Maps (v : Value) : Prop := ∀ p ms, At v p (.struct ms) → (ms.map (·.1)).Nodup

/-- Why there is nothing at a place of a value. -/
inductive Fails : Value → Step → Err → Prop
  | outside {vs : List Value} {i : Nat} : vs.length ≤ i → Fails (.array vs) (.idx i) .index
  | unknown {ms : List (Bytes × Value)} {k : Bytes} : (∀ v, (k, v) ∉ ms) → Fails (.struct ms) (.key k) .key
  | noArray {v : Value} {i : Nat} : (∀ vs, v ≠ .array vs) → Fails v (.idx i) .type
  | noStruct {v : Value} {k : Bytes} : (∀ ms, v ≠ .struct ms) → Fails v (.key k) .type

end SubscriptSpec
open Subscript SubscriptSpec

namespace Subscript

theorem find_mem {ms : List (Bytes × Value)} {k : Bytes} {v : Value} (h : SMap.find? k ms = some v) : (k, v) ∈ ms := by
  induction ms with
  | nil => cases h
  | cons m ms ih =>
    obtain ⟨k', v'⟩ := m
    rw [SMap.find?] at h
    by_cases hk : k = k'
    · rw [if_pos hk] at h
      cases h
      rw [hk]
      exact List.mem_cons_self
    · rw [if_neg hk] at h
      exact List.mem_cons_of_mem _ (ih h)

theorem find_none {ms : List (Bytes × Value)} {k : Bytes} (h : SMap.find? k ms = none) (v : Value) : (k, v) ∉ ms := by
  induction ms with
  | nil => simp
  | cons m ms ih =>
    obtain ⟨k', v'⟩ := m
    rw [SMap.find?] at h
    by_cases hk : k = k'
    · rw [if_pos hk] at h; cases h
    · rw [if_neg hk] at h
      intro hm
      rcases List.mem_cons.1 hm with e | hm
      · cases e; exact hk rfl
      · exact ih h hm

theorem mem_find {ms : List (Bytes × Value)} {k : Bytes} {v : Value} (hn : (ms.map (·.1)).Nodup) (h : (k, v) ∈ ms) : SMap.find? k ms = some v := by
  induction ms with
  | nil => cases h
  | cons m ms ih =>
    obtain ⟨k', v'⟩ := m
    rw [List.map_cons, List.nodup_cons] at hn
    rw [SMap.find?]
    rcases List.mem_cons.1 h with e | hm
    · cases e; rw [if_pos rfl]
    · have hk : k ≠ k' := fun e => hn.1 (e ▸ List.mem_map_of_mem (f := (·.1)) hm)
      rw [if_neg hk]
      exact ih hn.2 hm

theorem arr_ok {vs : List Value} {i : Nat} {v : Value} : Arr.index vs i = .ok v ↔ vs[i]? = some v := by
  unfold Arr.index
  by_cases h : i ≥ vs.length
  · rw [if_pos h, List.getElem?_eq_none h]
    simp
  · rw [if_neg h]
    cases hv : vs[i]? with
    | none => simp
    | some w => simp

theorem arr_error {vs : List Value} {i : Nat} {e : Err} (h : Arr.index vs i = .error e) : e = .index ∧ vs.length ≤ i := by
  unfold Arr.index at h
  by_cases hi : i ≥ vs.length
  · rw [if_pos hi] at h; cases h; exact ⟨rfl, hi⟩
  · rw [if_neg hi, List.getElem?_eq_getElem (by omega)] at h
    cases h

theorem smap_ok {ms : List (Bytes × Value)} {k : Bytes} {v : Value} : SMap.index k ms = .ok v ↔ SMap.find? k ms = some v := by
  unfold SMap.index
  cases h : SMap.find? k ms <;> simp

theorem smap_error {ms : List (Bytes × Value)} {k : Bytes} {e : Err} (h : SMap.index k ms = .error e) : e = .key ∧ SMap.find? k ms = none := by
  unfold SMap.index at h
  cases hf : SMap.find? k ms with
  | none => rw [hf] at h; cases h; exact ⟨rfl, rfl⟩
  | some v => rw [hf] at h; cases h

theorem step_error {v : Value} {s : Step} {e : Err} (h : subscript v s = .error e) : Fails v s e := by
  unfold subscript at h
  split at h
  · obtain ⟨rfl, hl⟩ := arr_error h; exact .outside hl
  · obtain ⟨rfl, hl⟩ := smap_error h; exact .unknown (find_none hl)
  · rename_i h1 h2
    cases h
    cases s with
    | idx i => exact .noArray fun vs e => h1 vs i e rfl
    | key k => exact .noStruct fun ms e => h2 ms k e rfl

theorem step_ok {v w : Value} {s : Step} (h : subscript v s = .ok w) : At v [s] w := by
  unfold subscript at h
  split at h
  · exact .item (arr_ok.1 h) (.here w)
  · exact .member (find_mem (smap_ok.1 h)) (.here w)
  · cases h

theorem At.cons {v w u : Value} {s : Step} {p : List Step} (h : At v [s] w) (hp : At w p u) : At v (s :: p) u := by
  cases h with
  | item h h' => cases h'; exact .item h hp
  | member h h' => cases h'; exact .member h hp

theorem maps_step {v w : Value} {s : Step} (hv : Maps v) (h : At v [s] w) : Maps w := fun p ms hp => hv (s :: p) ms (At.cons h hp)

theorem ok_step {v w : Value} {s : Step} (hv : Maps v) (h : At v [s] w) : subscript v s = .ok w := by
  cases h with
  | item h h' => cases h'; exact arr_ok.2 h
  | member h h' => cases h'; exact smap_ok.2 (mem_find (hv [] _ (.here _)) h)

theorem at_cons {v u : Value} {s : Step} {p : List Step} (h : At v (s :: p) u) : ∃ w, At v [s] w ∧ At w p u := by
  cases h with
  | item h hp => exact ⟨_, .item h (.here _), hp⟩
  | member h hp => exact ⟨_, .member h (.here _), hp⟩

theorem fails_step {v : Value} {s : Step} {e : Err} (h : Fails v s e) : subscript v s = .error e := by
  cases h with
  | outside h => simp [subscript, Arr.index, h]
  | @unknown ms k h =>
    show SMap.index k ms = _
    unfold SMap.index
    cases hf : SMap.find? k ms with
    | none => rfl
    | some w => exact absurd (find_mem hf) (h w)
  | noArray h =>
    unfold subscript
    split
    · rename_i vs _ _; exact absurd rfl (h vs)
    · rename_i e; cases e
    · rfl
  | noStruct h =>
    unfold subscript
    split
    · rename_i e; cases e
    · rename_i ms _ _; exact absurd rfl (h ms)
    · rfl

theorem walk_append (v : Value) (p q : List Step) : walk v (p ++ q) = match walk v p with | .ok w => walk w q | .error e => .error e := by
  induction p generalizing v with
  | nil => rfl
  | cons s p ih =>
    rw [List.cons_append, walk, walk]
    cases subscript v s with
    | error e => rfl
    | ok w => exact ih w

end Subscript

/-- **C155.** Subscripts one after another give a value just if it is there in the tree. -/
theorem C155_found (v : Value) (hv : Maps v) (p : List Step) (w : Value) : walk v p = .ok w ↔ At v p w := by
  constructor
  · intro h
    clear hv
    induction p generalizing v with
    | nil => cases h; exact .here _
    | cons s p ih =>
      rw [walk] at h
      cases hs : subscript v s with
      | error e => rw [hs] at h; cases h
      | ok u => rw [hs] at h; exact At.cons (step_ok hs) (ih u h)
  · intro h
    induction p generalizing v with
    | nil => cases h; rfl
    | cons s p ih =>
      obtain ⟨u, h1, h2⟩ := at_cons h
      rw [walk, ok_step hv h1]
      exact ih u (maps_step hv h1) h2

/-- **C155 (exceptions).** Otherwise there is the exception for the first step that leads nowhere: an index out of range, an unknown name, or a value that is not a container of that kind. -/
theorem C155_error (v : Value) (hv : Maps v) (p : List Step) (e : Err) : walk v p = .error e ↔ ∃ pre s post w, p = pre ++ s :: post ∧ At v pre w ∧ Fails w s e := by
  constructor
  · intro h
    clear hv
    induction p generalizing v with
    | nil => cases h
    | cons s p ih =>
      rw [walk] at h
      cases hs : subscript v s with
      | error e' =>
        rw [hs] at h
        cases h
        exact ⟨[], s, p, v, rfl, .here v, step_error hs⟩
      | ok u =>
        rw [hs] at h
        obtain ⟨pre, s', post, w, rfl, ha, hf⟩ := ih u h
        exact ⟨s :: pre, s', post, w, rfl, At.cons (step_ok hs) ha, hf⟩
  · rintro ⟨pre, s, post, w, rfl, ha, hf⟩
    rw [walk_append, (C155_found v hv pre w).2 ha]
    show walk w (s :: post) = _
    rw [walk, fails_step hf]

/-- **C155 (one value).** There is one value at most at a place, so that a walk is determined by the tree alone. -/
theorem C155_unique (v : Value) (hv : Maps v) (p : List Step) {w w' : Value} (h : At v p w) (h' : At v p w') : w = w' := by
  have e := ((C155_found v hv p w).2 h).symm.trans ((C155_found v hv p w').2 h')
  injection e

/-- **C155 (secrets).** What is in a secret is not reached by subscripts: any of them throws. -/
theorem C155_secret (v : Value) (s : Step) (p : List Step) : walk (.secret v) (s :: p) = .error .type := by
  cases s <;> rfl

namespace Subscript
/-- A tree for the examples. -/
def tree : Value := .array [.int 1, .struct [(asc "a", .array [.bool true]), (asc "b", .null)]]
end Subscript
example : Maps tree := by
  intro p ms h
  unfold tree at h
  cases h with
  | item h1 h2 =>
    rename_i i v p
    match i, h1 with
    | 0, h1 => cases h1; cases h2
    | 1, h1 =>
      cases h1
      cases h2 with
      | here => decide
      | member hm h3 =>
        simp only [List.mem_cons, Prod.mk.injEq, List.not_mem_nil, or_false] at hm
        rcases hm with ⟨rfl, rfl⟩ | ⟨rfl, rfl⟩
        · cases h3 with
          | item h4 h5 =>
            rename_i j v p
            match j, h4 with
            | 0, h4 => cases h4; cases h5
        · cases h3
example : walk tree [.idx 1, .key (asc "a"), .idx 0] = .ok (.bool true) := rfl
example : walk tree [.idx 1, .key (asc "c"), .idx 0] = .error .key := rfl
example : walk tree [.idx 2] = .error .index := rfl
example : walk tree [.idx 0, .idx 0] = .error .type := rfl

end Frpc
