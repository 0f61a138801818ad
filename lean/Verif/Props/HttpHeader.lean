import Verif.Spec.HttpHeader
/-!
# HTTP header store: C40
-/
namespace Frpc
open Spec
namespace HttpHeader

theorem lower_polishLoop (b : Bool) (s : Bytes) : lower (polishLoop b s) = lower s := by
  induction s generalizing b with
  | nil => rfl
  | cons c s ih =>
    simp only [polishLoop, lower, List.map_cons] at ih ⊢
    rw [ih]
    congr 1
    split
    · split
      · exact toLower_toLower c
      · exact toLower_toUpper c
    · rfl

theorem polishLoop_lower (b : Bool) (s : Bytes) : polishLoop b (lower s) = polishLoop b s := by
  induction s generalizing b with
  | nil => rfl
  | cons c s ih =>
    simp only [polishLoop, lower, List.map_cons, isAlnum_toLower] at ih ⊢
    rw [ih]
    congr 1
    by_cases h : isAlnum c = true
    · simp only [h, if_true, toLower_toLower, toUpper_toLower]
    · rw [if_neg h, if_neg h, toLower_other (by simpa using h)]

theorem polish_iff (a b : Bytes) : polishName a = polishName b ↔ lower a = lower b := by
  unfold polishName
  constructor
  · intro h; rw [← lower_polishLoop false a, h, lower_polishLoop]
  · intro h; rw [← polishLoop_lower, h, polishLoop_lower]

theorem getLoop_eq (name : Bytes) (i : Nat) (h : Fields) (k : Nat) (hk : k ≤ i) :
    getLoop name i k h = (getListLoop name h)[i - k]? := by
  induction h generalizing k with
  | nil => simp [getLoop, getListLoop]
  | cons f h ih =>
    obtain ⟨n, v⟩ := f
    simp only [getLoop, getListLoop]
    split
    · split
      · next h1 => subst h1; simp
      · rw [ih _ (by omega)]
        obtain ⟨j, hj⟩ : ∃ j, i - k = j + 1 := ⟨i - k - 1, by omega⟩
        rw [hj, List.getElem?_cons_succ]; congr 1; omega
    · exact ih _ hk

theorem setLoop_eq (name v : Bytes) (i : Nat) (h : Fields) (k : Nat) (hk : k ≤ i) :
    (setLoop name v i k h = none → (getListLoop name h).length ≤ i - k) ∧
    (∀ h', setLoop name v i k h = some h' → i - k < (getListLoop name h).length ∧
      getListLoop name h' = (getListLoop name h).set (i - k) v ∧ ∀ m, m ≠ name → getListLoop m h' = getListLoop m h) := by
  induction h generalizing k with
  | nil => simp [setLoop, getListLoop]
  | cons f h ih =>
    obtain ⟨n, w⟩ := f
    simp only [setLoop, getListLoop]
    split
    · next hn =>
      subst hn
      split
      · next h1 =>
        subst h1
        refine ⟨by simp, ?_⟩
        rintro h' ⟨⟩
        refine ⟨by simp, by simp [getListLoop], ?_⟩
        intro m hm; simp [getListLoop, hm]
      · obtain ⟨i1, i2⟩ := ih (k + 1) (by omega)
        simp only [Option.map_eq_none_iff, Option.map_eq_some_iff, List.length_cons]
        refine ⟨fun hh => by have := i1 hh; omega, ?_⟩
        rintro h' ⟨h'', hs, rfl⟩
        obtain ⟨a, b, c⟩ := i2 h'' hs
        obtain ⟨j, hj⟩ : ∃ j, i - k = j + 1 := ⟨i - k - 1, by omega⟩
        have hj2 : i - (k + 1) = j := by omega
        rw [hj2] at a b
        refine ⟨by omega, by simp [getListLoop, hj, b], ?_⟩
        intro m hm; simp [getListLoop, hm, c m hm]
    · next hn =>
      obtain ⟨i1, i2⟩ := ih k hk
      simp only [Option.map_eq_none_iff, Option.map_eq_some_iff]
      refine ⟨i1, ?_⟩
      rintro h' ⟨h'', hs, rfl⟩
      obtain ⟨a, b, c⟩ := i2 h'' hs
      refine ⟨a, by simp [getListLoop, hn, b], ?_⟩
      intro m hm; simp [getListLoop, c m hm]

theorem removeLoop_eq (name : Bytes) (i : Nat) (h : Fields) (k : Nat) (hk : k ≤ i) :
    (removeLoop name i k h = none → (getListLoop name h).length ≤ i - k) ∧
    (∀ h', removeLoop name i k h = some h' → i - k < (getListLoop name h).length ∧
      getListLoop name h' = (getListLoop name h).eraseIdx (i - k) ∧ ∀ m, m ≠ name → getListLoop m h' = getListLoop m h) := by
  induction h generalizing k with
  | nil => simp [removeLoop, getListLoop]
  | cons f h ih =>
    obtain ⟨n, w⟩ := f
    simp only [removeLoop, getListLoop]
    split
    · next hn =>
      subst hn
      split
      · next h1 =>
        subst h1
        refine ⟨by simp, ?_⟩
        rintro h' ⟨⟩
        refine ⟨by simp, by simp, ?_⟩
        intro m hm; simp [hm]
      · obtain ⟨i1, i2⟩ := ih (k + 1) (by omega)
        simp only [Option.map_eq_none_iff, Option.map_eq_some_iff, List.length_cons]
        refine ⟨fun hh => by have := i1 hh; omega, ?_⟩
        rintro h' ⟨h'', hs, rfl⟩
        obtain ⟨a, b, c⟩ := i2 h'' hs
        obtain ⟨j, hj⟩ : ∃ j, i - k = j + 1 := ⟨i - k - 1, by omega⟩
        have hj2 : i - (k + 1) = j := by omega
        rw [hj2] at a b
        refine ⟨by omega, by simp [getListLoop, hj, b], ?_⟩
        intro m hm; simp [getListLoop, hm, c m hm]
    · next hn =>
      obtain ⟨i1, i2⟩ := ih k hk
      simp only [Option.map_eq_none_iff, Option.map_eq_some_iff]
      refine ⟨i1, ?_⟩
      rintro h' ⟨h'', hs, rfl⟩
      obtain ⟨a, b, c⟩ := i2 h'' hs
      refine ⟨a, by simp [getListLoop, hn, b], ?_⟩
      intro m hm; simp [getListLoop, c m hm]

theorem getListLoop_append (name : Bytes) (a b : Fields) : getListLoop name (a ++ b) = getListLoop name a ++ getListLoop name b := by
  induction a with
  | nil => rfl
  | cons f a ih =>
    obtain ⟨n, v⟩ := f
    simp only [List.cons_append, getListLoop, ih]
    split <;> rfl

theorem step_values (h : Fields) (op : Op) (name : Bytes) : getList (step h op) name = headerStep (lower name) (getList h name) op := by
  unfold getList
  cases op with
  | add n v =>
    simp only [step, add, getListLoop_append, getListLoop, headerStep, polish_iff]
    by_cases hn : lower n = lower name
    · simp [hn]
    · simp [hn, Ne.symm hn]
  | set n v c i =>
    simp only [step, set, headerStep]
    obtain ⟨h1, h2⟩ := setLoop_eq (polishName n) v i h 0 (by omega)
    by_cases hn : lower n = lower name
    · rw [if_pos hn, ← (polish_iff n name).2 hn]
      split
      · next h' hs =>
        obtain ⟨a, b, -⟩ := h2 h' hs
        rw [if_pos (by simpa using a), b]; rfl
      · next hs =>
        have := h1 hs
        have hle : ¬ i < (getListLoop (polishName n) h).length := by omega
        simp only [hle, if_false]
        split
        · simp [getListLoop_append, getListLoop]
        · rfl
    · have hp : polishName name ≠ polishName n := fun hh => hn ((polish_iff _ _).1 hh).symm
      rw [if_neg hn]
      split
      · next h' hs => exact (h2 h' hs).2.2 _ hp
      · split
        · simp [getListLoop_append, getListLoop, hp]
        · rfl
  | remove n i =>
    simp only [step, remove, headerStep]
    obtain ⟨h1, h2⟩ := removeLoop_eq (polishName n) i h 0 (by omega)
    by_cases hn : lower n = lower name
    · rw [if_pos hn, ← (polish_iff n name).2 hn]
      split
      · next h' hs => exact (h2 h' hs).2.1
      · next hs =>
        have := h1 hs
        rw [List.eraseIdx_of_length_le (by omega)]
    · have hp : polishName name ≠ polishName n := fun hh => hn ((polish_iff _ _).1 hh).symm
      rw [if_neg hn]
      split
      · next h' hs => exact (h2 h' hs).2.2 _ hp
      · rfl

end HttpHeader
open HttpHeader

/-- C40: after any sequence of add, set and remove, `get` with any letter case returns the
index-th of the values the calls left under that name, case ignored, and `getList` all of them in
order. -/
theorem C40_header_multimap (ops : List HttpHeader.Op) (name : Bytes) :
    getList (HttpHeader.history ops) name = headerValues (lower name) ops ∧
    ∀ i, HttpHeader.get (HttpHeader.history ops) name i = (headerValues (lower name) ops)[i]? := by
  have key : getList (HttpHeader.history ops) name = headerValues (lower name) ops := by
    suffices h : ∀ (h : Fields) (vs : List Bytes), getList h name = vs →
        getList (ops.foldl HttpHeader.step h) name = ops.foldl (headerStep (lower name)) vs from h [] [] rfl
    induction ops with
    | nil => intro h vs hv; exact hv
    | cons op ops ih =>
      intro h vs hv
      simp only [List.foldl_cons]
      exact ih _ _ (by rw [step_values, hv])
  refine ⟨key, fun i => ?_⟩
  rw [← key]
  exact getLoop_eq _ i _ 0 (by omega)

/-- C40: `remove` answers 0 exactly when there was a value to remove, -1 otherwise. -/
theorem C40_remove_result (ops : List HttpHeader.Op) (name : Bytes) (i : Nat) :
    (HttpHeader.remove (HttpHeader.history ops) name i).2 = if i < (headerValues (lower name) ops).length then 0 else -1 := by
  rw [← (C40_header_multimap ops name).1]
  unfold HttpHeader.remove getList
  obtain ⟨h1, h2⟩ := removeLoop_eq (polishName name) i (HttpHeader.history ops) 0 (by omega)
  split
  · next h' hs => rw [if_pos]; exact (h2 h' hs).1
  · next hs =>
    have := h1 hs
    rw [if_neg (by omega)]

/-- C40: appending to the last field (continuation lines) is an error on an empty header and
changes nothing but the value of the field added last. -/
theorem C40_append_value (h : Fields) (name v extra : Bytes) :
    appendValue [] extra = .error .http ∧
    (∃ h', appendValue (HttpHeader.add h name v) extra = .ok h' ∧ h' = HttpHeader.add h name (v ++ extra)) := by
  refine ⟨rfl, _, ?_, rfl⟩
  simp [appendValue, HttpHeader.add]

example : getList (HttpHeader.history [.add (asc "cookie") (asc "a"), .add (asc "HOST") (asc "h"), .add (asc "Cookie") (asc "b"),
    .set (asc "COOKIE") (asc "c") false 1, .set (asc "x-y") (asc "z") true 0, .remove (asc "host") 0]) (asc "CooKie") = [asc "a", asc "c"] := by
  decide +kernel
example : headerValues (lower (asc "CooKie")) [.add (asc "cookie") (asc "a"), .add (asc "HOST") (asc "h"), .add (asc "Cookie") (asc "b"),
    .set (asc "COOKIE") (asc "c") false 1] = [asc "a", asc "c"] := by decide +kernel

end Frpc
