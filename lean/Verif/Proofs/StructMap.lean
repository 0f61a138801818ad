import Verif.Proofs.Message
/-! # `Struct_t` as a sorted association list -/
namespace Frpc
open SMap hiding insert

theorem keyLt_trans : ∀ (a b c : Bytes), keyLt a b = true → keyLt b c = true → keyLt a c = true
  | [], [], _, h, _ => by simp [keyLt] at h
  | [], _ :: _, [], _, h => by simp [keyLt] at h
  | [], _ :: _, _ :: _, _, _ => by simp [keyLt]
  | _ :: _, [], _, h, _ => by simp [keyLt] at h
  | _ :: _, _ :: _, [], _, h => by simp [keyLt] at h
  | x :: a, y :: b, z :: c, h1, h2 => by
    simp only [keyLt] at h1 h2 ⊢
    by_cases h : x.toNat < z.toNat
    · simp [h]
    · rw [if_neg h]
      by_cases hxy : x.toNat < y.toNat
      · rw [if_neg (by omega), if_pos (by omega)] at h2; cases h2
      · rw [if_neg hxy] at h1
        by_cases hyx : y.toNat < x.toNat
        · rw [if_pos hyx] at h1; cases h1
        · rw [if_neg hyx] at h1
          rw [if_neg (by omega)] at h2
          by_cases hzx : z.toNat < x.toNat
          · rw [if_pos (by omega)] at h2; cases h2
          · rw [if_neg (by omega)] at h2
            rw [if_neg hzx]
            exact keyLt_trans a b c h1 h2

theorem keyLt_total : ∀ (a b : Bytes), keyLt a b = true ∨ a = b ∨ keyLt b a = true
  | [], [] => .inr (.inl rfl)
  | [], _ :: _ => .inl (by simp [keyLt])
  | _ :: _, [] => .inr (.inr (by simp [keyLt]))
  | x :: a, y :: b => by
    simp only [keyLt]
    by_cases h1 : x.toNat < y.toNat
    · simp [h1]
    · by_cases h2 : y.toNat < x.toNat
      · simp [h2]
      · have : x = y := UInt8.toNat_inj.1 (by omega)
        subst this
        simp only [Nat.lt_irrefl, if_false]
        rcases keyLt_total a b with h | h | h
        · exact .inl h
        · exact .inr (.inl (by rw [h]))
        · exact .inr (.inr h)

variable {α : Type _}

/-- Members in strictly ascending order of name. -/
def Sorted (ms : List (Bytes × α)) : Prop := ms.Pairwise (fun a b => keyLt a.1 b.1 = true)

theorem find?_none_of_lt {k : Bytes} {ms : List (Bytes × α)} (h : ∀ m ∈ ms, keyLt k m.1 = true) : find? k ms = none := by
  induction ms with
  | nil => rfl
  | cons m ms ih =>
    obtain ⟨k', v⟩ := m
    have h1 := h (k', v) (by simp)
    unfold find?
    rw [if_neg, ih (fun m hm => h m (by simp [hm]))]
    rintro rfl
    rw [keyLt_irrefl] at h1; cases h1

/-- Effect of `insert` on look-ups, order and names. -/
theorem insert_spec (k : Bytes) (v : α) : ∀ (ms : List (Bytes × α)), Sorted ms →
    (∀ k', find? k' (SMap.insert k v ms).1 = if k' = k ∧ find? k ms = none then some v else find? k' ms) ∧
    Sorted (SMap.insert k v ms).1 ∧ ((SMap.insert k v ms).2 = true ↔ find? k ms = none) ∧
    (∀ k', k' ∈ (SMap.insert k v ms).1.map (·.1) ↔ k' = k ∨ k' ∈ ms.map (·.1)) ∧
    ((SMap.insert k v ms).2 = false → (SMap.insert k v ms).1 = ms)
  | [], _ => by
    refine ⟨fun k' => ?_, ?_, ?_, ?_, ?_⟩
    · simp [SMap.insert, find?]
    · simp [SMap.insert, Sorted]
    · simp [SMap.insert, find?]
    · simp [SMap.insert]
    · simp [SMap.insert]
  | (k0, v0) :: ms, hs => by
    unfold Sorted at hs
    rw [List.pairwise_cons] at hs
    obtain ⟨i1, i2, i3, i4, i5⟩ := insert_spec k v ms hs.2
    unfold SMap.insert
    by_cases h1 : keyLt k k0 = true
    · rw [if_pos h1]
      have hall : ∀ m ∈ (k0, v0) :: ms, keyLt k m.1 = true := by
        intro m hm
        rcases List.mem_cons.1 hm with rfl | hm
        · exact h1
        · exact keyLt_trans _ _ _ h1 (hs.1 m hm)
      have hn : find? k ((k0, v0) :: ms) = none := find?_none_of_lt hall
      refine ⟨fun k' => ?_, ?_, ?_, ?_, ?_⟩
      · rw [hn]; simp only [and_true]
        conv => lhs; unfold find?
      · unfold Sorted; rw [List.pairwise_cons]; exact ⟨hall, by rw [List.pairwise_cons]; exact hs⟩
      · rw [hn]; simp
      · simp
      · simp
    · rw [if_neg h1]
      by_cases h2 : k = k0
      · subst h2
        rw [if_pos rfl]
        have : find? k ((k, v0) :: ms) = some v0 := by simp [find?]
        refine ⟨fun k' => ?_, ?_, ?_, ?_, ?_⟩
        · rw [this]; simp
        · unfold Sorted; rw [List.pairwise_cons]; exact hs
        · rw [this]; simp
        · intro k'; simp
        · simp
      · rw [if_neg h2]
        have hf : find? k ((k0, v0) :: ms) = find? k ms := by
          conv => lhs; unfold find?
          rw [if_neg h2]
        refine ⟨fun k' => ?_, ?_, ?_, ?_, ?_⟩
        · rw [hf]
          simp only [find?]
          rw [i1 k']
          by_cases hk0 : k' = k0
          · rw [if_pos hk0, if_neg (by rintro ⟨rfl, _⟩; exact h2 hk0), if_pos hk0]
          · rw [if_neg hk0, if_neg hk0]
        · unfold Sorted
          rw [List.pairwise_cons]
          refine ⟨fun m hm => ?_, i2⟩
          have : m.1 ∈ (SMap.insert k v ms).1.map (·.1) := List.mem_map_of_mem hm
          rw [i4] at this
          rcases this with h | h
          · rw [h]
            rcases keyLt_total k0 k with h' | h' | h'
            · exact h'
            · exact absurd h'.symm h2
            · exact absurd h' h1
          · obtain ⟨m', hm', he⟩ := List.mem_map.1 h
            rw [← he]; exact hs.1 m' hm'
        · rw [hf]; exact i3
        · intro k'
          simp only [List.map_cons, List.mem_cons, i4]
          constructor
          · rintro (h | h | h) <;> simp [h]
          · rintro (h | h | h) <;> simp [h]
        · intro h; exact congrArg _ (i5 h)

theorem find?_eq_none {k : Bytes} {ms : List (Bytes × α)} : find? k ms = none ↔ k ∉ ms.map (·.1) := by
  induction ms with
  | nil => simp [find?]
  | cons m ms ih =>
    obtain ⟨k', v⟩ := m
    unfold find?
    by_cases h : k = k'
    · simp [h]
    · rw [if_neg h, ih]; simp [h]

theorem assign_spec (k : Bytes) (v : α) (ms : List (Bytes × α)) :
    (∀ k', find? k' (assign k v ms) = if k' = k ∧ find? k ms ≠ none then some v else find? k' ms) ∧
    (assign k v ms).map (·.1) = ms.map (·.1) := by
  induction ms with
  | nil => simp [assign, find?]
  | cons m ms ih =>
    obtain ⟨k0, v0⟩ := m
    unfold assign
    by_cases h : k = k0
    · subst h
      rw [if_pos rfl]
      refine ⟨fun k' => ?_, by simp⟩
      simp only [find?, if_true, ne_eq, reduceCtorEq, not_false_eq_true, and_true]
      by_cases hk : k' = k <;> simp [hk]
    · rw [if_neg h]
      refine ⟨fun k' => ?_, by simp [ih.2]⟩
      have hf : find? k ((k0, v0) :: ms) = find? k ms := by
        conv => lhs; unfold find?
        rw [if_neg h]
      rw [hf]
      simp only [find?, ih.1]
      by_cases hk : k' = k0
      · rw [if_pos hk, if_neg (by rintro ⟨rfl, _⟩; exact h hk), if_pos hk]
      · rw [if_neg hk, if_neg hk]

theorem sorted_of_keys {ms ms' : List (Bytes × α)} (h : ms'.map (·.1) = ms.map (·.1)) (hs : Sorted ms) : Sorted ms' := by
  unfold Sorted at *
  have key : ∀ l : List (Bytes × α), l.Pairwise (fun a b => keyLt a.1 b.1 = true) ↔ (l.map (·.1)).Pairwise (fun a b => keyLt a b = true) := by
    intro l; rw [List.pairwise_map]
  rw [key] at hs ⊢
  rw [h]; exact hs

/-- `append` is map update. -/
theorem append_spec (k : Bytes) (v : α) (ms : List (Bytes × α)) (hs : Sorted ms) :
    (∀ k', find? k' (append k v ms) = if k' = k then some v else find? k' ms) ∧
    Sorted (append k v ms) ∧ (∀ k', k' ∈ (append k v ms).map (·.1) ↔ k' = k ∨ k' ∈ ms.map (·.1)) := by
  obtain ⟨i1, i2, i3, i4, i5⟩ := insert_spec k v ms hs
  unfold append
  simp only
  by_cases h : (SMap.insert k v ms).2 = true
  · rw [if_pos h]
    have hn := i3.1 h
    refine ⟨fun k' => ?_, i2, i4⟩
    rw [i1]; simp [hn]
  · rw [if_neg h]
    have hn : find? k ms ≠ none := fun hh => h (i3.2 hh)
    have he := i5 (by simpa using h)
    rw [he]
    obtain ⟨a1, a2⟩ := assign_spec k v ms
    refine ⟨fun k' => ?_, sorted_of_keys a2 hs, fun k' => ?_⟩
    · rw [a1]; simp [hn]
    · rw [a2]
      have : k ∈ ms.map (·.1) := by
        rw [ne_eq, find?_eq_none, Decidable.not_not] at hn; exact hn
      constructor
      · exact .inr
      · rintro (rfl | h)
        · exact this
        · exact h

theorem find?_mem {k : Bytes} {v : α} {ms : List (Bytes × α)} (h : find? k ms = some v) : (k, v) ∈ ms := by
  induction ms with
  | nil => simp [find?] at h
  | cons m ms ih =>
    obtain ⟨k', v'⟩ := m
    unfold find? at h
    by_cases hk : k = k'
    · rw [if_pos hk] at h; cases h; simp [hk]
    · rw [if_neg hk] at h; simp [ih h]

/-- Removing a name. -/
theorem erase_spec (k : Bytes) : ∀ (ms : List (Bytes × α)), Sorted ms →
    (∀ k', find? k' (erase k ms).1 = if k' = k then none else find? k' ms) ∧
    Sorted (erase k ms).1 ∧ (erase k ms).1.Sublist ms ∧
    ((erase k ms).2 = if find? k ms = none then 0 else 1) ∧
    ((erase k ms).1.length + (erase k ms).2 = ms.length)
  | [], _ => by simp [erase, find?, Sorted]
  | (k0, v0) :: ms, hs => by
    unfold Sorted at hs
    rw [List.pairwise_cons] at hs
    obtain ⟨i1, i2, i3, i4, i5⟩ := erase_spec k ms hs.2
    unfold erase
    by_cases h : k = k0
    · subst h
      rw [if_pos rfl]
      have hn : find? k ms = none := find?_none_of_lt hs.1
      refine ⟨fun k' => ?_, hs.2, List.sublist_cons_self _ _, by simp [find?], by simp⟩
      by_cases hk : k' = k
      · subst hk; simp [hn]
      · simp [find?, hk]
    · rw [if_neg h]
      refine ⟨fun k' => ?_, ?_, i3.cons_cons _, ?_, ?_⟩
      · simp only [find?, i1]
        by_cases hk : k' = k0
        · subst hk; simp [Ne.symm h]
        · simp [hk]
      · unfold Sorted; rw [List.pairwise_cons]
        exact ⟨fun m hm => hs.1 m (i3.subset hm), i2⟩
      · simp only [i4, find?, if_neg h]
      · simp only [List.length_cons]; omega

/-- Sorted lists have distinct names. -/
theorem Sorted.nodup {ms : List (Bytes × α)} (h : Sorted ms) : (ms.map (·.1)).Nodup := by
  unfold Sorted at h
  rw [List.Nodup, List.pairwise_map]
  refine h.imp ?_
  intro a b hab he
  rw [he, keyLt_irrefl] at hab; cases hab

/-- Two sorted lists with the same look-ups are equal. -/
theorem Sorted.ext : ∀ {a b : List (Bytes × α)}, Sorted a → Sorted b → (∀ k, find? k a = find? k b) → a = b
  | [], [], _, _, _ => rfl
  | [], (k, v) :: b, _, _, h => by have := h k; simp [find?] at this
  | (k, v) :: a, [], _, _, h => by have := h k; simp [find?] at this
  | (k, v) :: a, (k', v') :: b, ha, hb, h => by
    unfold Sorted at ha hb
    rw [List.pairwise_cons] at ha hb
    have hkk : k = k' := by
      rcases keyLt_total k k' with hlt | he | hlt
      · have h1 := h k
        have h2 : find? k ((k', v') :: b) = none := by
          apply find?_none_of_lt
          intro m hm
          rcases List.mem_cons.1 hm with rfl | hm
          · exact hlt
          · exact keyLt_trans _ _ _ hlt (hb.1 m hm)
        rw [h2] at h1; simp [find?] at h1
      · exact he
      · have h1 := h k'
        have h2 : find? k' ((k, v) :: a) = none := by
          apply find?_none_of_lt
          intro m hm
          rcases List.mem_cons.1 hm with rfl | hm
          · exact hlt
          · exact keyLt_trans _ _ _ hlt (ha.1 m hm)
        rw [h2] at h1; simp [find?] at h1
    subst hkk
    have hv : v = v' := by have := h k; simpa [find?] using this
    subst hv
    rw [Sorted.ext ha.2 hb.2]
    intro k'
    by_cases hk : k' = k
    · subst hk; rw [find?_none_of_lt ha.1, find?_none_of_lt hb.1]
    · have := h k'; simpa [find?, hk] using this

/-- The last value given for a name in a list of members. -/
def lastOf (k : Bytes) (ms : List (Bytes × α)) : Option α := (ms.reverse.find? (fun m => m.1 == k)).map (·.2)

theorem lastOf_cons (k : Bytes) (m : Bytes × α) (ms : List (Bytes × α)) :
    lastOf k (m :: ms) = (lastOf k ms).or (if m.1 = k then some m.2 else none) := by
  unfold lastOf
  rw [List.reverse_cons, List.find?_append]
  cases h : List.find? (fun m => m.1 == k) ms.reverse with
  | some x => simp
  | none =>
    by_cases hk : m.1 = k <;> simp [hk]

theorem collect_spec (acc ms : List (Bytes × Value)) (hs : Sorted acc) :
    (∀ k, find? k (collect acc ms) = (lastOf k ms).or (find? k acc)) ∧ Sorted (collect acc ms) ∧
    (∀ k, k ∈ (collect acc ms).map (·.1) ↔ k ∈ acc.map (·.1) ∨ k ∈ ms.map (·.1)) := by
  induction ms generalizing acc with
  | nil => simp [collect, lastOf, hs]
  | cons m ms ih =>
    obtain ⟨a1, a2, a3⟩ := append_spec m.1 m.2 acc hs
    obtain ⟨i1, i2, i3⟩ := ih (append m.1 m.2 acc) a2
    have e : collect acc (m :: ms) = collect (append m.1 m.2 acc) ms := rfl
    rw [e]
    refine ⟨fun k => ?_, i2, fun k => ?_⟩
    · rw [i1, a1, lastOf_cons]
      cases lastOf k ms with
      | some x => simp
      | none =>
        by_cases hk : m.1 = k
        · simp [hk]
        · simp [hk, Ne.symm hk]
    · rw [i3, a3]; simp only [List.map_cons, List.mem_cons]
      constructor
      · rintro ((h | h) | h) <;> simp [h]
      · rintro (h | h | h) <;> simp [h]

end Frpc
