import Verif.Spec.Utf8
import Verif.Basic.Decimal
/-!
# UTF-8 texts side by side
-/
namespace Frpc
namespace Spec

theorem codePoint_append (s t : Bytes) {c k : Nat} (h : codePoint s = some (c, k)) : codePoint (s ++ t) = some (c, k) ∧ 1 ≤ k ∧ k ≤ s.length := by
  match s, h with
  | [], h => simp [codePoint] at h
  | [a], h => simp only [codePoint, List.cons_append, List.nil_append] at h ⊢; grind
  | [a, b], h => simp only [codePoint, List.cons_append, List.nil_append] at h ⊢; grind
  | [a, b, c], h => simp only [codePoint, List.cons_append, List.nil_append] at h ⊢; grind
  | a :: b :: c :: d :: r, h => simp only [codePoint, List.cons_append] at h ⊢; grind

theorem utf8Within_mono : ∀ (n m : Nat) (s : Bytes), n ≤ m → utf8Within n s = true → utf8Within m s = true
  | _, _, [], _, _ => by unfold utf8Within; rfl
  | 0, _, _ :: _, _, h => by simp [utf8Within] at h
  | n + 1, 0, _ :: _, hm, _ => by omega
  | n + 1, m + 1, a :: s, hm, h => by
    simp only [utf8Within] at h ⊢
    cases hc : codePoint (a :: s) with
    | none => simp [hc] at h
    | some q =>
      obtain ⟨c, k⟩ := q
      simp only [hc, Bool.and_eq_true] at h ⊢
      exact ⟨h.1, utf8Within_mono n m _ (by omega) h.2⟩

theorem utf8Within_append : ∀ (n m : Nat) (s t : Bytes), utf8Within n s = true → utf8Within m t = true → utf8Within (n + m) (s ++ t) = true
  | n, m, [], t, _, ht => by simpa using utf8Within_mono m (n + m) t (by omega) ht
  | 0, _, _ :: _, _, h, _ => by simp [utf8Within] at h
  | n + 1, m, a :: s, t, h, ht => by
    rw [show n + 1 + m = (n + m) + 1 by omega]
    simp only [utf8Within, List.cons_append] at h ⊢
    cases hc : codePoint (a :: s) with
    | none => simp [hc] at h
    | some q =>
      obtain ⟨c, k⟩ := q
      obtain ⟨h1, h2, h3⟩ := codePoint_append (a :: s) t hc
      simp only [List.cons_append] at h1
      simp only [hc, Bool.and_eq_true] at h
      simp only [h1, Bool.and_eq_true]
      refine ⟨h.1, ?_⟩
      have : (a :: (s ++ t)).drop k = (a :: s).drop k ++ t := by
        rw [← List.cons_append, List.drop_append_of_le_length h3]
      rw [this]
      exact utf8Within_append n m _ t h.2 ht

/-- Two texts side by side. -/
theorem isUtf8_append {s t : Bytes} (hs : isUtf8 s = true) (ht : isUtf8 t = true) : isUtf8 (s ++ t) = true := by
  unfold isUtf8 at *
  rw [List.length_append]
  exact utf8Within_append _ _ _ _ hs ht

/-- ASCII is UTF-8. -/
theorem isUtf8_ascii : ∀ (s : Bytes), (∀ c ∈ s, c.toNat < 128) → isUtf8 s = true
  | [], _ => rfl
  | c :: s, h => by
    have hc := h c (by simp)
    have : isUtf8 [c] = true := by
      simp only [isUtf8, utf8Within, List.length_singleton, codePoint, if_pos hc, List.drop_one, List.tail_cons, Bool.and_true, decide_eq_true_eq]
      omega
    exact isUtf8_append (s := [c]) this (isUtf8_ascii s (fun d hd => h d (by simp [hd])))

end Spec
end Frpc
