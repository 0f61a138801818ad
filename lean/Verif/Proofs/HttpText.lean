import Verif.Proofs.HttpLine
import Verif.Spec.Http
/-! # Words, header lines -/
namespace Frpc
namespace HttpIO
open Spec

/-! ## Trailing CR -/

theorem dropWhile_split (p : UInt8 → Bool) (l : Bytes) :
    ∃ pre, l = pre ++ l.dropWhile p ∧ (∀ c ∈ pre, p c = true) ∧ ∀ c, (l.dropWhile p).head? = some c → p c = false := by
  refine ⟨l.takeWhile p, (List.takeWhile_append_dropWhile).symm, ?_, ?_⟩
  · intro c hc
    induction l with
    | nil => simp at hc
    | cons a l ih =>
      rw [List.takeWhile_cons] at hc
      split at hc
      · next h =>
        rcases List.mem_cons.1 hc with rfl | hc
        · exact h
        · exact ih hc
      · simp at hc
  · intro c hc
    have := List.head?_dropWhile_not p l
    rw [hc] at this; simpa using this

theorem stripCR_isLine (s : Bytes) : IsLine s (stripCR s) := by
  obtain ⟨pre, h1, h2, h3⟩ := dropWhile_split (· == 13) s.reverse
  refine ⟨pre.length, ?_, ?_⟩
  · have hp : pre = List.replicate pre.length 13 := by
      rw [List.eq_replicate_iff]; exact ⟨rfl, fun b hb => by simpa using h2 b hb⟩
    have := congrArg List.reverse h1
    rw [List.reverse_reverse, List.reverse_append] at this
    conv => lhs; rw [this]
    unfold stripCR
    congr 1
    rw [hp]; simp
  · unfold stripCR
    rw [List.getLast?_reverse]
    intro h
    have := h3 13 h
    simp at this

theorem isLine_unique {b l l' : Bytes} (h : IsLine b l) (h' : IsLine b l') : l = l' := by
  obtain ⟨k, e, n⟩ := h
  obtain ⟨k', e', n'⟩ := h'
  have key : ∀ (k k' : Nat) (l l' : Bytes), l.getLast? ≠ some 13 → l'.getLast? ≠ some 13 →
      l ++ List.replicate k 13 = l' ++ List.replicate k' 13 → l = l' := by
    intro k
    induction k with
    | zero =>
      intro k' l l' n n' h
      cases k' with
      | zero => simpa using h
      | succ k' =>
        rw [List.replicate_succ', ← List.append_assoc] at h
        simp at h; rw [h] at n; simp at n
    | succ k ih =>
      intro k' l l' n n' h
      cases k' with
      | zero =>
        rw [List.replicate_succ', ← List.append_assoc] at h
        simp at h; rw [← h] at n'; simp at n'
      | succ k' =>
        rw [List.replicate_succ', List.replicate_succ', ← List.append_assoc, ← List.append_assoc] at h
        exact ih k' l l' n n' (List.append_cancel_right h)
  exact key k k' l l' n n' (by rw [← e, ← e'])

/-! ## Words -/

theorem words_space {n : Nat} {c : UInt8} {s : Bytes} (h : isSpace c = true) : words (n + 1) (c :: s) = words (n + 1) s := by
  simp [words, h]

theorem words_word {n : Nat} {w : Bytes} {c : UInt8} {s : Bytes} (hne : w ≠ []) (hw : ∀ x ∈ w, isSpace x = false) (h : isSpace c = true) :
    words (n + 1) (w ++ c :: s) = w :: words n s := by
  cases w with
  | nil => exact absurd rfl hne
  | cons a w =>
    have ha : isSpace a = false := hw a (by simp)
    have e1 : (a :: w ++ c :: s).dropWhile isSpace = a :: w ++ c :: s := by simp [ha]
    have e2 : (a :: w ++ c :: s).takeWhile (fun c => !isSpace c) = a :: w := by
      rw [List.takeWhile_append_of_pos (fun x hx => by simp [hw x hx])]; simp [h]
    have e3 : (a :: w ++ c :: s).dropWhile (fun c => !isSpace c) = c :: s := by
      rw [List.dropWhile_append_of_pos (fun x hx => by simp [hw x hx])]; simp [h]
    rw [words]
    simp only [e1, e2, e3]
    simp

theorem words_last {n : Nat} {w : Bytes} (hne : w ≠ []) (hw : ∀ x ∈ w, isSpace x = false) : words (n + 1) w = [w] := by
  cases w with
  | nil => exact absurd rfl hne
  | cons a w =>
    have ha : isSpace a = false := hw a (by simp)
    have e1 : (a :: w).dropWhile isSpace = a :: w := by simp [ha]
    have e2 : (a :: w).takeWhile (fun c => !isSpace c) = a :: w := by
      have := List.takeWhile_append_of_pos (p := fun c => !isSpace c) (l₁ := a :: w) (l₂ := []) (fun x hx => by simp [hw x hx])
      simpa using this
    have e3 : (a :: w).dropWhile (fun c => !isSpace c) = [] := by
      have := List.dropWhile_append_of_pos (p := fun c => !isSpace c) (l₁ := a :: w) (l₂ := []) (fun x hx => by simp [hw x hx])
      simpa using this
    unfold words
    simp only [e1, e2, e3]
    cases n <;> simp [words]

theorem words_nil (n : Nat) : words n [] = [] := by cases n <;> simp [words]

theorem splitLoop_eq (line : Bytes) (upto : Nat) : ∀ (f i start : Nat) (state : Bool) (parts : List Bytes),
    i ≤ line.length → line.length - i < f → parts.length < upto →
    (state = true → start < i ∧ ∀ x ∈ (line.drop start).take (i - start), isSpace x = false) →
    splitLoop line upto f i start state parts = .ok (parts ++ words (upto - parts.length) (line.drop (if state then start else i))) := by
  intro f
  induction f with
  | zero => intro i start state parts _ h; omega
  | succ f ih =>
    intro i start state parts hi hf hp hst
    obtain ⟨m, hm⟩ : ∃ m, upto - parts.length = m + 1 := ⟨upto - parts.length - 1, by omega⟩
    unfold splitLoop
    by_cases hil : i < line.length
    · rw [if_pos hil]
      have hg : line[i]? = some line[i] := List.getElem?_eq_getElem hil
      have hdi : line.drop i = line[i] :: line.drop (i + 1) := List.drop_eq_getElem_cons hil
      rw [hg]
      simp only
      by_cases hsp : isSpace line[i] = false
      · rw [if_pos hsp]
        rw [ih (i + 1) (if state then start else i) true parts (by omega) (by omega) hp ?_]
        · simp
        · intro _
          cases state with
          | false =>
            simp only [Bool.false_eq_true, if_false]
            refine ⟨by omega, ?_⟩
            have : i + 1 - i = 1 := by omega
            rw [this, hdi]
            intro x hx
            simp only [List.take_succ_cons, List.take_zero, List.mem_singleton] at hx
            rw [hx]; exact hsp
          | true =>
            simp only [if_true]
            obtain ⟨h1, h2⟩ := hst rfl
            refine ⟨by omega, ?_⟩
            have e : i + 1 - start = (i - start) + 1 := by omega
            have hlt : i - start < (line.drop start).length := by simp; omega
            rw [e, List.take_succ_eq_append_getElem hlt]
            intro x hx
            rcases List.mem_append.1 hx with hx | hx
            · exact h2 x hx
            · simp only [List.getElem_drop, List.mem_singleton] at hx
              have : start + (i - start) = i := by omega
              simp only [this] at hx
              rw [hx]; exact hsp
      · have hsp : isSpace line[i] = true := by simpa using hsp
        rw [if_neg (by simp [hsp])]
        cases state with
        | false =>
          simp only [pushWord, Bool.false_eq_true, if_false]
          rw [if_neg (by omega)]
          rw [ih (i + 1) start false parts (by omega) (by omega) hp (by simp)]
          simp only [Bool.false_eq_true, if_false, hm, hdi, words_space hsp]
        | true =>
          obtain ⟨h1, h2⟩ := hst rfl
          have hw : (line.drop start).take (i - start) ≠ [] := by
            intro h; have := congrArg List.length h; simp at this; omega
          have hsplit : line.drop start = (line.drop start).take (i - start) ++ line[i] :: line.drop (i + 1) := by
            conv => lhs; rw [← List.take_append_drop (i - start) (line.drop start)]
            rw [List.drop_drop, show start + (i - start) = i by omega, hdi]
          simp only [pushWord, substrE, if_neg (show ¬ start > line.length by omega), List.length_append, List.length_singleton, if_true]
          rw [hsplit, hm, words_word hw h2 hsp]
          rw [← hsplit]
          by_cases hu : parts.length + 1 = upto
          · rw [if_pos hu]
            have hm0 : m = 0 := by omega
            subst hm0
            by_cases hr : line.length - (i + 1) > 0
            · rw [if_pos hr]
              rw [if_neg (by omega)]
              have hne : line.drop (i + 1) ≠ [] := by
                intro h; have := congrArg List.length h; simp at this; omega
              have htk : (line.drop (i + 1)).take (line.length - (i + 1)) = line.drop (i + 1) := by
                apply List.take_of_length_le; simp
              simp [words, hne, htk]
            · rw [if_neg hr]
              have : line.drop (i + 1) = [] := by apply List.drop_eq_nil_of_le; omega
              simp [words, this]
          · rw [if_neg hu]
            rw [ih (i + 1) start false _ (by omega) (by omega) (by simp; omega) (by simp)]
            have : upto - (parts.length + 1) = m := by omega
            simp [this]
    · rw [if_neg hil]
      have hie : i = line.length := by omega
      subst hie
      cases state with
      | false => simp [pushWord, words_nil]
      | true =>
        obtain ⟨h1, h2⟩ := hst rfl
        have htk : (line.drop start).take (line.length - start) = line.drop start := by
          apply List.take_of_length_le; simp
        rw [htk] at h2
        have hw : line.drop start ≠ [] := by
          intro h; have := congrArg List.length h; simp at this; omega
        simp only [pushWord, substrE, if_neg (show ¬ start > line.length by omega), htk, if_true, hm, words_last hw h2]

theorem splitBySpace_eq (line : Bytes) (n : Nat) (hn : 1 ≤ n) : splitBySpace line (n + 1) = .ok (words n line) := by
  unfold splitBySpace
  rw [splitLoop_eq line _ _ 0 0 false [] (by omega) (by omega) (by simp; omega) (by simp)]
  simp

theorem splitBySpace_zero (line : Bytes) : splitBySpace line 0 = .ok (words (2 ^ 64 - 1) line) := by
  unfold splitBySpace
  rw [splitLoop_eq line _ _ 0 0 false [] (by omega) (by omega) (by simp) (by simp)]
  simp

theorem length_dropWhile_le' (p : UInt8 → Bool) (l : Bytes) : (l.dropWhile p).length ≤ l.length := by
  obtain ⟨pre, h, -⟩ := dropWhile_split p l
  have := congrArg List.length h
  simp at this; omega

theorem words_saturate : ∀ (n : Nat) (s : Bytes), s.length ≤ n → words (n + 1) s = words n s
  | 0, s, h => by
    have : s = [] := List.length_eq_zero_iff.1 (by omega)
    subst this; simp [words]
  | n + 1, s, h => by
    unfold words
    simp only
    split
    · rfl
    · next hne =>
      congr 1
      apply words_saturate
      have h1 := length_dropWhile_le' isSpace s
      have h2 := length_dropWhile_le' (fun c => !isSpace c) (s.dropWhile isSpace)
      have : 0 < (s.dropWhile isSpace).length := List.length_pos_iff.2 hne
      simp only [List.length_drop]
      omega

theorem words_saturate_le {n m : Nat} {s : Bytes} (h : s.length ≤ n) (hnm : n ≤ m) : words m s = words n s := by
  obtain ⟨k, rfl⟩ : ∃ k, m = n + k := ⟨m - n, by omega⟩
  clear hnm
  induction k with
  | zero => rfl
  | succ k ih => rw [← ih, ← Nat.add_assoc, words_saturate _ s (by omega)]

/-! ## Header lines -/

theorem trim_spec (s : Bytes) : ∃ a b, s = a ++ trim s ++ b ∧ (∀ c ∈ a, isSpace c = true) ∧ (∀ c ∈ b, isSpace c = true) ∧
    (∀ c, (trim s).head? = some c → isSpace c = false) ∧ (∀ c, (trim s).getLast? = some c → isSpace c = false) := by
  obtain ⟨a, e1, a2, a3⟩ := dropWhile_split isSpace s
  obtain ⟨b, e2, b2, b3⟩ := dropWhile_split isSpace (s.dropWhile isSpace).reverse
  have e2' := congrArg List.reverse e2
  rw [List.reverse_reverse, List.reverse_append] at e2'
  refine ⟨a, b.reverse, ?_, a2, by simpa using b2, ?_, ?_⟩
  · conv => lhs; rw [e1, e2']
    simp [trim]
  · intro c hc
    apply a3
    rw [e2']
    have : trim s = ((s.dropWhile isSpace).reverse.dropWhile isSpace).reverse := rfl
    rw [← this]
    cases ht : trim s with
    | nil => rw [ht] at hc; simp at hc
    | cons x xs => rw [ht] at hc; simpa using hc
  · intro c hc
    apply b3
    unfold trim at hc
    rw [List.getLast?_reverse] at hc
    exact hc

theorem getHeaderValue_field {name value : Bytes} (h0 : ∀ c, name.head? = some c → isSpace c = false) (hn : (58 : UInt8) ∉ name) :
    getHeaderValue (name ++ 58 :: value) = some (name, trim value) := by
  have hfi : (name ++ 58 :: value).findIdx? (· == 58) = some name.length := UrlForm.findIdx?_append_cons hn
  have key : (if (value.dropWhile isSpace) = [] then some (name, ([] : Bytes))
      else some (name, ((value.dropWhile isSpace).reverse.dropWhile isSpace).reverse)) = some (name, trim value) := by
    split
    · next h => simp [trim, h]
    · rfl
  have hdrop : (name ++ 58 :: value).drop (name.length + 1) = value := by simp
  have htake : (name ++ 58 :: value).take name.length = name := by simp
  unfold getHeaderValue
  split
  · next h => simp at h
  · next c t h =>
    have hc : isSpace c = false := by
      cases name with
      | nil => simp at h; rw [← h.1]; decide
      | cons a n => simp at h; rw [← h.1]; exact h0 a rfl
    rw [if_neg (by simp [hc]), hfi]
    simp only [hdrop, htake]
    exact key

theorem getHeaderValue_continued {line : Bytes} {c : UInt8} (h : line.head? = some c) (hs : isSpace c = true) :
    getHeaderValue line = some ([], [32] ++ line.dropWhile isSpace) := by
  cases line with
  | nil => simp at h
  | cons a l =>
    simp at h; subst h
    simp [getHeaderValue, hs]

theorem getHeaderValue_bad {line : Bytes} (h : ∀ c, line.head? = some c → isSpace c = false) (hn : (58 : UInt8) ∉ line) :
    getHeaderValue line = none := by
  cases line with
  | nil => rfl
  | cons a l =>
    have := h a rfl
    simp only [getHeaderValue, this, Bool.false_eq_true, if_false]
    rw [UrlForm.findIdx?_absent hn]

end HttpIO
end Frpc
