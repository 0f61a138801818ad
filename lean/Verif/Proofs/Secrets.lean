import Verif.Spec.Secrets
import Verif.Proofs.Message
/-! # Pointers to secrets and the tree of them -/
namespace Frpc
namespace Secrets
open Spec

/-! ## Escaping -/

theorem escape_clean : ∀ (k : Bytes), (47 : UInt8) ∉ escapeSegment k ∧ (44 : UInt8) ∉ escapeSegment k
  | [] => by simp [escapeSegment]
  | c :: k => by
    obtain ⟨h1, h2⟩ := escape_clean k
    unfold escapeSegment
    simp only [List.mem_append, h1, h2, or_false]
    by_cases c1 : c = 44
    · rw [if_pos c1]; decide
    · rw [if_neg c1]
      by_cases c2 : c = 47
      · rw [if_pos c2]; decide
      · rw [if_neg c2]
        by_cases c3 : c = 126
        · rw [if_pos c3]; decide
        · rw [if_neg c3]
          simp only [List.mem_singleton]
          exact ⟨fun h => c2 h.symm, fun h => c1 h.symm⟩

theorem unescape_plain {c : UInt8} (h : c ≠ 126) (s : Bytes) : unescapeSegment (c :: s) = (do return c :: (← unescapeSegment s)) := by
  rw [unescapeSegment]
  · rintro h1 h2; exact absurd h2 h
  · rintro h1 h2; exact absurd h2 h
  · rintro h1 h2; exact absurd h2 h
  · exact h

theorem unescape_escape : ∀ (k : Bytes), unescapeSegment (escapeSegment k) = .ok k
  | [] => rfl
  | c :: k => by
    have ih := unescape_escape k
    unfold escapeSegment
    by_cases c1 : c = 44
    · subst c1
      rw [if_pos rfl]
      simp only [List.cons_append, List.nil_append, unescapeSegment]
      rw [ih]; rfl
    · rw [if_neg c1]
      by_cases c2 : c = 47
      · subst c2
        rw [if_pos rfl]
        simp only [List.cons_append, List.nil_append, unescapeSegment]
        rw [ih]; rfl
      · rw [if_neg c2]
        by_cases c3 : c = 126
        · subst c3
          rw [if_pos rfl]
          simp only [List.cons_append, List.nil_append, unescapeSegment]
          rw [ih]; rfl
        · rw [if_neg c3, List.singleton_append, unescape_plain c3, ih]; rfl

theorem unescape_same : ∀ (s : Bytes), (126 : UInt8) ∉ s → unescapeSegment s = .ok s
  | [], _ => rfl
  | c :: s, h => by
    rw [unescape_plain (by rintro rfl; simp at h), unescape_same s (fun hc => h (by simp [hc]))]
    rfl

/-! ## Keys of a pointer -/

/-- The key a step becomes. -/
def keyOf : Seg → Bytes
  | .key k => k
  | .index i => dec i

/-- The key can be made. -/
def Readable (k : Bytes) : Prop := ∃ n, toInt k = .ok n

theorem dec_no (c : UInt8) (hc : isDigit c = false) (i : Nat) : c ∉ dec i := fun h => by
  rw [dec_digits i c h] at hc; cases hc

theorem text_noslash (s : Seg) : (47 : UInt8) ∉ s.text := by
  cases s with
  | key k => exact (escape_clean k).1
  | index i => exact dec_no 47 (by decide) i

theorem unescape_text (s : Seg) : unescapeSegment s.text = .ok (keyOf s) := by
  cases s with
  | key k => exact unescape_escape k
  | index i => exact unescape_same _ (dec_no 126 (by decide) i)

theorem text_ne_nil {s : Seg} (h : Seg.Plain s) : s.text ≠ [] := by
  cases s with
  | index i => exact dec_ne_nil i
  | key k =>
    obtain ⟨h, -⟩ := h
    cases k with
    | nil => exact absurd rfl h
    | cons c k =>
      simp only [Seg.text, escapeSegment]
      split
      · simp
      · split
        · simp
        · split <;> simp

theorem segments_noslash : ∀ (s seg : Bytes), (47 : UInt8) ∉ s → segments seg s = [seg ++ s]
  | [], seg, _ => by simp [segments]
  | c :: s, seg, h => by
    have hc : c ≠ 47 := by rintro rfl; simp at h
    rw [segments]
    · rw [segments_noslash s _ (fun hc => h (by simp [hc]))]; simp
    · rintro h1; exact absurd h1 hc
    · exact fun _ _ h1 => absurd h1 hc

theorem segments_slash : ∀ (s seg rest : Bytes), (47 : UInt8) ∉ s → rest ≠ [] → segments seg (s ++ 47 :: rest) = (seg ++ s) :: segments [] rest
  | [], seg, rest, _, hr => by
    cases rest with
    | nil => exact absurd rfl hr
    | cons c r => simp [segments]
  | c :: s, seg, rest, h, hr => by
    have hc : c ≠ 47 := by rintro rfl; simp at h
    rw [List.cons_append, segments]
    · rw [segments_slash s _ _ (fun hc => h (by simp [hc])) hr]; simp
    · rintro h1; exact absurd h1 hc
    · exact fun _ _ h1 => absurd h1 hc

/-- The text of a pointer behind its first slash. -/
theorem segments_pointer : ∀ (s : Seg) (p : List Seg), (∀ x ∈ s :: p, Seg.Plain x) →
    segments [] (s.text ++ p.flatMap fun s => 47 :: s.text) = (s :: p).map Seg.text
  | s, [], _ => by simp [segments_noslash _ _ (text_noslash s)]
  | s, t :: p, h => by
    have h2 := segments_pointer t p (fun x hx => h x (List.mem_cons_of_mem _ hx))
    rw [List.flatMap_cons, List.cons_append, segments_slash _ _ _ (text_noslash s) (by simp [text_ne_nil (h t (by simp))]), h2]
    simp

/-! ## Numbers of keys -/

theorem le_iff {c d : UInt8} : c ≤ d ↔ c.toNat ≤ d.toNat := UInt8.le_iff_toNat_le

/-- Digits other than 0. -/
def Nonzero (s : Bytes) : Prop := ∀ c ∈ s, 49 ≤ c.toNat ∧ c.toNat ≤ 57

theorem toIntAt_digits : ∀ (s : Bytes), Nonzero s → ∀ (i : Nat) (r a : Nat), r < 10 ^ a → a + s.length ≤ 18 →
    toIntAt i r s = .ok ((s.foldl (fun a c => 10 * a + (c.toNat - 48)) r : Nat) : Int)
  | [], _, i, r, a, _, _ => rfl
  | c :: s, h, i, r, a, hr, ha => by
    have hc := h c (by simp)
    simp only [List.length_cons] at ha
    have hp : 10 ^ (a + 1) ≤ 10 ^ 18 := Nat.pow_le_pow_right (by omega) (by omega)
    have hpa : 10 ^ (a + 1) = 10 * 10 ^ a := by rw [Nat.pow_succ]; omega
    have e18 : (10 : Nat) ^ 18 = 1000000000000000000 := by decide
    unfold toIntAt
    rw [if_pos ⟨by rw [le_iff]; exact hc.1, by rw [le_iff]; exact hc.2⟩, if_neg (by omega)]
    have e : ((r : Int) * 10 + c.toNat - 48) = ((10 * r + (c.toNat - 48) : Nat) : Int) := by omega
    rw [e, toIntAt_digits s (fun c hc => h c (List.mem_cons_of_mem _ hc)) (i + 1) _ (a + 1) (by omega) (by omega)]
    rfl

theorem toIntAt_zero : ∀ (s : Bytes), (∀ c ∈ s, isDigit c = true) → (48 : UInt8) ∈ s → ∀ (i : Nat) (r a : Nat), 0 < i → r < 10 ^ a → a + s.length ≤ 18 →
    toIntAt i r s = .ok (-1)
  | [], _, h, _, _, _, _, _, _ => by simp at h
  | c :: s, hd, h, i, r, a, hi, hr, ha => by
    have hc := hd c (by simp)
    simp only [isDigit, decide_eq_true_eq] at hc
    simp only [List.length_cons] at ha
    have hp : 10 ^ (a + 1) ≤ 10 ^ 18 := Nat.pow_le_pow_right (by omega) (by omega)
    have hpa : 10 ^ (a + 1) = 10 * 10 ^ a := by rw [Nat.pow_succ]; omega
    have e18 : (10 : Nat) ^ 18 = 1000000000000000000 := by decide
    unfold toIntAt
    by_cases h0 : c = 48
    · subst h0
      rw [if_neg (by decide), if_neg (by omega)]
    · have h1 : 49 ≤ c.toNat := by
        have : c.toNat ≠ 48 := fun h => h0 (UInt8.toNat_inj.1 h)
        omega
      rw [if_pos ⟨by rw [le_iff]; exact h1, by rw [le_iff]; exact hc.2⟩, if_neg (by omega)]
      have e : ((r : Int) * 10 + c.toNat - 48) = ((10 * r + (c.toNat - 48) : Nat) : Int) := by omega
      rw [e]
      rcases List.mem_cons.1 h with h | h
      · exact absurd h.symm h0
      · exact toIntAt_zero s (fun c hc => hd c (List.mem_cons_of_mem _ hc)) h (i + 1) _ (a + 1) (by omega) (by omega) (by omega)

/-- A key of at most 18 leading digits has a number. -/
theorem toIntAt_some : ∀ (s : Bytes) (i r a : Nat), r < 10 ^ a → a + (s.takeWhile isDigit).length ≤ 18 → ∃ n, toIntAt i r s = .ok n
  | [], i, r, a, _, _ => ⟨_, rfl⟩
  | c :: s, i, r, a, hr, ha => by
    unfold toIntAt
    split
    · next hc =>
      rw [le_iff, le_iff] at hc
      have hc1 : 49 ≤ c.toNat := hc.1
      have hc2 : c.toNat ≤ 57 := hc.2
      rw [List.takeWhile_cons, if_pos (by simp only [isDigit, decide_eq_true_eq]; omega), List.length_cons] at ha
      have hp : 10 ^ (a + 1) ≤ 10 ^ 18 := Nat.pow_le_pow_right (by omega) (by omega)
      have hpa : 10 ^ (a + 1) = 10 * 10 ^ a := by rw [Nat.pow_succ]; omega
      have e18 : (10 : Nat) ^ 18 = 1000000000000000000 := by decide
      rw [if_neg (by omega)]
      have e : ((r : Int) * 10 + c.toNat - 48) = ((10 * r + (c.toNat - 48) : Nat) : Int) := by omega
      rw [e]
      exact toIntAt_some s (i + 1) _ (a + 1) (by omega) (by omega)
    · split
      · next h1 h2 =>
        rw [h2.1] at ha
        rw [List.takeWhile_cons, if_pos (by decide), List.length_cons] at ha
        exact toIntAt_some s (i + 1) r a hr (by omega)
      · exact ⟨_, rfl⟩

theorem dec_len {i : Nat} (h : i < 2 ^ 32) : (dec i).length ≤ 10 := dec_length (by omega) (by omega)

theorem dec_head : ∀ (i : Nat), 0 < i → ∃ c s, dec i = c :: s ∧ c ≠ 48 := by
  intro i
  induction i using Nat.strongRecOn with
  | ind i ih =>
    intro hi
    rw [dec]
    split
    · next h => exact ⟨_, _, rfl, by
        intro h1
        have := congrArg UInt8.toNat h1
        rw [digit_toNat h] at this
        change 48 + i = 48 at this
        omega⟩
    · next h =>
      obtain ⟨c, s, h1, h2⟩ := ih (i / 10) (by omega) (by omega)
      exact ⟨c, s ++ [digit (i % 10)], by rw [h1]; rfl, h2⟩

theorem toInt_dec {i : Nat} (h : i < 2 ^ 32) (hz : ¬ InnerZero i) : toInt (dec i) = .ok (i : Int) := by
  by_cases h0 : i = 0
  · subst h0; decide +kernel
  · obtain ⟨c, s, h1, h2⟩ := dec_head i (by omega)
    have hl := dec_len h
    unfold InnerZero at hz
    have hn : Nonzero (dec i) := by
      intro d hd
      have hdig := dec_digits i d hd
      simp only [isDigit, decide_eq_true_eq] at hdig
      refine ⟨?_, hdig.2⟩
      have : d ≠ 48 := by
        rintro rfl
        rw [h1] at hd hz
        rcases List.mem_cons.1 hd with h | h
        · exact h2 h.symm
        · exact hz h
      have : d.toNat ≠ 48 := fun h => this (UInt8.toNat_inj.1 h)
      omega
    have := toIntAt_digits (dec i) hn 0 0 0 (by decide) (by omega)
    have ha := atoi_dec i
    unfold atoi at ha
    rw [ha] at this
    exact this

theorem toInt_dec_zero {i : Nat} (h : i < 2 ^ 32) (hz : InnerZero i) : toInt (dec i) = .ok (-1) := by
  by_cases h0 : i = 0
  · subst h0
    exfalso
    unfold InnerZero at hz
    rw [dec, dif_pos (by omega)] at hz
    simp at hz
  · obtain ⟨c, s, h1, h2⟩ := dec_head i (by omega)
    have hl := dec_len h
    unfold InnerZero at hz
    have hd := dec_digits i
    rw [h1] at hz hl hd ⊢
    simp only [List.tail_cons] at hz
    simp only [List.length_cons] at hl
    have hc := hd c (by simp)
    simp only [isDigit, decide_eq_true_eq] at hc
    have h3 : c.toNat ≠ 48 := fun h => h2 (UInt8.toNat_inj.1 h)
    unfold toInt toIntAt
    rw [if_pos ⟨by rw [le_iff]; change 49 ≤ c.toNat; omega, by rw [le_iff]; exact hc.2⟩, if_neg (by omega)]
    have e : ((0 : Int) * 10 + c.toNat - 48) = ((c.toNat - 48 : Nat) : Int) := by omega
    rw [e]
    exact toIntAt_zero s (fun c hc => hd c (List.mem_cons_of_mem _ hc)) hz 1 _ 1 (by omega) (by omega) (by omega)

theorem dec_inj {i j : Nat} (h : dec i = dec j) : i = j := by
  have := congrArg atoi h
  rwa [atoi_dec, atoi_dec] at this

theorem readable_key {s : Seg} (h : Seg.Plain s) : ∃ n, toInt (keyOf s) = .ok n := by
  cases s with
  | key k =>
    obtain ⟨n, h1⟩ := toIntAt_some k 0 0 0 (by decide) (by have := h.2; omega)
    exact ⟨n, h1⟩
  | index i =>
    have := dec_len (show i < 2 ^ 32 from h)
    have hle : ((dec i).takeWhile isDigit).length ≤ (dec i).length := by
      exact (List.takeWhile_prefix _).length_le
    obtain ⟨n, h1⟩ := toIntAt_some (dec i) 0 0 0 (by decide) (by omega)
    exact ⟨n, h1⟩

theorem keysOf_text : ∀ (p : List Seg), (∀ x ∈ p, Seg.Plain x) → keysOf (p.map Seg.text) = .ok (p.map keyOf)
  | [], _ => rfl
  | s :: p, h => by
    obtain ⟨n, h1⟩ := readable_key (h s (by simp))
    simp only [List.map_cons, keysOf, unescape_text, h1, keysOf_text p (fun x hx => h x (List.mem_cons_of_mem _ hx)), bind, Except.bind, pure, Except.pure]

/-! ## Positions -/

mutual
/-- The places of secrets, in the order in which they are found. -/
def places : Value → List (List Seg)
  | .secret v => [] :: places v
  | .array vs => placesItems 0 vs
  | .struct ms => placesMembers ms
  | _ => []
def placesItems (i : Nat) : List Value → List (List Seg)
  | [] => []
  | v :: vs => (places v).map (.index i :: ·) ++ placesItems (i + 1) vs
def placesMembers : List (Bytes × Value) → List (List Seg)
  | [] => []
  | (k, v) :: ms => (places v).map (.key k :: ·) ++ placesMembers ms
end

mutual
theorem gather_places : ∀ (v : Value) (ptr : List Seg), gather ptr v = (places v).map fun p => str (ptr ++ p)
  | .secret v, ptr => by simp only [gather, places, gather_places v ptr, List.map_cons, List.append_nil]
  | .array vs, ptr => by simp only [gather, places, gatherItems_places vs ptr 0]
  | .struct ms, ptr => by simp only [gather, places, gatherMembers_places ms ptr]
  | .int _, _ | .bool _, _ | .double _, _ | .null, _ | .string _, _ | .stringView _, _ | .binary _, _ | .binaryRef _, _ | .dateTime _, _ => by simp [gather, places]
theorem gatherItems_places : ∀ (vs : List Value) (ptr : List Seg) (i : Nat), gatherItems ptr i vs = (placesItems i vs).map fun p => str (ptr ++ p)
  | [], _, _ => rfl
  | v :: vs, ptr, i => by
    simp only [gatherItems, placesItems, gather_places v, gatherItems_places vs, List.map_append, List.map_map]
    congr 1
    apply List.map_congr_left
    simp
theorem gatherMembers_places : ∀ (ms : List (Bytes × Value)) (ptr : List Seg), gatherMembers ptr ms = (placesMembers ms).map fun p => str (ptr ++ p)
  | [], _ => rfl
  | (k, v) :: ms, ptr => by
    simp only [gatherMembers, placesMembers, gather_places v, gatherMembers_places ms, List.map_append, List.map_map]
    congr 1
    apply List.map_congr_left
    simp
end

mutual
theorem mem_places : ∀ (v : Value) (p : List Seg), p ∈ places v ↔ SecretAt v p
  | .secret v, p => by
    simp only [places, List.mem_cons, mem_places v p]
    constructor
    · rintro (rfl | h)
      · exact .here v
      · exact .inside v p h
    · rintro (_ | ⟨_, _, h⟩)
      · exact .inl rfl
      · exact .inr h
  | .array vs, p => by
    simp only [places, mem_placesItems vs 0 p]
    constructor
    · rintro ⟨j, v, q, h1, rfl, h2⟩
      exact .item vs (0 + j) v (by simpa using h1) q h2
    · rintro (_ | _ | ⟨_, i, v, hi, q, h⟩)
      exact ⟨i, v, q, hi, by simp, h⟩
  | .struct ms, p => by
    simp only [places, mem_placesMembers ms p]
    constructor
    · rintro ⟨k, v, q, h1, rfl, h2⟩
      exact .member ms k v h1 q h2
    · rintro (_ | _ | _ | ⟨_, k, v, hk, q, h⟩)
      exact ⟨k, v, q, hk, rfl, h⟩
  | .int _, p | .bool _, p | .double _, p | .null, p | .string _, p | .stringView _, p | .binary _, p | .binaryRef _, p | .dateTime _, p => by
    simp only [places, List.not_mem_nil, false_iff]; intro h; cases h
theorem mem_placesItems : ∀ (vs : List Value) (i : Nat) (p : List Seg), p ∈ placesItems i vs ↔ ∃ j v q, vs[j]? = some v ∧ p = .index (i + j) :: q ∧ SecretAt v q
  | [], i, p => by simp [placesItems]
  | v :: vs, i, p => by
    simp only [placesItems, List.mem_append, List.mem_map, mem_placesItems vs (i + 1) p, mem_places v]
    constructor
    · rintro (⟨q, h1, rfl⟩ | ⟨j, w, q, h1, rfl, h2⟩)
      · exact ⟨0, v, q, rfl, by simp, h1⟩
      · exact ⟨j + 1, w, q, by simpa using h1, by simp; omega, h2⟩
    · rintro ⟨j, w, q, h1, rfl, h2⟩
      cases j with
      | zero =>
        simp only [List.getElem?_cons_zero, Option.some.injEq] at h1
        subst h1
        exact .inl ⟨q, h2, by simp⟩
      | succ j => exact .inr ⟨j, w, q, by simpa using h1, by simp; omega, h2⟩
theorem mem_placesMembers : ∀ (ms : List (Bytes × Value)) (p : List Seg), p ∈ placesMembers ms ↔ ∃ k v q, (k, v) ∈ ms ∧ p = .key k :: q ∧ SecretAt v q
  | [], p => by simp [placesMembers]
  | (k, v) :: ms, p => by
    simp only [placesMembers, List.mem_append, List.mem_map, mem_placesMembers ms p, mem_places v]
    constructor
    · rintro (⟨q, h1, rfl⟩ | ⟨k', w, q, h1, rfl, h2⟩)
      · exact ⟨k, v, q, by simp, rfl, h1⟩
      · exact ⟨k', w, q, by simp [h1], rfl, h2⟩
    · rintro ⟨k', w, q, h1, rfl, h2⟩
      rcases List.mem_cons.1 h1 with h | h
      · cases h; exact .inl ⟨q, h2, rfl⟩
      · exact .inr ⟨k', w, q, h, rfl, h2⟩
end

/-! ## The tree of pointers -/

/-- The tree of a list of pointers. -/
def treeOf (L : List (List Bytes)) : Edges := L.foldl (fun es l => addPointer l es) []

theorem buildTree_places : ∀ (L : List (List Seg)), (∀ p ∈ L, ∀ x ∈ p, Seg.Plain x) → ∀ es, buildTree es (L.map str) =
    .ok ((L.map fun p => p.map keyOf).foldl (fun es l => addPointer l es) es)
  | [], _, es => rfl
  | p :: L, h, es => by
    have ih := buildTree_places L (fun q hq => h q (List.mem_cons_of_mem _ hq))
    have hp := h p (by simp)
    cases p with
    | nil =>
      simp only [List.map_cons, str, List.flatMap_nil, if_true, buildTree, pointerKeys, bind, Except.bind, ih, List.map_nil, List.foldl_cons, addPointer]
    | cons s p =>
      have e : str (s :: p) = 47 :: (s.text ++ p.flatMap fun s => 47 :: s.text) := by simp [str]
      simp only [List.map_cons, e, buildTree, pointerKeys]
      rw [if_neg (by simp [text_ne_nil (hp s (by simp))]), segments_pointer s p hp, keysOf_text (s :: p) hp]
      simp only [bind, Except.bind, ih, List.foldl_cons, List.map_cons]

/-- What the pointers say below a key. -/
def below {α} [DecidableEq α] (k : α) : List (List α) → List (List α)
  | [] => []
  | [] :: L => below k L
  | (k' :: l) :: L => if k' = k then l :: below k L else below k L

theorem mem_below {α} [DecidableEq α] {k : α} {l : List α} : ∀ {L : List (List α)}, l ∈ below k L ↔ (k :: l) ∈ L
  | [] => by simp [below]
  | [] :: L => by simp [below, mem_below (L := L)]
  | (k' :: m) :: L => by
    unfold below
    split
    · next h => subst h; simp [mem_below (L := L)]
    · next h =>
      simp only [mem_below (L := L), List.mem_cons, List.cons.injEq]
      constructor
      · exact .inr
      · rintro (⟨h1, -⟩ | h1)
        · exact absurd h1.symm h
        · exact h1

theorem below_append {α} [DecidableEq α] (k : α) : ∀ (L M : List (List α)), below k (L ++ M) = below k L ++ below k M
  | [], M => rfl
  | [] :: L, M => by simp [below, below_append k L M]
  | (k' :: l) :: L, M => by
    simp only [List.cons_append, below]
    split <;> simp [below_append k L M]

/-- What an edge leads to, by the pointers below it. -/
def classify (L : List (List Bytes)) : Option STree :=
  if L = [] then none else if L.all List.isEmpty then some .null else some (.node (treeOf L))

theorem findKey_addThen_same (k : Bytes) (f : STree → STree) : ∀ es, findKey k (addThen k f es) = some (f ((findKey k es).getD .null))
  | [] => by simp [addThen, findKey]
  | (k', t) :: es => by
    simp only [addThen, findKey]
    split
    · simp [findKey, *]
    · simp [findKey, *, findKey_addThen_same k f es]

theorem findKey_addThen_other {k k' : Bytes} (h : k' ≠ k) (f : STree → STree) : ∀ es, findKey k (addThen k' f es) = findKey k es
  | [] => by simp [addThen, findKey, h]
  | (k'', t) :: es => by
    simp only [addThen]
    split
    · next h1 => subst h1; simp [findKey, h]
    · simp only [findKey, findKey_addThen_other h f es]

theorem treeOf_append (L : List (List Bytes)) (l : List Bytes) : treeOf (L ++ [l]) = addPointer l (treeOf L) := by
  simp [treeOf]

theorem treeOf_nils : ∀ (L : List (List Bytes)), L.all List.isEmpty = true → treeOf L = [] := by
  intro L h
  have : ∀ (L : List (List Bytes)) (es : Edges), L.all List.isEmpty = true → L.foldl (fun es l => addPointer l es) es = es := by
    intro L
    induction L with
    | nil => intros; rfl
    | cons l L ih =>
      intro es h
      simp only [List.all_cons, Bool.and_eq_true, List.isEmpty_iff] at h
      obtain ⟨rfl, h⟩ := h
      simp only [List.foldl_cons, addPointer]
      exact ih es h
  exact this L [] h

theorem edges_classify (L : List (List Bytes)) : ((classify L).getD .null).edges = treeOf L := by
  unfold classify
  split
  · next h => subst h; rfl
  · split
    · next h => exact (treeOf_nils L h).symm
    · rfl

theorem reverse_ind {α} {P : List α → Prop} (h0 : P []) (h1 : ∀ L a, P L → P (L ++ [a])) (L : List α) : P L := by
  have : ∀ L : List α, P L.reverse := by
    intro L
    induction L with
    | nil => exact h0
    | cons a L ih => rw [List.reverse_cons]; exact h1 _ _ ih
  have h := this L.reverse
  rwa [List.reverse_reverse] at h

theorem findKey_treeOf (k : Bytes) : ∀ (L : List (List Bytes)), findKey k (treeOf L) = classify (below k L) := by
  intro L
  induction L using reverse_ind with
  | h0 => rfl
  | h1 L l ih =>
    rw [treeOf_append, below_append]
    cases l with
    | nil => simp only [addPointer, below, List.append_nil]; exact ih
    | cons k' l =>
      by_cases hk : k' = k
      · subst hk
        have e : below k' [k' :: l] = [l] := by simp [below]
        rw [e]
        cases l with
        | nil =>
          simp only [addPointer, findKey_addThen_same, ih, id]
          unfold classify
          by_cases h0 : below k' L = []
          · simp [h0]
          · rw [if_neg h0, if_neg (show ¬ below k' L ++ [[]] = [] by simp)]
            by_cases h1 : (below k' L).all List.isEmpty = true
            · rw [if_pos h1, if_pos (by rw [List.all_append, h1]; rfl)]; rfl
            · rw [if_neg h1, if_neg (by rw [List.all_append]; simp [h1]), treeOf_append]; rfl
        | cons k2 l =>
          simp only [addPointer, findKey_addThen_same, ih, edges_classify]
          unfold classify
          rw [if_neg (by simp), if_neg (by simp [List.all_append]), treeOf_append]
      · have e : below k [k' :: l] = [] := by simp [below, hk]
        rw [e, List.append_nil, ← ih]
        cases l with
        | nil => simp only [addPointer]; rw [findKey_addThen_other hk]
        | cons k2 l => simp only [addPointer]; rw [findKey_addThen_other hk]

/-- The keys of the edges. -/
theorem keys_treeOf : ∀ (L : List (List Bytes)) (e : Bytes × STree), e ∈ treeOf L → ∃ l, (e.1 :: l) ∈ L := by
  have hadd : ∀ (k : Bytes) (f : STree → STree) (es : Edges) (e : Bytes × STree), e ∈ addThen k f es → e.1 = k ∨ ∃ t, (e.1, t) ∈ es := by
    intro k f es
    induction es with
    | nil => intro e he; simp only [addThen, List.mem_singleton] at he; subst he; exact .inl rfl
    | cons x es ih =>
      obtain ⟨k', t⟩ := x
      intro e he
      simp only [addThen] at he
      split at he
      · next h =>
        rcases List.mem_cons.1 he with rfl | he
        · exact .inl h
        · exact .inr ⟨e.2, by simp [he]⟩
      · rcases List.mem_cons.1 he with rfl | he
        · exact .inr ⟨t, by simp⟩
        · rcases ih e he with h | ⟨t', h⟩
          · exact .inl h
          · exact .inr ⟨t', by simp [h]⟩
  intro L
  induction L using reverse_ind with
  | h0 => intro e he; cases he
  | h1 L l ih =>
    intro e he
    rw [treeOf_append] at he
    have lift : (∃ t, (e.1, t) ∈ treeOf L) → ∃ m, (e.1 :: m) ∈ L ++ [l] := by
      rintro ⟨t, h⟩
      obtain ⟨m, hm⟩ := ih _ h
      exact ⟨m, by simp [hm]⟩
    cases l with
    | nil => exact lift ⟨e.2, he⟩
    | cons k l =>
      cases l with
      | nil =>
        simp only [addPointer] at he
        rcases hadd _ _ _ _ he with h | h
        · exact ⟨[], by simp [h]⟩
        · exact lift h
      | cons k2 l =>
        simp only [addPointer] at he
        rcases hadd _ _ _ _ he with h | h
        · exact ⟨k2 :: l, by simp [h]⟩
        · exact lift h

theorem findIndex_good {i : Nat} (hi : i < 2 ^ 32) (hz : ¬ InnerZero i) : ∀ (es : Edges), (∀ e ∈ es, ∃ j, j < 2 ^ 32 ∧ e.1 = dec j) → findIndex i es = findKey (dec i) es
  | [], _ => rfl
  | (k, t) :: es, h => by
    obtain ⟨j, hj, rfl⟩ : ∃ j, j < 2 ^ 32 ∧ k = dec j := h (k, t) (by simp)
    have ih := findIndex_good hi hz es (fun e he => h e (List.mem_cons_of_mem _ he))
    unfold findIndex findKey
    by_cases hij : j = i
    · subst hij
      rw [if_pos rfl, if_pos (by unfold isIndex; rw [toInt_dec hj hz]; simp)]
    · rw [if_neg (fun h => hij (dec_inj h)), ih, if_neg]
      unfold isIndex
      by_cases hjz : InnerZero j
      · rw [toInt_dec_zero hj hjz]; simp
      · rw [toInt_dec hj hjz]; simp; omega

theorem findIndex_none {i : Nat} : ∀ (es : Edges), (∀ e ∈ es, ∃ j, j < 2 ^ 32 ∧ e.1 = dec j ∧ (j = i → InnerZero i)) → findIndex i es = none
  | [], _ => rfl
  | (k, t) :: es, h => by
    obtain ⟨j, hj, hk, hij⟩ := h (k, t) (by simp)
    simp only at hk
    subst hk
    unfold findIndex
    rw [if_neg, findIndex_none es (fun e he => h e (List.mem_cons_of_mem _ he))]
    unfold isIndex
    by_cases hjz : InnerZero j
    · rw [toInt_dec_zero hj hjz]; simp
    · rw [toInt_dec hj hjz]
      simp only [beq_iff_eq]
      intro h
      have : j = i := by omega
      subst this
      exact hjz (hij rfl)

end Secrets
end Frpc
