import Verif.Model.Compare
import Verif.Spec.Order
import Verif.Proofs.StructMap
/-! # Comparison is a lexicographic order on token lists -/
namespace Frpc
namespace Compare
open Spec

/-- Lexicographic comparison. -/
def lex : List Int → List Int → Int
  | x :: xs, y :: ys => if x < y then -1 else if y < x then 1 else lex xs ys
  | _ :: _, [] => 1
  | [], _ :: _ => -1
  | [], [] => 0

/-- Tokens of a byte string. -/
def btok (s : Bytes) : List Int := s.map (fun c => (c.toNat : Int) + 1) ++ [0]

mutual
def tok : Value → List Int
  | .int n => [0x01, n]
  | .bool b => [0x02, if b then 1 else 0]
  | .double b => [0x03, dblKey b]
  | .string s => 0x04 :: btok s
  | .dateTime d => [0x05, d.unixTime]
  | .binary s => 0x06 :: btok s
  | .struct ms => 0x0A :: tokMembers ms
  | .array vs => 0x0B :: tokItems vs
  | .null => [0x0C]
  | .binaryRef _ => [0x0D]
  | .stringView _ => [0x0E]
  | .secret _ => [0x3E]
def tokItems : List Value → List Int
  | [] => [0]
  | v :: vs => 1 :: (tok v ++ tokItems vs)
def tokMembers : List (Bytes × Value) → List Int
  | [] => [0]
  | (k, v) :: ms => 1 :: (btok k ++ tok v ++ tokMembers ms)
end

theorem lex_range : ∀ a b, lex a b = -1 ∨ lex a b = 0 ∨ lex a b = 1
  | [], [] => by simp [lex]
  | [], _ :: _ => by simp [lex]
  | _ :: _, [] => by simp [lex]
  | x :: xs, y :: ys => by
    unfold lex
    by_cases h1 : x < y
    · simp [h1]
    · by_cases h2 : y < x
      · simp [h1, h2]
      · simpa [h1, h2] using lex_range xs ys

theorem lex_self : ∀ a, lex a a = 0
  | [] => rfl
  | x :: xs => by unfold lex; simp [lex_self xs]

theorem lex_neg : ∀ a b, lex b a = - lex a b
  | [], [] => by simp [lex]
  | [], _ :: _ => by simp [lex]
  | _ :: _, [] => by simp [lex]
  | x :: xs, y :: ys => by
    unfold lex
    by_cases h1 : x < y
    · have : ¬ y < x := by omega
      simp [h1, this]
    · by_cases h2 : y < x
      · simp [h1, h2]
      · simpa [h1, h2] using lex_neg xs ys

theorem lex_trans : ∀ a b c, lex a b ≤ 0 → lex b c ≤ 0 → lex a c ≤ 0
  | [], _, [] => by simp [lex]
  | [], _, _ :: _ => by simp [lex]
  | _ :: _, [], _ => by simp [lex]
  | _ :: _, _ :: _, [] => by simp [lex]
  | x :: xs, y :: ys, z :: zs => by
    unfold lex
    intro h1 h2
    by_cases a1 : x < y
    · by_cases a2 : y < z
      · have : x < z := by omega
        simp [this]
      · by_cases a3 : z < y
        · simp [a2, a3] at h2
        · have : x < z := by omega
          simp [this]
    · by_cases a2 : y < x
      · simp [a1, a2] at h1
      · have e : x = y := by omega
        subst e
        simp only [a1, if_false] at h1
        by_cases b1 : x < z
        · simp [b1]
        · by_cases b2 : z < x
          · simp [b1, b2] at h2
          · simp only [b1, b2, if_false] at h2 ⊢
            exact lex_trans xs ys zs h1 h2

theorem isNaN_iff (b : BitVec 64) : isNaN b = true ↔ NaN b := by
  unfold isNaN NaN
  rw [decide_eq_true_iff]
  have e1 : (b.extractLsb' 52 11 = 0x7FF#11) ↔ b.toNat / 2 ^ 52 % 2 ^ 11 = 2047 := by
    rw [← BitVec.toNat_inj]; simp [Nat.shiftRight_eq_div_pow]
  have e2 : (b.extractLsb' 0 52 ≠ 0#52) ↔ b.toNat % 2 ^ 52 ≠ 0 := by
    rw [ne_eq, ← BitVec.toNat_inj]; simp
  rw [e1, e2]
  have := b.isLt
  omega

/-- `lex` of a common prefix decided by a comparison result. -/
def Decides (r : Int) (a b : List Int) : Prop :=
  ∀ xs ys, lex (a ++ xs) (b ++ ys) = if r ≠ 0 then r else lex xs ys

theorem decides_cons_ne {x y : Int} {a b} : x ≠ y → Decides (if x < y then -1 else 1) (x :: a) (y :: b) := by
  intro h xs ys
  simp only [List.cons_append, lex]
  by_cases h1 : x < y
  · simp [h1]
  · have : y < x := by omega
    simp [h1, this]

theorem decides_cons {x : Int} {a b r} (h : Decides r a b) : Decides r (x :: a) (x :: b) := by
  intro xs ys
  simp only [List.cons_append, lex, Int.lt_irrefl, if_false]
  exact h xs ys

theorem decides_append {r s : Int} {a b c d} (h1 : Decides r a b) (h2 : Decides s c d) :
    Decides (if r ≠ 0 then r else s) (a ++ c) (b ++ d) := by
  intro xs ys
  rw [List.append_assoc, List.append_assoc, h1]
  by_cases h : r = 0
  · simp [h, h2 xs ys]
  · simp [h]

theorem decides_one (x y : Int) : Decides (byLess (fun a b : Int => decide (a < b)) x y) [x] [y] := by
  intro xs ys
  unfold byLess
  simp only [List.cons_append, List.nil_append, lex, decide_eq_true_eq]
  by_cases h1 : x < y
  · simp [h1]
  · by_cases h2 : y < x <;> simp [h1, h2]

theorem decides_nil : Decides 0 [] [] := by intro xs ys; simp

theorem decides_bytes : ∀ a b : Bytes, Decides (byLess keyLt a b) (btok a) (btok b)
  | [], [] => by simpa [btok, byLess, keyLt] using decides_one 0 0
  | [], y :: ys => by
    have := @decides_cons_ne 0 ((y.toNat : Int) + 1) [] (btok ys) (by omega)
    simpa [btok, byLess, keyLt, show (0 : Int) < (y.toNat : Int) + 1 by omega] using this
  | x :: xs, [] => by
    have := @decides_cons_ne ((x.toNat : Int) + 1) 0 (btok xs) [] (by omega)
    simpa [btok, byLess, keyLt, show ¬ (x.toNat : Int) + 1 < (0 : Int) by omega] using this
  | x :: xs, y :: ys => by
    have ih := decides_bytes xs ys
    by_cases h1 : x.toNat < y.toNat
    · have h2 : ¬ y.toNat < x.toNat := by omega
      have := @decides_cons_ne ((x.toNat : Int) + 1) ((y.toNat : Int) + 1) (btok xs) (btok ys) (by omega)
      simpa [btok, byLess, keyLt, h1, h2] using this
    · by_cases h2 : y.toNat < x.toNat
      · have := @decides_cons_ne ((x.toNat : Int) + 1) ((y.toNat : Int) + 1) (btok xs) (btok ys) (by omega)
        simpa [btok, byLess, keyLt, h1, h2] using this
      · have e : x.toNat = y.toNat := by omega
        have := decides_cons (x := (x.toNat : Int) + 1) ih
        simpa [btok, byLess, keyLt, h1, h2, e] using this

theorem compare_eq (l r : Value) (h : typeTag l = typeTag r) : compare l r = (match (generalizing := false) l, r with
  | .bool x, .bool y => .ok (byLess (fun a b : Bool => !a && b) x y)
  | .int x, .int y => .ok (byLess (fun a b : Int => decide (a < b)) x y)
  | .double x, .double y => .ok (byLess dblLess x y)
  | .string x, .string y => .ok (byLess keyLt x y)
  | .binary x, .binary y => .ok (byLess keyLt x y)
  | .dateTime x, .dateTime y => .ok (byLess (fun a b : Int => decide (a < b)) x.unixTime y.unixTime)
  | .struct x, .struct y => compareMembers x y
  | .array x, .array y => compareItems x y
  | .null, .null => .ok 0
  | _, _ => .error .other) := by
  unfold compare
  have : byLess (fun a b : Nat => decide (a < b)) (typeTag l) (typeTag r) = 0 := by simp [h, byLess]
  simp only [this]
  rw [if_neg (by simp)]
  rfl

theorem compare_ne (l r : Value) (h : typeTag l ≠ typeTag r) :
    compare l r = .ok (if typeTag l < typeTag r then -1 else 1) := by
  unfold compare
  have : byLess (fun a b : Nat => decide (a < b)) (typeTag l) (typeTag r) = if typeTag l < typeTag r then -1 else 1 := by
    by_cases h1 : typeTag l < typeTag r
    · simp [h1, byLess]
    · have : typeTag r < typeTag l := by omega
      simp [h1, byLess, this]
  simp only [this]
  rw [if_pos]
  split <;> simp

theorem tok_head (v : Value) : ∃ t, tok v = (typeTag v : Int) :: t := by
  cases v <;> simp [tok, typeTag]

abbrev Good (v : Value) : Prop := Comparable (fun b => ¬ NaN b) v

theorem tag_ne {l r : Value} (h : typeTag l ≠ typeTag r) :
    ∃ c, compare l r = .ok c ∧ Decides c (tok l) (tok r) := by
  refine ⟨_, compare_ne l r h, ?_⟩
  obtain ⟨t, ht⟩ := tok_head l
  obtain ⟨u, hu⟩ := tok_head r
  rw [ht, hu]
  have := @decides_cons_ne (typeTag l : Int) (typeTag r : Int) t u (by omega)
  simpa using this

theorem dbl_byLess {x y : BitVec 64} (hx : ¬ NaN x) (hy : ¬ NaN y) :
    byLess dblLess x y = byLess (fun a b : Int => decide (a < b)) (dblKey x) (dblKey y) := by
  rw [← isNaN_iff] at hx hy
  simp [byLess, dblLess, hx, hy]

mutual
theorem decides_value : ∀ (l r : Value), Good l → Good r → ∃ c, compare l r = .ok c ∧ Decides c (tok l) (tok r) := by
  intro l r hl hr
  by_cases ht : typeTag l ≠ typeTag r
  · exact tag_ne ht
  replace ht : typeTag l = typeTag r := Decidable.not_not.1 ht
  rw [compare_eq l r ht]
  cases l with
  | int n =>
    cases r with
    | int m => exact ⟨_, rfl, decides_cons (decides_one n m)⟩
    | _ => simp [typeTag] at ht
  | bool n =>
    cases r with
    | bool m =>
      refine ⟨_, rfl, ?_⟩
      have := decides_cons (x := 2) (decides_one (if n then 1 else 0) (if m then 1 else 0))
      cases n <;> cases m <;> simpa [tok, byLess] using this
    | _ => simp [typeTag] at ht
  | double n =>
    cases r with
    | double m =>
      refine ⟨_, rfl, ?_⟩
      simp only [Good, Comparable] at hl hr
      rw [dbl_byLess hl hr]
      exact decides_cons (decides_one _ _)
    | _ => simp [typeTag] at ht
  | string n =>
    cases r with
    | string m => exact ⟨_, rfl, decides_cons (decides_bytes n m)⟩
    | _ => simp [typeTag] at ht
  | binary n =>
    cases r with
    | binary m => exact ⟨_, rfl, decides_cons (decides_bytes n m)⟩
    | _ => simp [typeTag] at ht
  | dateTime n =>
    cases r with
    | dateTime m => exact ⟨_, rfl, decides_cons (decides_one _ _)⟩
    | _ => simp [typeTag] at ht
  | null =>
    cases r with
    | null => exact ⟨_, rfl, decides_cons decides_nil⟩
    | _ => simp [typeTag] at ht
  | struct n =>
    cases r with
    | struct m =>
      obtain ⟨c, h1, h2⟩ := decides_members n m hl hr
      exact ⟨c, h1, decides_cons h2⟩
    | _ => simp [typeTag] at ht
  | array n =>
    cases r with
    | array m =>
      obtain ⟨c, h1, h2⟩ := decides_items n m hl hr
      exact ⟨c, h1, decides_cons h2⟩
    | _ => simp [typeTag] at ht
  | binaryRef _ => simp [Good, Comparable] at hl
  | stringView _ => simp [Good, Comparable] at hl
  | secret _ => simp [Good, Comparable] at hl
theorem decides_items : ∀ (l r : List Value), ComparableItems (fun b => ¬ NaN b) l → ComparableItems (fun b => ¬ NaN b) r →
    ∃ c, compareItems l r = .ok c ∧ Decides c (tokItems l) (tokItems r)
  | [], [], _, _ => ⟨0, by simp [compareItems], by simpa [tokItems] using decides_cons (x := 0) decides_nil⟩
  | [], v :: vs, _, _ => ⟨-1, by simp [compareItems], by
      simpa [tokItems] using @decides_cons_ne 0 1 [] (tok v ++ tokItems vs) (by omega)⟩
  | v :: vs, [], _, _ => ⟨1, by simp [compareItems], by
      simpa [tokItems] using @decides_cons_ne 1 0 (tok v ++ tokItems vs) [] (by omega)⟩
  | v :: vs, w :: ws, hl, hr => by
    simp only [ComparableItems] at hl hr
    obtain ⟨c, h1, h2⟩ := decides_value v w hl.1 hr.1
    obtain ⟨d, h3, h4⟩ := decides_items vs ws hl.2 hr.2
    refine ⟨if c ≠ 0 then c else d, ?_, ?_⟩
    · rw [compareItems, h1]
      by_cases hc : c = 0
      · subst hc; simpa [bind, Except.bind] using h3
      · simp [bind, Except.bind, hc, pure, Except.pure]
    · simp only [tokItems]
      exact decides_cons (decides_append h2 h4)
theorem decides_members : ∀ (l r : List (Bytes × Value)), ComparableMembers (fun b => ¬ NaN b) l → ComparableMembers (fun b => ¬ NaN b) r →
    ∃ c, compareMembers l r = .ok c ∧ Decides c (tokMembers l) (tokMembers r)
  | [], [], _, _ => ⟨0, by simp [compareMembers], by simpa [tokMembers] using decides_cons (x := 0) decides_nil⟩
  | [], (k, v) :: vs, _, _ => ⟨-1, by simp [compareMembers], by
      simpa [tokMembers] using @decides_cons_ne 0 1 [] (btok k ++ tok v ++ tokMembers vs) (by omega)⟩
  | (k, v) :: vs, [], _, _ => ⟨1, by simp [compareMembers], by
      simpa [tokMembers] using @decides_cons_ne 1 0 (btok k ++ tok v ++ tokMembers vs) [] (by omega)⟩
  | (k, v) :: vs, (k', w) :: ws, hl, hr => by
    simp only [ComparableMembers] at hl hr
    obtain ⟨c, h1, h2⟩ := decides_value v w hl.1 hr.1
    obtain ⟨d, h3, h4⟩ := decides_members vs ws hl.2 hr.2
    have hb := decides_bytes k k'
    refine ⟨if (if byLess keyLt k k' ≠ 0 then byLess keyLt k k' else c) ≠ 0 then (if byLess keyLt k k' ≠ 0 then byLess keyLt k k' else c) else d, ?_, ?_⟩
    · rw [compareMembers]
      by_cases hk : byLess keyLt k k' = 0
      · rw [h1]
        by_cases hc : c = 0
        · subst hc; simpa [bind, Except.bind, hk] using h3
        · simp [bind, Except.bind, hk, hc, pure, Except.pure]
      · simp [hk]
    · simp only [tokMembers]
      exact decides_cons (decides_append (decides_append hb h2) h4)
end

/-- Comparison is comparison of the token lists. -/
theorem compare_lex {l r : Value} (hl : Good l) (hr : Good r) : compare l r = .ok (lex (tok l) (tok r)) := by
  obtain ⟨c, h1, h2⟩ := decides_value l r hl hr
  have := h2 [] []
  simp only [List.append_nil, lex] at this
  rw [h1, this]
  by_cases h : c = 0 <;> simp [h]

theorem byLess_int (x y : Int) : byLess (fun a b : Int => decide (a < b)) x y = 0 ↔ x = y := by
  unfold byLess
  simp only [decide_eq_true_eq]
  by_cases h1 : x < y
  · simp [h1]; omega
  · by_cases h2 : y < x
    · simp [h1, h2]; omega
    · simp [h1, h2]; omega

theorem byLess_key (x y : Bytes) : byLess keyLt x y = 0 ↔ x = y := by
  unfold byLess
  rcases keyLt_total x y with h | h | h
  · simp only [h, if_true]
    constructor
    · intro h; omega
    · rintro rfl; rw [keyLt_irrefl] at h; cases h
  · subst h; simp [keyLt_irrefl]
  · have h' : keyLt x y = false := by
      cases hh : keyLt x y
      · rfl
      · have := keyLt_trans _ _ _ hh h; rw [keyLt_irrefl] at this; cases this
    simp only [h, h', if_true]
    constructor
    · intro h; simp at h
    · rintro rfl; rw [h'] at h; cases h

theorem dblKey_eq {x y : BitVec 64} : dblKey x = dblKey y ↔
    (if x = 0x8000000000000000#64 then 0 else x) = (if y = 0x8000000000000000#64 then 0 else y) := by
  have hx := x.isLt
  have hy := y.isLt
  have ex : x = 0x8000000000000000#64 ↔ x.toNat = 2 ^ 63 := by rw [← BitVec.toNat_inj]; simp
  have ey : y = 0x8000000000000000#64 ↔ y.toNat = 2 ^ 63 := by rw [← BitVec.toNat_inj]; simp
  have exy : x = y ↔ x.toNat = y.toNat := by rw [← BitVec.toNat_inj]
  have e0 : x = 0 ↔ x.toNat = 0 := by rw [← BitVec.toNat_inj]; simp
  have e1 : (0 : BitVec 64) = y ↔ y.toNat = 0 := by rw [← BitVec.toNat_inj]; simp [eq_comm]
  by_cases h1 : x.toNat = 2 ^ 63
  · rw [if_pos (ex.2 h1)]
    by_cases h2 : y.toNat = 2 ^ 63
    · rw [if_pos (ey.2 h2)]; unfold dblKey; simp [h1, h2]
    · rw [if_neg (fun h => h2 (ey.1 h)), e1]
      unfold dblKey
      rw [h1]
      by_cases h3 : y.toNat < 2 ^ 63
      · simp only [h3, if_true]; simp; omega
      · simp only [h3, if_false]; simp; omega
  · rw [if_neg (fun h => h1 (ex.1 h))]
    by_cases h2 : y.toNat = 2 ^ 63
    · rw [if_pos (ey.2 h2), e0]
      unfold dblKey
      rw [h2]
      by_cases h3 : x.toNat < 2 ^ 63
      · simp only [h3, if_true]; simp
      · simp only [h3, if_false]; simp; omega
    · rw [if_neg (fun h => h2 (ey.1 h)), exy]
      unfold dblKey
      by_cases h3 : x.toNat < 2 ^ 63 <;> by_cases h4 : y.toNat < 2 ^ 63 <;> simp only [h3, h4, if_true, if_false] <;> omega

mutual
theorem zero_value : ∀ (l r : Value), Good l → Good r → (compare l r = .ok 0 ↔ essence l = essence r) := by
  intro l r hl hr
  by_cases ht : typeTag l ≠ typeTag r
  · rw [compare_ne _ _ ht]
    constructor
    · intro h; split at h <;> simp at h
    · intro h
      exfalso; apply ht
      have e : ∀ v, typeTag (essence v) = typeTag v := by intro v; cases v <;> simp [essence, typeTag]
      rw [← e l, ← e r, h]
  replace ht : typeTag l = typeTag r := Decidable.not_not.1 ht
  rw [compare_eq l r ht]
  cases l with
  | int n =>
    cases r with
    | int m => simp [essence, byLess_int]
    | _ => simp [typeTag] at ht
  | bool n =>
    cases r with
    | bool m => cases n <;> cases m <;> simp [essence, byLess]
    | _ => simp [typeTag] at ht
  | double n =>
    cases r with
    | double m =>
      simp only [Good, Comparable] at hl hr
      simp only [essence, dbl_byLess hl hr, Except.ok.injEq, byLess_int, dblKey_eq, Value.double.injEq]
    | _ => simp [typeTag] at ht
  | string n =>
    cases r with
    | string m => simp [essence, byLess_key]
    | _ => simp [typeTag] at ht
  | binary n =>
    cases r with
    | binary m => simp [essence, byLess_key]
    | _ => simp [typeTag] at ht
  | dateTime n =>
    cases r with
    | dateTime m => simp [essence, byLess_int]
    | _ => simp [typeTag] at ht
  | null =>
    cases r with
    | null => simp
    | _ => simp [typeTag] at ht
  | struct n =>
    cases r with
    | struct m => simpa [essence] using zero_members n m hl hr
    | _ => simp [typeTag] at ht
  | array n =>
    cases r with
    | array m => simpa [essence] using zero_items n m hl hr
    | _ => simp [typeTag] at ht
  | binaryRef _ => simp [Good, Comparable] at hl
  | stringView _ => simp [Good, Comparable] at hl
  | secret _ => simp [Good, Comparable] at hl
theorem zero_items : ∀ (l r : List Value), ComparableItems (fun b => ¬ NaN b) l → ComparableItems (fun b => ¬ NaN b) r →
    (compareItems l r = .ok 0 ↔ essenceItems l = essenceItems r)
  | [], [], _, _ => by simp [compareItems]
  | [], v :: vs, _, _ => by simp [compareItems, essenceItems]
  | v :: vs, [], _, _ => by simp [compareItems, essenceItems]
  | v :: vs, w :: ws, hl, hr => by
    simp only [ComparableItems] at hl hr
    obtain ⟨c, h1, _⟩ := decides_value v w hl.1 hr.1
    have z := zero_value v w hl.1 hr.1
    have ih := zero_items vs ws hl.2 hr.2
    rw [compareItems, h1]
    rw [h1] at z
    simp only [essenceItems, List.cons.injEq, ← z, ← ih]
    by_cases hc : c = 0
    · subst hc; simp [bind, Except.bind]
    · simp [bind, Except.bind, hc, pure, Except.pure]
theorem zero_members : ∀ (l r : List (Bytes × Value)), ComparableMembers (fun b => ¬ NaN b) l → ComparableMembers (fun b => ¬ NaN b) r →
    (compareMembers l r = .ok 0 ↔ essenceMembers l = essenceMembers r)
  | [], [], _, _ => by simp [compareMembers]
  | [], v :: vs, _, _ => by simp [compareMembers, essenceMembers]
  | v :: vs, [], _, _ => by simp [compareMembers, essenceMembers]
  | (k, v) :: vs, (k', w) :: ws, hl, hr => by
    simp only [ComparableMembers] at hl hr
    obtain ⟨c, h1, _⟩ := decides_value v w hl.1 hr.1
    have z := zero_value v w hl.1 hr.1
    have ih := zero_members vs ws hl.2 hr.2
    rw [compareMembers, h1]
    rw [h1] at z
    simp only [essenceMembers, List.cons.injEq, Prod.mk.injEq, ← z, ← ih, ← byLess_key k k']
    by_cases hk : byLess keyLt k k' = 0
    · by_cases hc : c = 0
      · subst hc; simp [bind, Except.bind, hk]
      · simp [bind, Except.bind, hc, hk, pure, Except.pure]
    · simp [hk]
end

end Compare
end Frpc
