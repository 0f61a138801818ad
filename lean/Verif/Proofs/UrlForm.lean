import Verif.Model.UrlForm
import Verif.Spec.UrlForm
import Verif.Proofs.IsoDate
import Verif.Proofs.StructMap
/-! # Proofs about URL-encoded requests -/
namespace Frpc
namespace UrlForm
open IsoDate

/-- `urldecode` by recursion on the text. -/
def pdecode : Bytes → Except Err Bytes
  | [] => .ok []
  | [c] => if c = 37 then .error .ub else if c = 43 then .ok [32] else .ok [c]
  | [c, d] => if c = 37 then .ok [] else
      match pdecode [d] with
      | .ok r => .ok ((if c = 43 then 32 else c) :: r)
      | .error e => .error e
  | c :: a :: b :: s =>
    if c = 37 then
      match pdecode s with
      | .ok r => .ok (unhex a b :: r)
      | .error e => .error e
    else
      match pdecode (a :: b :: s) with
      | .ok r => .ok ((if c = 43 then 32 else c) :: r)
      | .error e => .error e
termination_by s => s.length

theorem pdecode_cons {c : UInt8} (s : Bytes) (h : c ≠ 37) : pdecode (c :: s) =
    match pdecode s with
    | .ok r => .ok ((if c = 43 then 32 else c) :: r)
    | .error e => .error e := by
  match s with
  | [] => simp only [pdecode, if_neg h]; split <;> rfl
  | [d] => simp only [pdecode, if_neg h]
  | a :: b :: s => rw [pdecode, if_neg h]

theorem urldecodeLoop_eq (d : Bytes) : ∀ (n : Nat) (s : Bytes) (f i : Nat) (res : Bytes), s.length ≤ n → At d i s → s.length < f →
    urldecodeLoop d f i res = match pdecode s with
      | .ok r => .ok (res ++ r)
      | .error e => .error e := by
  intro n
  induction n with
  | zero =>
    intro s f i res hn h hf
    have : s = [] := List.length_eq_zero_iff.1 (by omega)
    subst this
    match f, hf with
    | f + 1, _ => simp [urldecodeLoop, h.nil, pdecode]
  | succ n ih =>
    intro s f i res hn h hf
    match s, h, hf with
    | [], h, hf =>
      match f, hf with
      | f + 1, _ => simp [urldecodeLoop, h.nil, pdecode]
    | c :: s, h, hf =>
      obtain ⟨hr, hne, h2⟩ := h.cons
      obtain ⟨f, rfl⟩ : ∃ g, f = g + 1 := ⟨f - 1, by omega⟩
      simp only [List.length_cons] at hn hf
      unfold urldecodeLoop
      rw [if_neg hne, hr]
      simp only [bind, Except.bind]
      by_cases hc : c = 37
      · subst hc
        rw [if_pos rfl]
        match s, h2, hn, hf with
        | [], h2, hn, hf =>
          have hl := h2.nil
          rw [if_pos (by omega)]
          match f, hf with
          | f + 1, _ =>
          have : d[i+1+1]? = none := by simp; omega
          simp [urldecodeLoop, pdecode, rd, this, bind, Except.bind]
          omega
        | [x], h2, hn, hf =>
          have hl := h2.cons.2.2.nil
          rw [if_pos (by omega), ih [] f _ res (by simp) h2.cons.2.2 (by simp at hf; simp; omega)]
          simp [pdecode]
        | a :: b :: s, h2, hn, hf =>
          obtain ⟨ha, -, h3⟩ := h2.cons
          obtain ⟨hb, -, h4⟩ := h3.cons
          have hl : d.length - (i + 1) = s.length + 2 := by
            have := congrArg List.length h2.2
            simpa using this
          rw [if_neg (by omega), ha, hb]
          simp only [List.length_cons] at hn hf
          simp only []
          rw [ih s f _ _ (by omega) h4 (by omega)]
          simp only [pdecode, if_pos]
          cases pdecode s <;> simp
      · rw [if_neg hc, pdecode_cons s hc]
        have e : ∀ x, urldecodeLoop d f (i + 1) (res ++ [x]) = match (pdecode s) with
            | .ok r => .ok (res ++ (x :: r))
            | .error e => .error e := by
          intro x
          rw [ih s f _ _ (by omega) h2 (by omega)]
          cases pdecode s <;> simp
        by_cases hp : c = 43
        · subst hp; rw [if_pos rfl, e]; cases pdecode s <;> simp
        · rw [if_neg hp, e]; cases pdecode s <;> simp [hp]

theorem urldecode_eq (s : Bytes) : urldecode s = pdecode s := by
  unfold urldecode
  rw [urldecodeLoop_eq s s.length s _ 0 [] (Nat.le_refl _) (by simp [At]) (by omega)]
  cases pdecode s <;> simp

theorem hexVal_eq {c : UInt8} {n : Nat} (h : Spec.IsHex c n) : hexVal c = n := by
  obtain ⟨h1, h2⟩ := h
  unfold hexVal
  repeat' split
  all_goals (split at h2 <;> omega)

theorem unhex_eq {a b c : UInt8} (ha : Spec.IsHex a (c.toNat / 16)) (hb : Spec.IsHex b (c.toNat % 16)) : unhex a b = c := by
  unfold unhex
  rw [hexVal_eq ha, hexVal_eq hb]
  apply UInt8.toNat_inj.1
  have h := c.toNat_lt
  rw [Nat.shiftLeft_eq, Nat.or_comm, Nat.mul_comm, Nat.or_comm, ← Nat.two_pow_add_eq_or_of_lt (by omega : c.toNat % 16 < 2 ^ 4)]
  simp
  omega

theorem pdecode_encodes {e s : Bytes} (h : Spec.Encodes e s) : pdecode e = .ok s := by
  induction h with
  | nil => simp [pdecode]
  | literal h1 h2 _ ih => rw [pdecode_cons _ h1, ih]; simp [h2]
  | plus _ ih => rw [pdecode_cons _ (by decide), ih]; simp
  | percent ha hb _ ih => simp only [pdecode, if_pos, ih, unhex_eq ha hb]

theorem pdecode_bound : ∀ (n : Nat) (s : Bytes), s.length ≤ n → 
    (∀ r, pdecode s = .ok r → r.length ≤ s.length) ∧ (∀ e, pdecode s = .error e → e = .ub ∧ s.getLast? = some 37) := by
  intro n
  induction n with
  | zero =>
    intro s h
    have : s = [] := List.length_eq_zero_iff.1 (by omega)
    subst this
    simp [pdecode]
  | succ n ih =>
    intro s h
    match s, h with
    | [], _ => simp [pdecode]
    | c :: s, h =>
      simp only [List.length_cons] at h
      by_cases hc : c = 37
      · subst hc
        match s, h with
        | [], _ => simp [pdecode]
        | [d], _ => simp [pdecode]
        | a :: b :: s, h =>
          simp only [List.length_cons] at h
          obtain ⟨i1, i2⟩ := ih s (by omega)
          simp only [pdecode, if_pos]
          cases hp : pdecode s with
          | ok r =>
            have := i1 r hp
            simp; omega
          | error e =>
            have := i2 e hp
            simp only [reduceCtorEq, false_implies, implies_true, true_and, Except.error.injEq]
            rintro _ rfl
            refine ⟨this.1, ?_⟩
            cases s with
            | nil => simp at this
            | cons x s => simpa using this.2
      · rw [pdecode_cons s hc]
        obtain ⟨i1, i2⟩ := ih s (by omega)
        cases hp : pdecode s with
        | ok r =>
          have := i1 r hp
          simp; omega
        | error e =>
          have := i2 e hp
          simp only [reduceCtorEq, false_implies, implies_true, true_and, Except.error.injEq]
          rintro _ rfl
          refine ⟨this.1, ?_⟩
          cases s with
          | nil => simp at this
          | cons x s => simpa using this.2

/-! ## Values -/

theorem unquote_other {c : UInt8} (s : Bytes) (h : c ≠ 92) : unquote (c :: s) = c :: unquote s := by
  rw [unquote.eq_def]
  split
  · next h' => cases h'
  · next h' => cases h'; exact absurd rfl h
  · next h' => cases h'; rfl

theorem unquote_escape (s r : Bytes) : unquote (Spec.escape s ++ r) = s ++ unquote r := by
  induction s with
  | nil => rfl
  | cons c s ih =>
    unfold Spec.escape
    by_cases h : c = 34 ∨ c = 92
    · rw [if_pos h]
      simp only [List.cons_append]
      rw [unquote, if_pos (by rcases h with h | h <;> simp [h]), ih]
    · rw [if_neg h]
      simp only [List.cons_append]
      rw [unquote_other _ (fun hh => h (.inr hh)), ih]

theorem unquote_id (s : Bytes) (h : (92 : UInt8) ∉ s) : unquote s = s := by
  induction s with
  | nil => simp [unquote]
  | cons c s ih =>
    rw [unquote_other s (fun hh => h (by simp [hh])), ih (fun hh => h (by simp [hh]))]

theorem digits_no {s : Bytes} (h : ∀ c ∈ s, isDigit c = true) (x : UInt8) (hx : isDigit x = false) : x ∉ s := by
  intro hm; have := h x hm; rw [hx] at this; cases this

theorem findFrom_none {c : UInt8} {s : Bytes} (h : c ∉ s) : findFrom c s 0 = none := by
  unfold findFrom
  simp only [List.drop_zero, Option.map_eq_none_iff, List.findIdx?_eq_none_iff]
  intro x hx
  simp; rintro rfl; exact h hx

theorem findFrom_some {c : UInt8} {s : Bytes} (h : c ∈ s) : findFrom c s 0 ≠ none := by
  unfold findFrom
  simp only [List.drop_zero, ne_eq, Option.map_eq_none_iff, List.findIdx?_eq_none_iff]
  intro hh
  have := hh c h
  simp at this

theorem takeWhile_all {p : UInt8 → Bool} {s : Bytes} (h : ∀ c ∈ s, p c = true) : s.takeWhile p = s := by
  induction s with
  | nil => rfl
  | cons c s ih => rw [List.takeWhile_cons, if_pos (h c (by simp)), ih (fun c hc => h c (by simp [hc]))]

/-- The surroundings read doubles as the specification says. -/
structure EnvOk (env : Env) (dbl : Bytes → BitVec 64 → Prop) : Prop where
  erange : env.erange = false
  hasNull : env.hasNull = true
  strtod : ∀ t b, dbl t b → env.strtod t = (b, t.length, false)
  shape : ∀ t b, dbl t b → (∀ c, t.head? = some c → isDigit c = true) ∧ (46 : UInt8) ∈ t ∧ (92 : UInt8) ∉ t ∧ (0 : UInt8) ∉ t ∧
    (t.length ≠ 24 ∨ t[10]? ≠ some 84)

theorem denotes {env : Env} {dbl} (henv : EnvOk env dbl) {t : Bytes} {evs : List Event} (h : Spec.Denotes dbl t evs) :
    ∃ k, resolveType (unquote t) = .ok k ∧ buildOne env (k, unquote t) = (evs, none) := by
  cases h with
  | empty => exact ⟨.nothing, by simp [unquote, resolveType], rfl⟩
  | string s =>
    have : unquote ([34] ++ Spec.escape s ++ [34]) = 34 :: (s ++ [34]) := by
      rw [List.append_assoc, List.singleton_append, unquote_other _ (by decide), unquote_escape,
        unquote_other _ (by decide)]
      simp [unquote]
    rw [this]
    refine ⟨.string, ?_, ?_⟩
    · simp [resolveType]
      rw [← List.cons_append, List.getLast?_append]; simp
    · simp [buildOne]
  | true => exact ⟨.bool, by rw [unquote_id _ (by decide)]; decide +kernel, by rw [unquote_id _ (by decide)]; rfl⟩
  | false => exact ⟨.bool, by rw [unquote_id _ (by decide)]; decide +kernel, by rw [unquote_id _ (by decide)]; rfl⟩
  | null => exact ⟨.null, by rw [unquote_id _ (by decide)]; decide +kernel, by simp [buildOne, henv.hasNull]⟩
  | int n hn =>
    have hd := dec_digits n
    rw [unquote_id _ (digits_no hd 92 (by decide))]
    refine ⟨.int, ?_, ?_⟩
    · cases hc : dec n with
      | nil => exact absurd hc (dec_ne_nil n)
      | cons c s =>
        rw [hc] at hd
        have h1 := hd c (by simp)
        have h2 : c ≠ 34 ∧ c ≠ 102 ∧ c ≠ 116 ∧ c ≠ 110 := by
          refine ⟨?_, ?_, ?_, ?_⟩ <;> (rintro rfl; revert h1; decide)
        have h10 : (c :: s)[10]? ≠ some 84 := by
          intro hh
          exact digits_no hd 84 (by decide) (List.mem_of_getElem? hh)
        simp only [resolveType, h2.1, h2.2.1, h2.2.2.1, h2.2.2.2, h1, if_false, or_self, if_true]
        rw [if_pos (.inr h10), if_pos (findFrom_none (digits_no hd 46 (by decide)))]
    · have h0 : cstr (dec n) = dec n := by
        unfold cstr
        apply takeWhile_all
        intro c hc
        have := hd c hc
        simp; rintro rfl; revert this; decide
      simp only [buildOne, h0, takeWhile_all hd, henv.erange, atoi_dec]
      simp
      omega
  | @double t b hb =>
    obtain ⟨s1, s2, s3, s4, s5⟩ := henv.shape t b hb
    rw [unquote_id _ s3]
    refine ⟨.double, ?_, ?_⟩
    · cases t with
      | nil => simp at s2
      | cons c s =>
        have h1 := s1 c rfl
        have h2 : c ≠ 34 ∧ c ≠ 102 ∧ c ≠ 116 ∧ c ≠ 110 := by
          refine ⟨?_, ?_, ?_, ?_⟩ <;> (rintro rfl; revert h1; decide)
        simp only [resolveType, h2.1, h2.2.1, h2.2.2.1, h2.2.2.2, h1, if_false, or_self, if_true]
        rw [if_pos s5, if_neg (findFrom_some s2)]
    · have h0 : cstr t = t := by
        unfold cstr
        apply takeWhile_all
        intro c hc
        simp; rintro rfl; exact s4 hc
      simp [buildOne, h0, henv.erange, henv.strtod t b hb]
  | @dateTime t f hl h10 hh h92 hp =>
    rw [unquote_id _ h92]
    refine ⟨.dateTime, ?_, ?_⟩
    · cases t with
      | nil => simp at hl
      | cons c s =>
        have h1 := hh c rfl
        have h2 : c ≠ 34 ∧ c ≠ 102 ∧ c ≠ 116 ∧ c ≠ 110 := by
          refine ⟨?_, ?_, ?_, ?_⟩ <;> (rintro rfl; revert h1; decide)
        simp only [resolveType, h2.1, h2.2.1, h2.2.2.1, h2.2.2.2, h1, if_false, or_self, if_true]
        rw [if_neg (by simp only [not_or, ne_eq, Decidable.not_not]; exact ⟨hl, h10⟩)]
    · simp [buildOne, hp]

/-! ## Splitting -/

theorem findIdx?_append_cons {c : UInt8} {a b : Bytes} (h : c ∉ a) : (a ++ c :: b).findIdx? (· == c) = some a.length := by
  induction a with
  | nil => simp [List.findIdx?_cons]
  | cons x a ih =>
    have hx : (x == c) = false := by simp; rintro rfl; exact h (by simp)
    rw [List.cons_append, List.findIdx?_cons, hx, ih (fun hh => h (by simp [hh]))]
    simp

theorem findIdx?_absent {c : UInt8} {a : Bytes} (h : c ∉ a) : a.findIdx? (· == c) = none := by
  rw [List.findIdx?_eq_none_iff]
  intro x hx
  simp; rintro rfl; exact h hx

theorem findFrom_at (c : UInt8) (pre rest : Bytes) : findFrom c (pre ++ rest) pre.length = (rest.findIdx? (· == c)).map (· + pre.length) := by
  simp [findFrom]

/-- The state of the loop after some pieces. -/
structure Inv (env : Env) (done : List Spec.Piece) (vals : Values) : Prop where
  sorted : Sorted vals
  len : vals.length ≤ done.length
  key : ∀ k, SMap.find? k vals = none ↔ Spec.valuesOf k done = []
  val : ∀ k, ((SMap.find? k vals).getD []).map (buildOne env) = (Spec.valuesOf k done).map (·, none)

theorem valuesOf_append (k : Bytes) (a b : List Spec.Piece) : Spec.valuesOf k (a ++ b) = Spec.valuesOf k a ++ Spec.valuesOf k b := by
  induction a with
  | nil => rfl
  | cons p a ih =>
    cases p with
    | field n e evs =>
      simp only [List.cons_append, Spec.valuesOf, ih]
      split <;> rfl
    | junk s => simpa only [List.cons_append, Spec.valuesOf] using ih

theorem valuesOf_length (k : Bytes) (a : List Spec.Piece) : (Spec.valuesOf k a).length ≤ a.length := by
  induction a with
  | nil => simp [Spec.valuesOf]
  | cons p a ih =>
    cases p with
    | field n e evs =>
      simp only [Spec.valuesOf]
      split <;> (simp; omega)
    | junk s => simp only [Spec.valuesOf]; simp; omega

theorem insert_length {α} (k : Bytes) (v : α) (ms : List (Bytes × α)) : (SMap.insert k v ms).1.length ≤ ms.length + 1 := by
  induction ms with
  | nil => simp [SMap.insert]
  | cons m ms ih =>
    obtain ⟨k', v'⟩ := m
    unfold SMap.insert
    split
    · simp
    · split
      · simp
      · simp only [List.length_cons]; omega

theorem assign_length {α} (k : Bytes) (v : α) (ms : List (Bytes × α)) : (SMap.assign k v ms).length = ms.length := by
  have := congrArg List.length (assign_spec k v ms).2
  simpa using this

theorem append_length {α} (k : Bytes) (v : α) (ms : List (Bytes × α)) : (SMap.append k v ms).length ≤ ms.length + 1 := by
  unfold SMap.append
  have := insert_length k v ms
  simp only
  split
  · exact this
  · rw [assign_length]; exact this

theorem Inv.junk {env done vals s} (h : Inv env done vals) : Inv env (done ++ [.junk s]) vals := by
  constructor
  · exact h.sorted
  · have := h.len; simp; omega
  · intro k; rw [valuesOf_append, h.key]; simp [Spec.valuesOf]
  · intro k; rw [valuesOf_append, h.val]; simp [Spec.valuesOf]

theorem Inv.field {env done vals n e evs x} (h : Inv env done vals) (hx : buildOne env x = (evs, none)) :
    Inv env (done ++ [.field n e evs]) (push vals n x) := by
  obtain ⟨a1, a2, a3⟩ := append_spec n ((SMap.find? n vals).getD [] ++ [x]) vals h.sorted
  constructor
  · exact a2
  · have := h.len
    have := append_length n ((SMap.find? n vals).getD [] ++ [x]) vals
    simp [push]; omega
  · intro k
    unfold push
    rw [a1, valuesOf_append]
    by_cases hk : k = n
    · subst hk; simp [Spec.valuesOf]
    · rw [if_neg hk, h.key]; simp [Spec.valuesOf, Ne.symm hk]
  · intro k
    unfold push
    rw [a1, valuesOf_append]
    by_cases hk : k = n
    · subst hk; simp [Spec.valuesOf, h.val, hx]
    · rw [if_neg hk, h.val]; simp [Spec.valuesOf, Ne.symm hk]

/-- One piece of the loop body. -/
theorem piece_step {env dbl} (henv : EnvOk env dbl) {done : List Spec.Piece} {vals : Values} (h : Inv env done vals)
    (p : Spec.Piece) (hp : p.Ok dbl) (pre rest : Bytes) (iamp : Option Nat)
    (hr : (rest = [] ∧ iamp = none) ∨ (∃ r, rest = 38 :: r ∧ iamp = some (pre.length + p.text.length))) :
    findFrom 38 (pre ++ (p.text ++ rest)) pre.length = iamp ∧
    ∃ vals', onePiece (pre ++ (p.text ++ rest)) pre.length iamp (findFrom 61 (pre ++ (p.text ++ rest)) pre.length) vals = .ok vals' ∧
      Inv env (done ++ [p]) vals' := by
  have hamp : (38 : UInt8) ∉ p.text := by
    cases p with
    | field n e evs =>
      obtain ⟨h1, h2, h3, h4⟩ := hp
      simp only [Spec.Piece.text, List.mem_append, not_or]
      exact ⟨⟨h1, by decide⟩, h3⟩
    | junk s => exact hp.1
  have h38 : findFrom 38 (pre ++ (p.text ++ rest)) pre.length = iamp := by
    rw [findFrom_at]
    rcases hr with ⟨rfl, rfl⟩ | ⟨r, rfl, rfl⟩
    · rw [List.append_nil, findIdx?_absent hamp]; rfl
    · rw [findIdx?_append_cons hamp]; simp [Nat.add_comm]
  refine ⟨h38, ?_⟩
  cases p with
  | junk s =>
    refine ⟨vals, ?_, h.junk⟩
    have : posLt (findFrom 61 (pre ++ ((Spec.Piece.junk s).text ++ rest)) pre.length) iamp = false := ?_
    · unfold onePiece; rw [this]
    rw [findFrom_at]
    simp only [Spec.Piece.text]
    rcases hr with ⟨rfl, rfl⟩ | ⟨r, rfl, rfl⟩
    · rw [List.append_nil, findIdx?_absent hp.2]; simp [posLt]
    · simp only [Spec.Piece.text]
      cases hi : (s ++ 38 :: r).findIdx? (· == 61) with
      | none => simp [posLt]
      | some i =>
        simp only [Option.map_some, posLt, decide_eq_false_iff_not]
        intro hlt
        have hs := hp.2
        rw [List.findIdx?_eq_some_iff_getElem] at hi
        obtain ⟨hl, he, -⟩ := hi
        rw [List.getElem_append_left (by omega)] at he
        apply hs
        rw [← beq_iff_eq.1 he]
        exact List.getElem_mem _
  | field n e evs =>
    obtain ⟨h1, h2, h3, t, he, hd⟩ := hp
    obtain ⟨k, hk, hb⟩ := denotes henv hd
    simp only [Spec.Piece.text] at *
    have h61 : findFrom 61 (pre ++ (n ++ [61] ++ e ++ rest)) pre.length = some (n.length + pre.length) := by
      rw [findFrom_at]
      have : n ++ [61] ++ e ++ rest = n ++ 61 :: (e ++ rest) := by simp
      rw [this, findIdx?_append_cons h2]; rfl
    rw [h61]
    have hname : substr (pre ++ (n ++ [61] ++ e ++ rest)) pre.length (some (n.length + pre.length - pre.length)) = n := by
      simp [substr]
    have hval : substr (pre ++ (n ++ [61] ++ e ++ rest)) (n.length + pre.length + 1) (iamp.map (fun a => a - pre.length - n.length - 1)) = e := by
      have hdrop : (pre ++ (n ++ [61] ++ e ++ rest)).drop (n.length + pre.length + 1) = e ++ rest := by
        have e1 : pre ++ (n ++ [61] ++ e ++ rest) = (pre ++ n ++ [61]) ++ (e ++ rest) := by simp
        rw [e1, List.drop_left' (by simp; omega)]
      rcases hr with ⟨rfl, rfl⟩ | ⟨r, rfl, rfl⟩
      · simp only [Option.map_none, substr, List.append_nil] at *
        exact hdrop
      · simp only [Option.map_some, substr, hdrop]
        have : pre.length + (n ++ [61] ++ e).length - pre.length - n.length - 1 = e.length := by simp
        rw [this]; simp
    refine ⟨push vals n (k, unquote t), ?_, h.field hb⟩
    have hlt : posLt (some (n.length + pre.length)) iamp = true := by
      rcases hr with ⟨rfl, rfl⟩ | ⟨r, rfl, rfl⟩ <;> simp [posLt]; omega
    unfold onePiece
    rw [hlt]
    simp only [Option.getD_some, hname, hval, urldecode_eq, pdecode_encodes he, bind, Except.bind, hk]
    rfl

theorem collectLoop_eq {env dbl} (henv : EnvOk env dbl) : ∀ (ps : List Spec.Piece) (pre : Bytes) (f : Nat) (done : List Spec.Piece) (vals : Values),
    (∀ p ∈ ps, p.Ok dbl) → Inv env done vals → (Spec.body ps).length < f →
    ∃ vals', collectLoop (pre ++ Spec.body ps) f pre.length vals = .ok vals' ∧ Inv env (done ++ ps) vals' := by
  intro ps
  induction ps with
  | nil =>
    intro pre f done vals _ h hf
    obtain ⟨f, rfl⟩ : ∃ g, f = g + 1 := ⟨f - 1, by omega⟩
    refine ⟨vals, ?_, by simpa using h⟩
    unfold collectLoop
    simp [Spec.body, findFrom, onePiece, posLt, bind, Except.bind, pure, Except.pure]
  | cons p ps ih =>
    intro pre f done vals hok h hf
    obtain ⟨f, rfl⟩ : ∃ g, f = g + 1 := ⟨f - 1, by omega⟩
    cases ps with
    | nil =>
      have hb : pre ++ Spec.body [p] = pre ++ (p.text ++ []) := by simp [Spec.body]
      obtain ⟨h1, vals', h2, h3⟩ := piece_step henv h p (hok p (by simp)) pre [] none (.inl ⟨rfl, rfl⟩)
      refine ⟨vals', ?_, h3⟩
      unfold collectLoop
      simp only [hb]
      rw [h1, h2]
      rfl
    | cons q qs =>
      have hb : pre ++ Spec.body (p :: q :: qs) = pre ++ (p.text ++ 38 :: Spec.body (q :: qs)) := by simp [Spec.body]
      obtain ⟨h1, vals', h2, h3⟩ := piece_step henv h p (hok p (by simp)) pre (38 :: Spec.body (q :: qs)) _ (.inr ⟨_, rfl, rfl⟩)
      have hlen : (Spec.body (p :: q :: qs)).length = p.text.length + 1 + (Spec.body (q :: qs)).length := by simp [Spec.body]; omega
      obtain ⟨vals'', h4, h5⟩ := ih (pre ++ p.text ++ [38]) f (done ++ [p]) vals' (fun x hx => hok x (by simp [hx])) h3 (by omega)
      refine ⟨vals'', ?_, by simpa using h5⟩
      unfold collectLoop
      simp only [hb]
      rw [h1, h2]
      simp only [bind, Except.bind]
      rw [← h4]
      congr 1
      · simp
      · simp; omega

/-! ## Output -/

theorem buildAll_eq {env : Env} : ∀ {xs : List (Kind × Bytes)} {es : List (List Event)},
    xs.map (buildOne env) = es.map (·, none) → buildAll env xs = (es.flatten, none)
  | [], [], _ => rfl
  | x :: xs, e :: es, h => by
    simp only [List.map_cons, List.cons.injEq] at h
    simp [buildAll, h.1, buildAll_eq h.2, andThen]
  | [], _ :: _, h => by cases h
  | _ :: _, [], h => by cases h

theorem dumpOne_eq {env : Env} {ps : List Spec.Piece} {name : Bytes} {xs : List (Kind × Bytes)}
    (hne : Spec.valuesOf name ps ≠ [])
    (h : xs.map (buildOne env) = (Spec.valuesOf name ps).map (·, none)) :
    dumpOne env (name, xs) = (Spec.memberCalls ps name, none) := by
  have hlen : xs.length = (Spec.valuesOf name ps).length := by simpa using congrArg List.length h
  unfold dumpOne Spec.memberCalls Spec.block
  simp only
  by_cases hm : ∃ m, name = m ++ [91, 93]
  · rw [if_pos hm]
    obtain ⟨m, rfl⟩ := hm
    have : extractMember (m ++ [91, 93]) = m := by simp [extractMember]
    rw [this, if_pos (by simp), buildAll_eq h, hlen]
    simp [andThen]
  · rw [if_neg hm]
    have : extractMember name = name := by
      unfold extractMember
      rw [if_neg]
      rintro ⟨-, h2⟩
      exact hm ⟨name.take (name.length - 2), by rw [← h2, List.take_append_drop]⟩
    rw [this, if_neg (by simp)]
    cases hv : Spec.valuesOf name ps with
    | nil => exact absurd hv hne
    | cons e es =>
      rw [hv] at h
      cases xs with
      | nil => cases h
      | cons x xs =>
        simp only [List.map_cons, List.cons.injEq] at h
        simp [h.1, andThen]

theorem dump_eq {env : Env} {ps : List Spec.Piece} : ∀ {vals : Values},
    (∀ p ∈ vals, dumpOne env p = (Spec.memberCalls ps p.1, none)) → dump env vals = ((vals.map (·.1)).flatMap (Spec.memberCalls ps), none)
  | [], _ => rfl
  | p :: vals, h => by
    have ih := dump_eq (vals := vals) (fun q hq => h q (List.mem_cons_of_mem _ hq))
    simp [dump, h p (by simp), ih, andThen]

theorem keys_eq : ∀ {a b : List Bytes}, a.Pairwise (fun x y => keyLt x y = true) → b.Pairwise (fun x y => keyLt x y = true) →
    (∀ k, k ∈ a ↔ k ∈ b) → a = b := by
  intro a b ha hb h
  have hs : ∀ l : List Bytes, l.Pairwise (fun x y => keyLt x y = true) → Sorted (l.map (·, ())) := by
    intro l hl; unfold Sorted; rw [List.pairwise_map]; exact hl
  have := Sorted.ext (hs a ha) (hs b hb) (fun k => by
    have key : ∀ l : List Bytes, SMap.find? k (l.map (·, ())) = if k ∈ l then some () else none := by
      intro l
      induction l with
      | nil => rfl
      | cons x l ih =>
        simp only [List.map_cons, SMap.find?, ih, List.mem_cons]
        by_cases hk : k = x <;> simp [hk]
    rw [key, key]; simp [h k])
  have h2 := congrArg (List.map Prod.fst) this
  have e : ∀ l : List Bytes, (l.map (·, ())).map Prod.fst = l := by intro l; induction l <;> simp_all
  rwa [e, e] at h2

theorem find?_of_mem {α} {k : Bytes} {v : α} : ∀ {ms : List (Bytes × α)}, Sorted ms → (k, v) ∈ ms → SMap.find? k ms = some v
  | [], _, h => by cases h
  | (k', v') :: ms, hs, h => by
    unfold SMap.find?
    by_cases hk : k = k'
    · subst hk
      rw [if_pos rfl]
      rcases List.mem_cons.1 h with h | h
      · cases h; rfl
      · exact absurd (List.mem_map.2 ⟨_, h, rfl⟩) (List.nodup_cons.1 hs.nodup).1
    · rw [if_neg hk]
      rcases List.mem_cons.1 h with h | h
      · cases h; exact absurd rfl hk
      · exact find?_of_mem (List.pairwise_cons.1 hs).2 h

theorem foldl_append (l : List Bytes) (a : Bytes) : l.foldl (· ++ ·) a = a ++ l.flatten := by
  induction l generalizing a with
  | nil => simp
  | cons x l ih => simp [ih]

theorem run_eq {env dbl} (henv : EnvOk env dbl) (path : Bytes) (chunks : List Bytes) (ps : List Spec.Piece)
    (hok : ∀ p ∈ ps, p.Ok dbl) (hl : ps.length < 2 ^ 32) (hc : chunks.flatten = Spec.body ps)
    (ns : List Bytes) (hns : ns.Pairwise (fun x y => keyLt x y = true)) (hmem : ∀ k, k ∈ ns ↔ Spec.valuesOf k ps ≠ []) :
    run env path chunks = ([.methodCall (methodOf path), .openStruct ns.length] ++ ns.flatMap (Spec.memberCalls ps) ++ [.closeStruct], none) := by
  obtain ⟨vals, hv, hi⟩ := collectLoop_eq henv ps [] ((Spec.body ps).length + 1) [] [] hok
    ⟨List.Pairwise.nil, by simp, by simp [SMap.find?, Spec.valuesOf], by simp [SMap.find?, Spec.valuesOf]⟩ (by omega)
  simp only [List.nil_append, List.length_nil] at hv hi
  have hkeys : vals.map (·.1) = ns := by
    refine keys_eq ?_ hns (fun k => ?_)
    · rw [List.pairwise_map]; exact hi.sorted
    · rw [hmem, ne_eq, ← hi.key k, find?_eq_none, Decidable.not_not]
  have hd : dump env vals = (ns.flatMap (Spec.memberCalls ps), none) := by
    rw [dump_eq (ps := ps), hkeys]
    rintro ⟨name, xs⟩ hp
    have hf := find?_of_mem hi.sorted hp
    refine dumpOne_eq ?_ ?_
    · rw [ne_eq, ← hi.key, hf]; simp
    · have := hi.val name; rw [hf] at this; simpa using this
  have hlen : vals.length = ns.length := by rw [← hkeys]; simp
  have := hi.len
  unfold run finish
  rw [foldl_append, List.nil_append, hc]
  unfold collect
  rw [hv]
  simp only [hd, andThen]
  rw [hlen, Nat.mod_eq_of_lt (by omega)]
  simp

/-! ## Any input -/

theorem onePiece_sorted {buf i a e vals v} (hs : Sorted vals) (h : onePiece buf i a e vals = .ok v) : Sorted v := by
  unfold onePiece at h
  split at h
  · simp only [bind, Except.bind, pure, Except.pure] at h
    split at h
    · cases h
    · split at h
      · cases h
      · cases h; exact (append_spec _ _ _ hs).2.1
  · cases h; exact hs

theorem collectLoop_sorted (buf : Bytes) : ∀ (f i : Nat) (vals v : Values), Sorted vals → collectLoop buf f i vals = .ok v → Sorted v := by
  intro f
  induction f with
  | zero => intro i vals v _ h; cases h
  | succ f ih =>
    intro i vals v hs h
    unfold collectLoop at h
    simp only [bind, Except.bind, pure, Except.pure] at h
    split at h
    · cases h
    · next w hw =>
      have := onePiece_sorted hs hw
      split at h
      · cases h; exact this
      · exact ih _ _ _ this h

theorem andThen_none {a b : List Event × Option Err} {evs} (h : andThen a b = (evs, none)) :
    ∃ x y, a = (x, none) ∧ b = (y, none) ∧ evs = x ++ y := by
  obtain ⟨a1, a2⟩ := a
  obtain ⟨b1, b2⟩ := b
  unfold andThen at h
  cases a2 with
  | some e => simp at h
  | none => simp at h; exact ⟨_, _, rfl, by rw [h.2], h.1.symm⟩

theorem buildOne_scalar {env x evs} (h : buildOne env x = (evs, none)) : evs.length ≤ 1 ∧ ∀ e ∈ evs, Spec.isScalarCall e = true := by
  obtain ⟨k, s⟩ := x
  cases k <;> simp only [buildOne] at h <;> (repeat' split at h) <;>
    simp only [Prod.mk.injEq, reduceCtorEq, and_false, and_true] at h <;> subst h <;> simp [Spec.isScalarCall] <;> omega

theorem buildAll_ok {env : Env} : ∀ {xs : List (Kind × Bytes)} {evs}, buildAll env xs = (evs, none) →
    ∃ es : List (List Event), xs.map (buildOne env) = es.map (·, none) ∧ evs = es.flatten
  | [], evs, h => by cases h; exact ⟨[], rfl, rfl⟩
  | x :: xs, evs, h => by
    obtain ⟨a, b, h1, h2, rfl⟩ := andThen_none h
    obtain ⟨es, h3, rfl⟩ := buildAll_ok h2
    exact ⟨a :: es, by simp [h1, h3], by simp⟩

theorem dumpOne_block {env : Env} {name : Bytes} {xs} {evs} (h : dumpOne env (name, xs) = (evs, none)) :
    ∃ vs : List (List Event), evs = Spec.block name vs ∧ ∀ v ∈ vs, v.length ≤ 1 ∧ ∀ e ∈ v, Spec.isScalarCall e = true := by
  unfold dumpOne at h
  obtain ⟨a, b, h1, h2, rfl⟩ := andThen_none h
  cases h1
  unfold Spec.block
  by_cases hm : ∃ m, name = m ++ [91, 93]
  · obtain ⟨m, rfl⟩ := hm
    have he : extractMember (m ++ [91, 93]) = m := by simp [extractMember]
    rw [he] at h2 ⊢
    rw [if_pos (by simp)] at h2
    obtain ⟨a, b, h3, h4, rfl⟩ := andThen_none h2
    cases h3
    obtain ⟨a, b, h5, h6, rfl⟩ := andThen_none h4
    cases h6
    obtain ⟨es, h7, rfl⟩ := buildAll_ok h5
    have hlen : xs.length = es.length := by simpa using congrArg List.length h7
    refine ⟨es, ?_, ?_⟩
    · rw [if_pos ⟨m, rfl⟩, hlen]; simp
    · intro v hv
      have : (v, none) ∈ xs.map (buildOne env) := by rw [h7]; exact List.mem_map.2 ⟨v, hv, rfl⟩
      obtain ⟨x, -, hx⟩ := List.mem_map.1 this
      exact buildOne_scalar hx
  · have he : extractMember name = name := by
      unfold extractMember
      rw [if_neg]
      rintro ⟨-, h2⟩
      exact hm ⟨name.take (name.length - 2), by rw [← h2, List.take_append_drop]⟩
    rw [he, if_neg (by simp)] at h2
    rw [he]
    cases xs with
    | nil => cases h2
    | cons x xs =>
      refine ⟨[b], ?_, ?_⟩
      · rw [if_neg hm]; simp
      · intro v hv; simp at hv; subst hv; exact buildOne_scalar h2

theorem dump_ok {env : Env} : ∀ {vals : Values} {evs}, dump env vals = (evs, none) →
    ∃ entries : List (Bytes × List (List Event)), entries.map (·.1) = vals.map (·.1) ∧ evs = entries.flatMap (fun p => Spec.block p.1 p.2) ∧
      ∀ p ∈ entries, ∀ v ∈ p.2, v.length ≤ 1 ∧ ∀ e ∈ v, Spec.isScalarCall e = true
  | [], evs, h => by cases h; exact ⟨[], rfl, rfl, by simp⟩
  | (name, xs) :: vals, evs, h => by
    obtain ⟨a, b, h1, h2, rfl⟩ := andThen_none h
    obtain ⟨es, h3, h4, h5⟩ := dump_ok h2
    obtain ⟨vs, h6, h7⟩ := dumpOne_block h1
    refine ⟨(name, vs) :: es, by simp [h3], by simp [h6, h4], ?_⟩
    intro p hp
    rcases List.mem_cons.1 hp with rfl | hp
    · exact h7
    · exact h5 p hp

theorem run_ok {env : Env} {path : Bytes} {chunks : List Bytes} {evs} (h : run env path chunks = (evs, none)) :
    ∃ entries : List (Bytes × List (List Event)), entries.Pairwise (fun a b => keyLt a.1 b.1 = true) ∧
      evs = [.methodCall (methodOf path), .openStruct (entries.length % 2 ^ 32)] ++
        entries.flatMap (fun p => Spec.block p.1 p.2) ++ [.closeStruct] ∧
      ∀ p ∈ entries, ∀ v ∈ p.2, v.length ≤ 1 ∧ ∀ e ∈ v, Spec.isScalarCall e = true := by
  unfold run finish at h
  obtain ⟨a, b, h1, h2, rfl⟩ := andThen_none h
  cases h1
  split at h2
  · cases h2
  · next vals hv =>
    have hs : Sorted vals := collectLoop_sorted _ _ _ [] _ List.Pairwise.nil hv
    obtain ⟨a, b, h3, h4, rfl⟩ := andThen_none h2
    cases h3
    obtain ⟨a, b, h5, h6, rfl⟩ := andThen_none h4
    cases h6
    obtain ⟨es, h7, h8, h9⟩ := dump_ok h5
    have hlen : es.length = vals.length := by simpa using congrArg List.length h7
    refine ⟨es, ?_, ?_, h9⟩
    · have h10 : (es.map (·.1)).Pairwise (fun a b => keyLt a b = true) := by
        rw [h7, List.pairwise_map]; exact hs
      rwa [List.pairwise_map] at h10
    · rw [hlen, h8]; simp

end UrlForm
end Frpc
