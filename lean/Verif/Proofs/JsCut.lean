import Verif.Proofs.JsParse
/-! # The JavaScript parser and messages that are cut off -/
namespace Frpc
namespace Js
open BinMarshaller Spec

/-! ### More bytes change nothing for what has been read -/

theorem getByte_more {d r q : Bytes} {n : Nat} (h : getByte d = .ok (n, r)) : getByte (d ++ q) = .ok (n, r ++ q) := by
  cases d with
  | nil => cases h
  | cons b d => cases h; rfl

theorem getInt_more : ∀ {k : Nat} {d r q : Bytes} {n : Nat}, getInt k d = .ok (n, r) → getInt k (d ++ q) = .ok (n, r ++ q)
  | 0, d, r, q, n, h => by cases h; rfl
  | k + 1, d, r, q, n, h => by
    unfold getInt at h ⊢
    split at h
    next => cases h
    next b d1 hb =>
      rw [getByte_more hb]
      simp only
      split at h
      next => cases h
      next m d2 hm => cases h; rw [getInt_more hm]

theorem getBytes_more : ∀ {k : Nat} {d r q : Bytes} {l : Bytes}, getBytes k d = .ok (l, r) → getBytes k (d ++ q) = .ok (l, r ++ q)
  | 0, d, r, q, n, h => by cases h; rfl
  | k + 1, [], r, q, n, h => by cases h
  | k + 1, b :: d, r, q, n, h => by
    unfold getBytes at h
    simp only at h
    simp only [List.cons_append, getBytes]
    split at h
    next => cases h
    next l d2 hm => cases h; rw [getBytes_more hm]

/-- The types whose reading does not go beyond the end. -/
theorem leaf_more {H : Host} {buffers : Bool} {version : Nat} {fuel : Nat} {b : UInt8} {d r q : Bytes} {v : Js}
    (h4 : b.toNat / 8 ≠ 4) (h10 : b.toNat / 8 ≠ 10) (h11 : b.toNat / 8 ≠ 11) (h : parseValue H version buffers fuel (b :: d) = .ok (v, r)) :
    parseValue H version buffers fuel (b :: (d ++ q)) = .ok (v, r ++ q) := by
  cases fuel with
  | zero => rw [parseValue] at h; cases h
  | succ fuel =>
  unfold parseValue at h ⊢
  simp only [getByte] at h ⊢
  rw [if_neg h4, if_neg h10, if_neg h11] at h ⊢
  by_cases c2 : b.toNat / 8 = 2
  · rw [if_pos c2] at h ⊢
    split at h
    · cases h
    · next hc => cases h; rw [if_neg hc]
  rw [if_neg c2] at h ⊢
  by_cases c1 : b.toNat / 8 = 1
  · rw [if_pos c1] at h ⊢
    by_cases cv : version = 3
    · rw [if_pos cv] at h ⊢
      split at h
      next => cases h
      next n d2 hn => cases h; rw [getInt_more hn]
    · rw [if_neg cv] at h ⊢
      by_cases c0 : b.toNat % 8 = 0
      · rw [if_pos c0] at h; cases h
      rw [if_neg c0] at h ⊢
      split at h
      next => cases h
      next n d2 hn => cases h; rw [getInt_more hn]
  rw [if_neg c1] at h ⊢
  by_cases c5 : b.toNat / 8 = 5
  · rw [if_pos c5] at h ⊢
    split at h
    next => cases h
    next z d2 hz =>
      have hz' := getByte_more (q := q) hz
      unfold getByte at hz'
      split at h
      next => cases h
      next ts d3 ht =>
        split at h
        next => cases h
        next l d4 hl =>
          cases h
          split
          next e he => rw [he] at hz'; cases hz'
          next z' d2' hz2 =>
            rw [hz2] at hz'
            cases hz'
            rw [getInt_more ht]
            simp only
            rw [getBytes_more hl]
  rw [if_neg c5] at h ⊢
  by_cases c3 : b.toNat / 8 = 3
  · rw [if_pos c3] at h ⊢
    split at h
    next => cases h
    next l d2 hl => cases h; rw [getBytes_more hl]
  rw [if_neg c3] at h ⊢
  by_cases c6 : b.toNat / 8 = 6
  · rw [if_pos c6] at h ⊢
    by_cases c0 : lengthBytes version b.toNat = 0
    · rw [if_pos c0] at h; cases h
    rw [if_neg c0] at h ⊢
    split at h
    next => cases h
    next n d2 hn =>
      rw [getInt_more hn]
      simp only
      split at h
      next => cases h
      next l d3 hl => cases h; rw [getBytes_more hl]
  rw [if_neg c6] at h ⊢
  by_cases c7 : b.toNat / 8 = 7
  · rw [if_pos c7] at h ⊢
    split at h
    next => cases h
    next n d2 hn => cases h; rw [getInt_more hn]
  rw [if_neg c7] at h ⊢
  by_cases c8 : b.toNat / 8 = 8
  · rw [if_pos c8] at h ⊢
    split at h
    next => cases h
    next n d2 hn => cases h; rw [getInt_more hn]
  rw [if_neg c8] at h ⊢
  by_cases c12 : b.toNat / 8 = 12
  · rw [if_pos c12] at h ⊢
    split at h
    · next hc => cases h; rw [if_pos hc]
    · cases h
  · rw [if_neg c12] at h; cases h

/-! ### Values that are cut off -/

/-- A strict beginning of the bytes is read as a value only if the value ends with text, and then nothing is left. -/
def Cut (H : Host) (buffers : Bool) (version : Nat) (bytes : Bytes) (ends : Prop) : Prop :=
  ∀ fuel p q v r, 2 * p.length ≤ fuel + 1 → bytes = p ++ q → q ≠ [] → parseValue H version buffers fuel p = .ok (v, r) → ends ∧ r = []

theorem parse_nil (H : Host) (version : Nat) (buffers : Bool) (fuel : Nat) (x : Js × Bytes) : parseValue H version buffers fuel [] ≠ .ok x := by
  cases fuel with
  | zero => rw [parseValue]; simp
  | succ f => unfold parseValue; simp only [getByte]; simp

variable {H : Host} {buffers : Bool} {ver : Version}

/-- For these types the fuel does not matter. -/
theorem leaf_fuel {version : Nat} (f g : Nat) {b : UInt8} {d : Bytes} (h10 : b.toNat / 8 ≠ 10) (h11 : b.toNat / 8 ≠ 11) :
    parseValue H version buffers (f + 1) (b :: d) = parseValue H version buffers (g + 1) (b :: d) := by
  unfold parseValue
  simp only [getByte]
  rw [if_neg h10, if_neg h11, if_neg h10, if_neg h11]

theorem cut_leaf {version : Nat} {b : UInt8} {l : Bytes} {js : Js} (h4 : b.toNat / 8 ≠ 4) (h10 : b.toNat / 8 ≠ 10) (h11 : b.toNat / 8 ≠ 11)
    (h : Reads H buffers version (b :: l) js) : Cut H buffers version (b :: l) False := by
  intro fuel p q v r hf he hq hp
  cases p with
  | nil => exact absurd hp (parse_nil _ _ _ _ _)
  | cons b' d =>
    simp only [List.cons_append, List.cons.injEq] at he
    obtain ⟨rfl, rfl⟩ := he
    have h1 := leaf_more (q := q) h4 h10 h11 hp
    obtain ⟨f, rfl, _⟩ := fuel_succ (fuel := fuel) (n := d.length) (by simpa using hf)
    have h2 := h (2 * (b :: (d ++ q)).length + 1) [] (by omega)
    rw [List.append_nil, leaf_fuel _ f h10 h11, h1] at h2
    simp only [Except.ok.injEq, Prod.mk.injEq, List.append_eq_nil_iff] at h2
    exact absurd h2.2.2 hq

theorem cut_string (hv : 2 ≤ ver.major) (s : Bytes) (hs : s.length < 2 ^ 30) :
    Cut H buffers ver.major.toNat (sized ver T_STRING s.length ++ [s]).flatten (s ≠ []) := by
  obtain ⟨b, l, e, h1, h2, h3⟩ := sized_parts ver hv (t := T_STRING) (by decide) s.length (by omega)
  have h1 : b.toNat / 8 = 4 := h1
  intro fuel p q v r hf he hq hp
  rw [List.flatten_append, e] at he
  cases p with
  | nil => exact absurd hp (parse_nil _ _ _ _ _)
  | cons b' d =>
    simp only [List.cons_append, List.cons.injEq, List.flatten_cons, List.flatten_nil, List.append_nil] at he
    obtain ⟨rfl, he⟩ := he
    cases fuel with
    | zero => rw [parseValue] at hp; cases hp
    | succ f =>
    have hl := lengthBytes_eq (first := b.toNat) (toNat_major hv)
    simp only [parseValue, getByte, hl] at hp
    rw [if_pos h1, if_neg (by omega), ← h2] at hp
    split at hp
    next => cases hp
    next n d2 hn =>
      cases hp
      have hm := getInt_more (q := q) hn
      rw [← he, getInt_eq, h3] at hm
      simp only [Except.ok.injEq, Prod.mk.injEq] at hm
      obtain ⟨rfl, hs2⟩ := hm
      have hlen : s.length = d2.length + q.length := by rw [hs2, List.length_append]
      have : 0 < q.length := List.length_pos_iff.2 hq
      refine ⟨fun hc => by rw [hc] at hlen; simp at hlen; omega, ?_⟩
      unfold decodeUTF8
      exact List.drop_eq_nil_of_le (by omega)

/-- The first byte of an integer. -/
theorem int_head (hk : ver.Known) (hv : 2 ≤ ver.major) (n : Int) (hn : n.natAbs < 2 ^ 62) :
    ∃ b l, (packInt ver n).flatten = b :: l ∧ (b.toNat / 8 = 1 ∨ b.toNat / 8 = 7 ∨ b.toNat / 8 = 8) := by
  unfold packInt
  rcases major_cases hk hv with h | h
  · rw [h, if_neg (show ¬ (2 : UInt8) > 2 from by decide), if_pos (show (2 : UInt8) > 1 from by decide)]
    by_cases h0 : n < 0
    · rw [if_pos h0, safeAbs_eq (by unfold IsI64; omega), i64_small (by omega)]
      obtain ⟨b, l, e, h1, h2, h3⟩ := sized_parts ver hv (t := T_INTN8) (by decide) n.natAbs (by omega)
      unfold sized at e
      exact ⟨b, l, e, .inr (.inr h1)⟩
    · rw [if_neg h0]
      obtain ⟨b, l, e, h1, h2, h3⟩ := sized_parts ver hv (t := T_INTP8) (by decide) n.natAbs (by omega)
      unfold sized at e
      simp only [show ((n.natAbs : Nat) : Int) = n from by omega] at e
      exact ⟨b, l, e, .inr (.inl h1)⟩
  · rw [h, if_pos (show (3 : UInt8) > 2 from by decide)]
    have hz : zigzagEncode n < 2 ^ 63 := by
      by_cases h0 : n < 0
      · rw [zigzagEncode_neg h0 (by omega)]; omega
      · rw [zigzagEncode_nonneg (by omega) (by omega)]; omega
    obtain ⟨b, l, e, h1, h2, h3⟩ := sized_parts ver hv (t := T_INT) (by decide) (zigzagEncode n) hz
    unfold sized at e
    simp only [i64_small hz]
    exact ⟨b, l, e, .inl h1⟩

set_option linter.unusedSimpArgs false in
mutual
theorem cut_value {strOk : Bytes → Bool} (hH : Spec.Host.Faithful H) (hk : ver.Known) (hv : 2 ≤ ver.major) : ∀ v, WireOk strOk ver v → JsReadable ver.major.toNat v →
    ∀ ws, run strOk ver (feed v) = (ws, none) → Cut H buffers ver.major.toNat ws.flatten (EndsWithText v)
  | .int n, hw, hr, ws, hrun => by
    obtain ⟨ws', h1, _, h3⟩ := parse_value (buffers := buffers) hH hk hv (.int n) hw hr
    rw [hrun] at h1; cases h1
    rw [JsReadable] at hr
    have e : run strOk ver (feed (.int n)) = (packInt ver n, none) := by rw [feed]; exact run_one rfl
    rw [e] at hrun
    cases hrun
    obtain ⟨b, l, eb, ht⟩ := int_head hk hv n (by omega)
    rw [eb] at h3 ⊢
    rw [EndsWithText]
    · exact cut_leaf (by omega) (by omega) (by omega) h3
    all_goals simp
  | .bool b, hw, hr, ws, hrun => by
    obtain ⟨ws', h1, _, h3⟩ := parse_value (buffers := buffers) hH hk hv (.bool b) hw hr
    rw [hrun] at h1; cases h1
    have e : run strOk ver (feed (.bool b)) = ([[dataType T_BOOL (if b then 1 else 0)]], none) := by rw [feed]; exact run_one rfl
    rw [e] at hrun
    cases hrun
    rw [EndsWithText]
    · exact cut_leaf (b := dataType T_BOOL (if b then 1 else 0)) (l := []) (by cases b <;> decide) (by cases b <;> decide) (by cases b <;> decide) h3
    all_goals simp
  | .null, hw, hr, ws, hrun => by
    obtain ⟨ws', h1, _, h3⟩ := parse_value (buffers := buffers) hH hk hv .null hw hr
    rw [hrun] at h1; cases h1
    have e : run strOk ver (feed .null) = ([[dataType T_NULL 0]], none) := by
      rw [feed]
      refine run_one ?_
      rw [WireOk] at hw
      unfold Version.HasNull at hw
      unfold pack
      rw [if_neg]
      simpa using hw
    rw [e] at hrun
    cases hrun
    rw [EndsWithText]
    · exact cut_leaf (b := dataType T_NULL 0) (l := []) (by decide) (by decide) (by decide) h3
    all_goals simp
  | .double b, hw, hr, ws, hrun => by
    obtain ⟨ws', h1, _, h3⟩ := parse_value (buffers := buffers) hH hk hv (.double b) hw hr
    rw [hrun] at h1; cases h1
    have e : run strOk ver (feed (.double b)) = ([[dataType T_DOUBLE 0], leBytes 8 b.toNat], none) := by rw [feed]; exact run_one rfl
    rw [e] at hrun
    cases hrun
    rw [EndsWithText]
    · exact cut_leaf (b := dataType T_DOUBLE 0) (l := leBytes 8 b.toNat ++ []) (by decide) (by decide) (by decide) h3
    all_goals simp
  | .string s, hw, hr, ws, hrun => by
    rw [WireOk] at hw
    have e : run strOk ver (feed (.string s)) = (sized ver T_STRING s.length ++ [s], none) := by
      rw [feed, sz32_take hw.1]
      refine run_one ?_
      simp only [pack, packString, hw.2, if_true]
    rw [e] at hrun
    cases hrun
    rw [EndsWithText]
    exact cut_string hv s hw.1
  | .stringView s, hw, hr, ws, hrun => by
    rw [WireOk] at hw
    have e : run strOk ver (feed (.stringView s)) = (sized ver T_STRING s.length ++ [s], none) := by
      rw [feed, sz32_take hw.1]
      refine run_one ?_
      simp only [pack, packString, hw.2, if_true]
    rw [e] at hrun
    cases hrun
    rw [EndsWithText]
    exact cut_string hv s hw.1
  | .binary s, hw, hr, ws, hrun => by
    obtain ⟨ws', h1, _, h3⟩ := parse_value (buffers := buffers) hH hk hv (.binary s) hw hr
    rw [hrun] at h1; cases h1
    rw [WireOk] at hw
    have e : run strOk ver (feed (.binary s)) = (sized ver T_BINARY s.length ++ [s], none) := by
      rw [feed, sz32_take hw]; exact run_one rfl
    rw [e] at hrun
    cases hrun
    obtain ⟨b, l, eb, e1, e2, e3⟩ := sized_parts ver hv (t := T_BINARY) (by decide) s.length (by omega)
    have e1 : b.toNat / 8 = 6 := e1
    rw [List.flatten_append, eb] at h3 ⊢
    rw [EndsWithText]
    · exact cut_leaf (by omega) (by omega) (by omega) h3
    all_goals simp
  | .binaryRef cs, hw, hr, ws, hrun => by
    obtain ⟨ws', h1, _, h3⟩ := parse_value (buffers := buffers) hH hk hv (.binaryRef cs) hw hr
    rw [hrun] at h1; cases h1
    rw [WireOk] at hw
    have e : run strOk ver (feed (.binaryRef cs)) = (sized ver T_BINARY cs.flatten.length ++ cs, none) := by
      rw [feed]; exact run_one rfl
    rw [e] at hrun
    cases hrun
    obtain ⟨b, l, eb, e1, e2, e3⟩ := sized_parts ver hv (t := T_BINARY) (by decide) cs.flatten.length (by omega)
    have e1 : b.toNat / 8 = 6 := e1
    rw [List.flatten_append, eb] at h3 ⊢
    rw [EndsWithText]
    · exact cut_leaf (by omega) (by omega) (by omega) h3
    all_goals simp
  | .dateTime d, hw, hr, ws, hrun => by
    obtain ⟨ws', h1, _, h3⟩ := parse_value (buffers := buffers) hH hk hv (.dateTime d) hw hr
    rw [hrun] at h1; cases h1
    rw [JsReadable] at hr
    have e : run strOk ver (feed (.dateTime d)) = ((packDateTime ver d).1, none) := by
      rw [feed]; exact run_one (reads_date (H := H) (buffers := buffers) hk hv d hr.1 hr.2.1 hr.2.2).1
    rw [e] at hrun
    cases hrun
    rw [WireOk] at hw
    have hh : ∃ l, (packDateTime ver d).1.flatten = dataType T_DATETIME 0 :: l := by
      unfold packDateTime
      split
      · exact ⟨_, rfl⟩
      · next hm => rw [if_neg (hw.2 (by simpa using hm))]; exact ⟨_, rfl⟩
    obtain ⟨l, hl⟩ := hh
    rw [hl] at h3 ⊢
    rw [EndsWithText]
    · exact cut_leaf (by decide) (by decide) (by decide) h3
    all_goals simp
  | .secret v, hw, hr, ws, hrun => by
    rw [WireOk] at hw
    rw [JsReadable] at hr
    rw [feed] at hrun
    rw [EndsWithText]
    exact cut_value hH hk hv v hw hr ws hrun
  | .array vs, hw, hr, ws, hrun => by
    rw [WireOk] at hw
    rw [JsReadable] at hr
    obtain ⟨wi, h1, h2⟩ := parse_items (buffers := buffers) hH hk hv vs hw.2 hr
    obtain ⟨b, l, e, e1, e2, e3⟩ := sized_parts ver hv (t := T_ARRAY) (by decide) vs.length (by omega)
    have e1 : b.toNat / 8 = 11 := e1
    rw [feed, sz32_eq hw.1, run_cons strOk ver _ _ _ rfl, h1] at hrun
    cases hrun
    have hc := cut_items hH hk hv vs hw.2 hr wi h1
    rw [EndsWithText]
    intro fuel p q v r hf he hq hp
    rw [List.flatten_append, e] at he
    cases p with
    | nil => exact absurd hp (parse_nil _ _ _ _ _)
    | cons b' d =>
      simp only [List.cons_append, List.cons.injEq] at he
      obtain ⟨rfl, he⟩ := he
      obtain ⟨f, rfl, hf'⟩ := fuel_succ (fuel := fuel) (n := d.length) (by simpa using hf)
      have hl := lengthBytes_eq (first := b.toNat) (toNat_major hv)
      simp only [parseValue, getByte, hl, e1] at hp
      simp only [show ¬ (11 = 4) from by decide, show ¬ (11 = 10) from by decide, if_false, if_true] at hp
      rw [← e2] at hp
      split at hp
      next => cases hp
      next n d2 hn =>
        have hm := getInt_more (q := q) hn
        rw [← he, getInt_eq, e3] at hm
        simp only [Except.ok.injEq, Prod.mk.injEq] at hm
        obtain ⟨rfl, hs2⟩ := hm
        split at hp
        next => cases hp
        next vs' d3 hi =>
          cases hp
          exact hc f d2 q _ _ (by have := congrArg List.length he; rw [hs2] at this; simp only [List.length_append] at this; omega) hs2 hq hi
  | .struct ms, hw, hr, ws, hrun => by
    rw [WireOk] at hw
    rw [JsReadable] at hr
    obtain ⟨wi, h1, h2⟩ := parse_members (buffers := buffers) hH hk hv ms hw.2 hr.2
    obtain ⟨b, l, e, e1, e2, e3⟩ := sized_parts ver hv (t := T_STRUCT) (by decide) ms.length (by omega)
    have e1 : b.toNat / 8 = 10 := e1
    rw [feed, sz32_eq hw.1, run_cons strOk ver _ _ _ rfl, h1] at hrun
    cases hrun
    have hc := cut_members hH hk hv ms hw.2 hr.2 wi h1
    rw [EndsWithText]
    intro fuel p q v r hf he hq hp
    rw [List.flatten_append, e] at he
    cases p with
    | nil => exact absurd hp (parse_nil _ _ _ _ _)
    | cons b' d =>
      simp only [List.cons_append, List.cons.injEq] at he
      obtain ⟨rfl, he⟩ := he
      obtain ⟨f, rfl, hf'⟩ := fuel_succ (fuel := fuel) (n := d.length) (by simpa using hf)
      have hl := lengthBytes_eq (first := b.toNat) (toNat_major hv)
      simp only [parseValue, getByte, hl, e1] at hp
      simp only [show ¬ (10 = 4) from by decide, if_false, if_true] at hp
      rw [← e2] at hp
      split at hp
      next => cases hp
      next n d2 hn =>
        have hm := getInt_more (q := q) hn
        rw [← he, getInt_eq, e3] at hm
        simp only [Except.ok.injEq, Prod.mk.injEq] at hm
        obtain ⟨rfl, hs2⟩ := hm
        split at hp
        next => cases hp
        next vs' d3 hi =>
          cases hp
          exact hc f d2 q _ _ _ (by have := congrArg List.length he; rw [hs2] at this; simp only [List.length_append] at this; omega) hs2 hq hi
theorem cut_items {strOk : Bytes → Bool} (hH : Spec.Host.Faithful H) (hk : ver.Known) (hv : 2 ≤ ver.major) : ∀ vs, WireOkItems strOk ver vs → JsReadableItems ver.major.toNat vs →
    ∀ ws, run strOk ver (feedItems vs) = (ws, none) → ∀ fuel p q x r, 2 * p.length ≤ fuel → ws.flatten = p ++ q → q ≠ [] →
      parseItems H ver.major.toNat buffers fuel vs.length p = .ok (x, r) → EndsWithTextItems vs ∧ r = []
  | [], _, _, ws, hrun => fun fuel p q x r hf he hq hp => by
    rw [feedItems] at hrun
    cases hrun
    simp only [List.flatten_nil, List.nil_eq, List.append_eq_nil_iff] at he
    exact absurd he.2 hq
  | v :: vs, hw, hr, ws, hrun => fun fuel p q x r hf he hq hp => by
    rw [WireOkItems] at hw
    rw [JsReadableItems] at hr
    obtain ⟨w1, r1, n1, p1⟩ := parse_value (buffers := buffers) hH hk hv v hw.1 hr.1
    obtain ⟨w2, r2, p2⟩ := parse_items (buffers := buffers) hH hk hv vs hw.2 hr.2
    have c1 := cut_value hH hk hv v hw.1 hr.1 w1 r1
    have c2 := cut_items hH hk hv vs hw.2 hr.2 w2 r2
    rw [feedItems, run_append strOk ver _ _ w1 r1, r2] at hrun
    cases hrun
    simp only [List.flatten_append] at he
    obtain ⟨f, rfl⟩ : ∃ f, fuel = f + 1 := by
      cases fuel with
      | zero => rw [List.length_cons, parseItems] at hp; cases hp
      | succ f => exact ⟨f, rfl⟩
    rw [List.length_cons] at hp
    simp only [parseItems] at hp
    rcases List.append_eq_append_iff.1 he with ⟨c, rfl, hc⟩ | ⟨c, hc1, hc2⟩
    · rw [p1 f c (by (try simp only [List.length_append, List.length_cons, List.length_nil] at *); omega)] at hp
      simp only at hp
      split at hp
      next => cases hp
      next xs d3 hi =>
        cases hp
        have := c2 f c q _ _ (by (try simp only [List.length_append, List.length_cons, List.length_nil] at *); omega) hc hq hi
        match vs, this with
        | w :: vs, this => rw [EndsWithTextItems]; exact this
    · by_cases hcn : c = []
      · subst hcn
        simp only [List.append_nil, List.nil_append] at hc1 hc2
        subst hc1
        have hh := p1 f [] (by (try simp only [List.length_append, List.length_cons, List.length_nil] at *); omega)
        rw [List.append_nil] at hh
        rw [hh] at hp
        simp only at hp
        split at hp
        next => cases hp
        next xs d3 hi =>
          cases hp
          have := c2 f [] q _ _ (by (try simp only [List.length_append, List.length_cons, List.length_nil] at *); omega) (by rw [hc2]; rfl) hq hi
          match vs, this with
          | w :: vs, this => rw [EndsWithTextItems]; exact this
      · split at hp
        next => cases hp
        next x1 d1 hx =>
          obtain ⟨a1, rfl⟩ := c1 f p c _ _ (by (try simp only [List.length_append, List.length_cons, List.length_nil] at *); omega) hc1 hcn hx
          match vs with
          | [] =>
            simp only [List.length_nil] at hp
            rw [EndsWithTextItems]
            cases f <;> (simp only [parseItems] at hp; cases hp; exact ⟨a1, rfl⟩)
          | w :: vs =>
            exfalso
            cases f with
            | zero => simp only [List.length_cons, parseItems] at hp; cases hp
            | succ f =>
              simp only [List.length_cons, parseItems] at hp
              split at hp
              next => cases hp
              next xs d3 hi =>
                split at hi
                next => cases hi
                next z d4 hz => exact parse_nil _ _ _ _ _ hz
theorem cut_members {strOk : Bytes → Bool} (hH : Spec.Host.Faithful H) (hk : ver.Known) (hv : 2 ≤ ver.major) : ∀ ms, WireOkMembers strOk ver ms → JsReadableMembers ver.major.toNat ms →
    ∀ ws, run strOk ver (feedMembers ms) = (ws, none) → ∀ fuel p q acc x r, 2 * p.length ≤ fuel → ws.flatten = p ++ q → q ≠ [] →
      parseMembers H ver.major.toNat buffers fuel ms.length acc p = .ok (x, r) → EndsWithTextMembers ms ∧ r = []
  | [], _, _, ws, hrun => fun fuel p q acc x r hf he hq hp => by
    rw [feedMembers] at hrun
    cases hrun
    simp only [List.flatten_nil, List.nil_eq, List.append_eq_nil_iff] at he
    exact absurd he.2 hq
  | (k, v) :: ms, hw, hr, ws, hrun => fun fuel p q acc x r hf he hq hp => by
    rw [WireOkMembers] at hw
    rw [JsReadableMembers] at hr
    obtain ⟨hn, hw1, hw2⟩ := hw
    obtain ⟨⟨ht, hpr⟩, hr1, hr2⟩ := hr
    obtain ⟨w1, r1, n1, p1⟩ := parse_value (buffers := buffers) hH hk hv v hw1 hr1
    obtain ⟨w2, r2, p2⟩ := parse_members (buffers := buffers) hH hk hv ms hw2 hr2
    have c1 := cut_value hH hk hv v hw1 hr1 w1 r1
    have c2 := cut_members hH hk hv ms hw2 hr2 w2 r2
    rw [feedMembers, sz32_take (by omega), run_cons strOk ver _ _ _ (member_bytes k hn), run_append strOk ver _ _ w1 r1, r2] at hrun
    cases hrun
    have hlen : (UInt8.ofNat k.length).toNat = k.length := by rw [UInt8.toNat_ofNat']; omega
    have hfl : ([[UInt8.ofNat k.length], k] ++ (w1 ++ w2)).flatten = UInt8.ofNat k.length :: (k ++ (w1.flatten ++ w2.flatten)) := by simp
    rw [hfl] at he
    obtain ⟨f, rfl⟩ : ∃ f, fuel = f + 1 := by
      cases fuel with
      | zero => rw [List.length_cons, parseMembers] at hp; cases hp
      | succ f => exact ⟨f, rfl⟩
    rw [List.length_cons] at hp
    simp only [parseMembers] at hp
    cases p with
    | nil => simp only [getByte] at hp; cases hp
    | cons b d =>
    simp only [List.cons_append, List.cons.injEq] at he
    obtain ⟨rfl, he⟩ := he
    simp only [getByte, hlen] at hp
    rcases List.append_eq_append_iff.1 he with ⟨c, rfl, hc⟩ | ⟨c, hc1, hc2⟩
    · rw [decode_eq] at hp
      simp only at hp
      rcases List.append_eq_append_iff.1 hc with ⟨c', rfl, hc'⟩ | ⟨c', hc1', hc2'⟩
      · rw [p1 f c' (by (try simp only [List.length_append, List.length_cons, List.length_nil] at *); omega)] at hp
        simp only at hp
        have := c2 f c' q _ _ _ (by (try simp only [List.length_append, List.length_cons, List.length_nil] at *); omega) hc' hq hp
        match ms, this with
        | w :: vs, this => rw [EndsWithTextMembers]; exact this
      · by_cases hcn : c' = []
        · subst hcn
          simp only [List.append_nil, List.nil_append] at hc1' hc2'
          subst hc1'
          have hh := p1 f [] (by (try simp only [List.length_append, List.length_cons, List.length_nil] at *); omega)
          rw [List.append_nil] at hh
          rw [hh] at hp
          simp only at hp
          have := c2 f [] q _ _ _ (by (try simp only [List.length_append, List.length_cons, List.length_nil] at *); omega) (by rw [hc2']; rfl) hq hp
          match ms, this with
          | w :: vs, this => rw [EndsWithTextMembers]; exact this
        · split at hp
          next => cases hp
          next x1 d1 hx =>
            obtain ⟨a1, rfl⟩ := c1 f c c' _ _ (by (try simp only [List.length_append, List.length_cons, List.length_nil] at *); omega) hc1' hcn hx
            match ms with
            | [] =>
              simp only [List.length_nil] at hp
              rw [EndsWithTextMembers]
              cases f <;> (simp only [parseMembers] at hp; cases hp; exact ⟨a1, rfl⟩)
            | w :: ms =>
              exfalso
              cases f with
              | zero => simp only [List.length_cons, parseMembers] at hp; cases hp
              | succ f =>
                simp only [List.length_cons, parseMembers, getByte] at hp
                cases hp
    · have hnil : (decodeUTF8 H k.length d).2 = [] := by
        unfold decodeUTF8
        exact List.drop_eq_nil_of_le (by rw [hc1, List.length_append]; omega)
      rw [hnil] at hp
      split at hp
      next => cases hp
      next x1 d1 hx => exact absurd hx (parse_nil _ _ _ _ _)
end

end Js
end Frpc
