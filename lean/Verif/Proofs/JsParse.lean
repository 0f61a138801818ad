import Verif.Proofs.Js
/-! # The JavaScript parser reads what the C++ marshaller writes -/
namespace Frpc
namespace Js
open BinMarshaller Spec

/-! ### Pieces -/

theorem getInt_eq : ∀ (l d : Bytes), getInt l.length (l ++ d) = .ok (leNat l, d)
  | [], d => rfl
  | b :: l, d => by
    simp only [List.length_cons, List.cons_append, getInt, getByte]
    rw [getInt_eq l d]
    rfl

theorem getBytes_eq : ∀ (l d : Bytes), getBytes l.length (l ++ d) = .ok (l, d)
  | [], d => rfl
  | b :: l, d => by
    simp only [List.length_cons, List.cons_append, getBytes]
    rw [getBytes_eq l d]

theorem take_eq (s d : Bytes) : take s.length (s ++ d) = s := by
  unfold take
  simp

theorem decode_eq (H : Host) (s d : Bytes) : decodeUTF8 H s.length (s ++ d) = (H.decode s, d) := by
  unfold decodeUTF8
  rw [take_eq, List.drop_left]

theorem dataType_div {t k : Nat} (ht : t < 32) (hk : k < 8) : (dataType t k).toNat / 8 = t := by
  have := dataType_tag ht hk
  rwa [Nat.shiftRight_eq_div_pow] at this

theorem dataType_mod {t k : Nat} (ht : t < 32) (hk : k < 8) : (dataType t k).toNat % 8 = k := by
  have : ∀ t : Fin 32, ∀ k : Fin 8, (dataType t.val k.val).toNat % 8 = k.val := by decide
  exact this ⟨t, ht⟩ ⟨k, hk⟩

/-- The parts of a header, and how its length is read. -/
theorem sized_parts (ver : Version) (h : 2 ≤ ver.major) {t : Nat} (ht : t < 32) (n : Nat) (hn : n < 2 ^ 63) :
    ∃ b : UInt8, ∃ l : Bytes, (sized ver t n).flatten = b :: l ∧ b.toNat / 8 = t ∧ l.length = b.toNat % 8 + 1 ∧ leNat l = n := by
  obtain ⟨k, hk, h1, h2, h3, _⟩ := numberType_least ver h n hn
  refine ⟨dataType t k, number (n : Int) (k + 1), ?_, dataType_div ht hk, ?_, ?_⟩
  · unfold sized; simp only [h1, h2]; simp
  · rw [dataType_mod ht hk, number_length _ (by omega)]
  · rw [leNat_number (by omega) (by rw [u64_natCast (by omega)]; exact h3), u64_natCast (by omega)]

theorem toNat_major {ver : Version} (h2 : 2 ≤ ver.major) : ver.major.toNat > 1 := by
  have h : (2 : UInt8).toNat ≤ ver.major.toNat := h2
  have : (2 : UInt8).toNat = 2 := rfl
  omega

theorem lengthBytes_eq {version first : Nat} (h : version > 1) : lengthBytes version first = first % 8 + 1 := by
  unfold lengthBytes; rw [if_pos h]

theorem toDouble_eq (b : BitVec 64) (h : b.toNat / 2 ^ 52 % 2048 ≠ 0 ∨ b.toNat % 2 ^ 52 = 0) :
    toDouble (codes (leBytes 8 b.toNat)) = ieee b := by
  have hb := b.isLt
  unfold ieee
  generalize b.toNat = n at *
  have hm : ∀ x : Nat, (UInt8.ofNat (x % 256)).toNat = x % 256 := by intro x; rw [UInt8.toNat_ofNat']; omega
  simp only [leBytes, codes, List.map_cons, List.map_nil, hm, toDouble, mantissa, List.foldl_cons, List.foldl_nil]
  generalize h6 : n / 256 / 256 / 256 / 256 / 256 / 256 = a6 at *
  have e1 : a6 / 256 % 256 % 128 * 16 + a6 % 256 / 16 = n / 2 ^ 52 % 2048 := by omega
  have e2 : ((((((a6 % 256 % 16) * 256 + n / 256 / 256 / 256 / 256 / 256 % 256) * 256 + n / 256 / 256 / 256 / 256 % 256) * 256 +
      n / 256 / 256 / 256 % 256) * 256 + n / 256 / 256 % 256) * 256 + n / 256 % 256) * 256 + n % 256 = n % 2 ^ 52 := by omega
  have e3 : decide (a6 / 256 % 256 ≥ 128) = decide (n / 2 ^ 63 = 1) := by
    by_cases hh : n / 2 ^ 63 = 1
    · rw [decide_eq_true hh]; exact decide_eq_true (by omega)
    · rw [decide_eq_false hh]; exact decide_eq_false (by omega)
  simp only [e1, e2, e3]
  by_cases h0 : n / 2 ^ 52 % 2048 = 0
  · rw [if_pos h0, if_neg (by omega), if_pos h0]
    congr 1
    rcases h with h | h
    · exact absurd h0 h
    · exact h.symm
  · rw [if_neg h0]
    by_cases h7 : n / 2 ^ 52 % 2048 = 2047
    · rw [if_pos h7, if_pos h7]
      by_cases hf : n % 2 ^ 52 = 0
      · rw [if_pos hf, if_neg (by omega)]
      · rw [if_neg hf, if_pos hf]
    · rw [if_neg h7, if_neg h7, if_neg h0]
      congr 1
      omega

/-! ### Values -/

/-- The bytes of a value are read as the JavaScript value. -/
def Reads (H : Host) (buffers : Bool) (version : Nat) (bytes : Bytes) (js : Js) : Prop :=
  ∀ fuel q, 2 * bytes.length ≤ fuel + 1 → parseValue H version buffers fuel (bytes ++ q) = .ok (js, q)

variable {H : Host} {buffers : Bool} {ver : Version}

/-- The fuel for a value is not 0. -/
theorem fuel_succ {fuel n : Nat} (h : 2 * (n + 1) ≤ fuel + 1) : ∃ f, fuel = f + 1 ∧ 2 * n ≤ f := ⟨fuel - 1, by omega, by omega⟩

theorem reads_string (hv : 2 ≤ ver.major) (hH : Spec.Host.Faithful H) (s : Bytes) (hs : s.length < 2 ^ 30) (ht : PlainText s) :
    Reads H buffers ver.major.toNat (sized ver T_STRING s.length ++ [s]).flatten (.str s) := by
  obtain ⟨b, l, e, h1, h2, h3⟩ := sized_parts ver hv (t := T_STRING) (by decide) s.length (by omega)
  intro fuel q hf
  rw [List.flatten_append, e] at hf ⊢
  obtain ⟨f, rfl, _⟩ := fuel_succ (fuel := fuel) (n := (l ++ [s].flatten).length) (by simpa using hf)
  have hl := lengthBytes_eq (first := b.toNat) (toNat_major hv)
  simp only [List.cons_append, parseValue, getByte, hl]
  rw [if_pos (show b.toNat / 8 = 4 from h1), if_neg (by omega), List.append_assoc, ← h2, getInt_eq]
  simp only [h3, List.flatten_cons, List.flatten_nil, List.append_nil]
  rw [decode_eq, hH s ht]

theorem reads_binary (hv : 2 ≤ ver.major) (s : Bytes) (hs : s.length < 2 ^ 30) :
    Reads H buffers ver.major.toNat (sized ver T_BINARY s.length ++ [s]).flatten (if buffers then .buffer s else .arr (byteArray s)) := by
  obtain ⟨b, l, e, h1, h2, h3⟩ := sized_parts ver hv (t := T_BINARY) (by decide) s.length (by omega)
  have h1 : b.toNat / 8 = 6 := h1
  intro fuel q hf
  rw [List.flatten_append, e] at hf ⊢
  obtain ⟨f, rfl, _⟩ := fuel_succ (fuel := fuel) (n := (l ++ [s].flatten).length) (by simpa using hf)
  have hl := lengthBytes_eq (first := b.toNat) (toNat_major hv)
  simp only [List.cons_append, parseValue, getByte, hl, h1]
  simp only [show ¬ (6 = 4) from by decide, show ¬ (6 = 10) from by decide, show ¬ (6 = 11) from by decide, show ¬ (6 = 2) from by decide,
    show ¬ (6 = 1) from by decide, show ¬ (6 = 5) from by decide, show ¬ (6 = 3) from by decide, if_false, if_true]
  rw [if_neg (by omega), List.append_assoc, ← h2, getInt_eq]
  simp only [h3, List.flatten_cons, List.flatten_nil, List.append_nil]
  rw [getBytes_eq]
  simp [byteArray, codes]
  rfl

theorem major_cases (hk : ver.Known) (hv : 2 ≤ ver.major) : ver.major = 2 ∨ ver.major = 3 := by
  rcases hk.cases with h | h | h
  · rw [h] at hv; exact absurd hv (by decide)
  · exact .inl h
  · exact .inr h

theorem reads_int (hk : ver.Known) (hv : 2 ≤ ver.major) (n : Int) (hn : n.natAbs < 2 ^ 62) :
    Reads H buffers ver.major.toNat (packInt ver n).flatten (.int n) := by
  intro fuel q hf
  unfold packInt at hf ⊢
  rcases major_cases hk hv with h | h
  · rw [h, if_neg (show ¬ (2 : UInt8) > 2 from by decide), if_pos (show (2 : UInt8) > 1 from by decide)] at hf ⊢
    by_cases h0 : n < 0
    · rw [if_pos h0, safeAbs_eq (by unfold IsI64; omega), i64_small (by omega)] at hf ⊢
      obtain ⟨b, l, e, h1, h2, h3⟩ := sized_parts ver hv (t := T_INTN8) (by decide) n.natAbs (by omega)
      have h1 : b.toNat / 8 = 8 := h1
      unfold sized at e
      simp only [e] at hf ⊢
      obtain ⟨f, rfl, _⟩ := fuel_succ (fuel := fuel) (n := l.length) (by simpa using hf)
      simp only [List.cons_append, parseValue, getByte, h1]
      simp only [show ¬ (8 = 4) from by decide, show ¬ (8 = 10) from by decide, show ¬ (8 = 11) from by decide, show ¬ (8 = 2) from by decide,
        show ¬ (8 = 1) from by decide, show ¬ (8 = 5) from by decide, show ¬ (8 = 3) from by decide, show ¬ (8 = 6) from by decide,
        show ¬ (8 = 7) from by decide, if_false, if_true]
      rw [← h2, getInt_eq, h3]
      simp only [Except.ok.injEq, Prod.mk.injEq, Js.int.injEq, and_true]
      omega
    · rw [if_neg h0] at hf ⊢
      obtain ⟨b, l, e, h1, h2, h3⟩ := sized_parts ver hv (t := T_INTP8) (by decide) n.natAbs (by omega)
      have h1 : b.toNat / 8 = 7 := h1
      unfold sized at e
      simp only [show ((n.natAbs : Nat) : Int) = n from by omega] at e
      simp only [e] at hf ⊢
      obtain ⟨f, rfl, _⟩ := fuel_succ (fuel := fuel) (n := l.length) (by simpa using hf)
      simp only [List.cons_append, parseValue, getByte, h1]
      simp only [show ¬ (7 = 4) from by decide, show ¬ (7 = 10) from by decide, show ¬ (7 = 11) from by decide, show ¬ (7 = 2) from by decide,
        show ¬ (7 = 1) from by decide, show ¬ (7 = 5) from by decide, show ¬ (7 = 3) from by decide, show ¬ (7 = 6) from by decide, if_false, if_true]
      rw [← h2, getInt_eq, h3]
      simp only [Except.ok.injEq, Prod.mk.injEq, Js.int.injEq, and_true]
      omega
  · rw [h, if_pos (show (3 : UInt8) > 2 from by decide)] at hf ⊢
    have hz : zigzagEncode n < 2 ^ 63 := by
      by_cases h0 : n < 0
      · rw [zigzagEncode_neg h0 (by omega)]; omega
      · rw [zigzagEncode_nonneg (by omega) (by omega)]; omega
    obtain ⟨b, l, e, h1, h2, h3⟩ := sized_parts ver hv (t := T_INT) (by decide) (zigzagEncode n) hz
    have h1 : b.toNat / 8 = 1 := h1
    unfold sized at e
    simp only [i64_small hz, e] at hf ⊢
    obtain ⟨f, rfl, _⟩ := fuel_succ (fuel := fuel) (n := l.length) (by simpa using hf)
    simp only [List.cons_append, parseValue, getByte, h1]
    simp only [show ¬ (1 = 4) from by decide, show ¬ (1 = 10) from by decide, show ¬ (1 = 11) from by decide, show ¬ (1 = 2) from by decide,
      if_false, if_true, show (3 : UInt8).toNat = 3 from rfl]
    rw [← h2, getInt_eq, h3]
    simp only [Except.ok.injEq, Prod.mk.injEq, Js.int.injEq, and_true]
    unfold unZigzag
    by_cases h0 : n < 0
    · rw [zigzagEncode_neg h0 (by omega), if_pos (by omega)]; omega
    · rw [zigzagEncode_nonneg (by omega) (by omega), if_neg (by omega)]; omega

theorem reads_double (b : BitVec 64) (h : b.toNat / 2 ^ 52 % 2048 ≠ 0 ∨ b.toNat % 2 ^ 52 = 0) :
    Reads H buffers ver.major.toNat ([[dataType T_DOUBLE 0], leBytes 8 b.toNat] : List Bytes).flatten (.num (ieee b)) := by
  intro fuel q hf
  obtain ⟨f, rfl, _⟩ := fuel_succ (fuel := fuel) (n := (leBytes 8 b.toNat).length) (by simpa using hf)
  have hd : (dataType T_DOUBLE 0).toNat / 8 = 3 := by decide
  simp only [List.flatten_cons, List.flatten_nil, List.append_nil, List.nil_append, List.cons_append, parseValue, getByte, hd]
  simp only [show ¬ (3 = 4) from by decide, show ¬ (3 = 10) from by decide, show ¬ (3 = 11) from by decide, show ¬ (3 = 2) from by decide,
    show ¬ (3 = 1) from by decide, show ¬ (3 = 5) from by decide, if_false, if_true]
  have := getBytes_eq (leBytes 8 b.toNat) q
  rw [leBytes_length] at this
  rw [this]
  simp only
  rw [toDouble_eq b h]

theorem packFields_length (d : DateTime) : (packFields d).length = 5 := rfl

theorem reads_date (hk : ver.Known) (hv : 2 ≤ ver.major) (d : DateTime) (h0 : 0 ≤ d.unixTime) (h1 : d.unixTime < 2 ^ 43)
    (h2 : ver.major.toNat ≠ 3 → d.unixTime < 2 ^ 32) :
    packDateTime ver d = ((packDateTime ver d).1, none) ∧
    Reads H buffers ver.major.toNat (packDateTime ver d).1.flatten (.date (H.date (1000 * d.unixTime))) := by
  obtain ⟨t, ht⟩ : ∃ t : Nat, d.unixTime = t := ⟨d.unixTime.toNat, by omega⟩
  have hd : (dataType T_DATETIME 0).toNat / 8 = 5 := by decide
  unfold packDateTime
  rcases major_cases hk hv with h | h
  · rw [h, if_neg (show ¬ (2 : UInt8) > 2 from by decide), if_neg (by omega)]
    have h2 := h2 (by rw [h]; decide)
    refine ⟨rfl, fun fuel q hf => ?_⟩
    have e2 : u32 (if (if d.unixTime > 0 then d.unixTime else -d.unixTime) < 2 ^ 32 then i32 (u32 d.unixTime) else -1) = t := by
      rw [if_pos (by split <;> omega)]
      unfold i32 u32
      omega
    simp only [e2, List.flatten_cons, List.flatten_nil, List.append_nil, List.singleton_append] at hf ⊢
    obtain ⟨f, rfl, _⟩ := fuel_succ (fuel := fuel) (n := (packZone d.timeZone :: (leBytes 4 t ++ packFields d)).length) (by simpa using hf)
    simp only [List.cons_append, parseValue, getByte, hd]
    simp only [show ¬ (5 = 4) from by decide, show ¬ (5 = 10) from by decide, show ¬ (5 = 11) from by decide, show ¬ (5 = 2) from by decide,
      show ¬ (5 = 1) from by decide, if_false, if_true, show ¬ ((2 : UInt8).toNat = 3) from by decide]
    have g1 := getInt_eq (leBytes 4 t) (packFields d ++ q)
    rw [leBytes_length] at g1
    have g2 := getBytes_eq (packFields d) q
    rw [packFields_length] at g2
    rw [List.append_assoc, g1]
    simp only [g2]
    rw [leNat_leBytes 4 t (by omega), ht]
  · rw [h, if_pos (show (3 : UInt8) > 2 from by decide)]
    refine ⟨rfl, fun fuel q hf => ?_⟩
    rw [ht, u64_natCast (by omega)] at hf ⊢
    simp only [List.flatten_cons, List.flatten_nil, List.append_nil, List.singleton_append] at hf ⊢
    obtain ⟨f, rfl, _⟩ := fuel_succ (fuel := fuel) (n := (packZone d.timeZone :: (leBytes 8 t ++ packFields d)).length) (by simpa using hf)
    simp only [List.cons_append, parseValue, getByte, hd]
    simp only [show ¬ (5 = 4) from by decide, show ¬ (5 = 10) from by decide, show ¬ (5 = 11) from by decide, show ¬ (5 = 2) from by decide,
      show ¬ (5 = 1) from by decide, if_false, if_true, show (3 : UInt8).toNat = 3 from rfl]
    have g1 := getInt_eq (leBytes 8 t) (packFields d ++ q)
    rw [leBytes_length] at g1
    have g2 := getBytes_eq (packFields d) q
    rw [packFields_length] at g2
    rw [List.append_assoc, g1]
    simp only [g2]
    rw [leNat_leBytes 8 t (by omega)]

theorem assign_new {ms : List (Bytes × Js)} {k : Bytes} {v : Js} (hk : k ≠ asc "__proto__") (h : k ∉ ms.map (·.1)) : assign ms k v = ms ++ [(k, v)] := by
  unfold assign
  rw [if_neg hk, if_neg]
  simp only [List.any_eq_true, decide_eq_true_eq, not_exists, not_and]
  intro m hm he
  exact h (he ▸ List.mem_map_of_mem hm)

theorem member_bytes {strOk : Bytes → Bool} (k : Bytes) (hk : 1 ≤ k.length ∧ k.length ≤ 255) :
    pack strOk ver (.packStructMember k) = ([[UInt8.ofNat k.length], k], none) := by
  have hc : (decide (k.length > 255) || k.length == 0) = false := by
    rw [Bool.or_eq_false_iff]; exact ⟨decide_eq_false (by omega), beq_eq_false_iff_ne.2 (by omega)⟩
  simp only [pack, hc]; rfl

mutual
/-- Every value that JavaScript can read is read as the value that stands for it. -/
theorem parse_value {strOk : Bytes → Bool} (hH : Spec.Host.Faithful H) (hk : ver.Known) (hv : 2 ≤ ver.major) : ∀ v, WireOk strOk ver v → JsReadable ver.major.toNat v →
    ∃ ws, run strOk ver (feed v) = (ws, none) ∧ 1 ≤ ws.flatten.length ∧ Reads H buffers ver.major.toNat ws.flatten (jsOf H buffers v)
  | .int n, hw, hr => by
    rw [JsReadable] at hr
    refine ⟨packInt ver n, by rw [feed]; exact run_one rfl, ?_, by rw [jsOf]; exact reads_int hk hv n (by omega)⟩
    unfold packInt
    repeat' split
    all_goals simp
  | .bool b, _, _ => by
    refine ⟨[[dataType T_BOOL (if b then 1 else 0)]], by rw [feed]; exact run_one rfl, by simp, ?_⟩
    rw [jsOf]
    intro fuel q hf
    obtain ⟨f, rfl, _⟩ := fuel_succ (fuel := fuel) (n := 0) (by simpa using hf)
    cases b
    · have h1 : (dataType T_BOOL (if false = true then 1 else 0)).toNat = 16 := by decide
      simp only [List.flatten_cons, List.flatten_nil, List.append_nil, List.cons_append, List.nil_append, parseValue, getByte, h1]
      rfl
    · have h1 : (dataType T_BOOL (if true = true then 1 else 0)).toNat = 17 := by decide
      simp only [List.flatten_cons, List.flatten_nil, List.append_nil, List.cons_append, List.nil_append, parseValue, getByte, h1]
      rfl
  | .null, hw, _ => by
    refine ⟨[[dataType T_NULL 0]], ?_, by simp, ?_⟩
    · rw [feed]
      refine run_one ?_
      rw [WireOk] at hw
      unfold Version.HasNull at hw
      unfold pack
      rw [if_neg]
      simpa using hw
    · rw [jsOf]
      intro fuel q hf
      obtain ⟨f, rfl, _⟩ := fuel_succ (fuel := fuel) (n := 0) (by simpa using hf)
      have h1 : (dataType T_NULL 0).toNat = 96 := by decide
      simp only [List.flatten_cons, List.flatten_nil, List.append_nil, List.cons_append, List.nil_append, parseValue, getByte, h1]
      simp [toNat_major hv]
  | .double b, _, hr => by
    rw [JsReadable] at hr
    exact ⟨_, by rw [feed]; exact run_one rfl, by simp, by rw [jsOf]; exact reads_double b hr⟩
  | .string s, hw, hr => by
    rw [JsReadable] at hr
    rw [WireOk] at hw
    refine ⟨sized ver T_STRING s.length ++ [s], ?_, by simp [sized], by rw [jsOf]; exact reads_string hv hH s hw.1 hr⟩
    rw [feed, sz32_take hw.1]
    refine run_one ?_
    simp only [pack, packString, hw.2, if_true]
  | .stringView s, hw, hr => by
    rw [JsReadable] at hr
    rw [WireOk] at hw
    refine ⟨sized ver T_STRING s.length ++ [s], ?_, by simp [sized], by rw [jsOf]; exact reads_string hv hH s hw.1 hr⟩
    rw [feed, sz32_take hw.1]
    refine run_one ?_
    simp only [pack, packString, hw.2, if_true]
  | .binary s, hw, _ => by
    rw [WireOk] at hw
    refine ⟨sized ver T_BINARY s.length ++ [s], ?_, by simp [sized], by rw [jsOf]; exact reads_binary hv s hw⟩
    rw [feed, sz32_take hw]
    exact run_one rfl
  | .binaryRef cs, hw, _ => by
    rw [WireOk] at hw
    refine ⟨sized ver T_BINARY cs.flatten.length ++ cs, by rw [feed]; exact run_one rfl, by simp [sized], ?_⟩
    rw [jsOf]
    have := reads_binary (H := H) (buffers := buffers) hv cs.flatten hw
    simpa using this
  | .dateTime d, hw, hr => by
    rw [JsReadable] at hr
    obtain ⟨h1, h2⟩ := reads_date (H := H) (buffers := buffers) hk hv d hr.1 hr.2.1 hr.2.2
    refine ⟨(packDateTime ver d).1, by rw [feed]; exact run_one h1, ?_, by rw [jsOf]; exact h2⟩
    rw [WireOk] at hw
    unfold packDateTime
    split
    · simp
    · next hm => rw [if_neg (hw.2 (by simpa using hm))]; simp
  | .secret v, hw, hr => by
    rw [WireOk] at hw
    rw [JsReadable] at hr
    rw [feed, jsOf]
    exact parse_value hH hk hv v hw hr
  | .array vs, hw, hr => by
    rw [WireOk] at hw
    rw [JsReadable] at hr
    obtain ⟨ws, h1, h2⟩ := parse_items hH hk hv vs hw.2 hr
    obtain ⟨b, l, e, e1, e2, e3⟩ := sized_parts ver hv (t := T_ARRAY) (by decide) vs.length (by omega)
    refine ⟨sized ver T_ARRAY vs.length ++ ws, by rw [feed, sz32_eq hw.1, run_cons strOk ver _ _ _ rfl, h1], by simp [sized], ?_⟩
    have e1 : b.toNat / 8 = 11 := e1
    rw [jsOf]
    intro fuel q hf
    rw [List.flatten_append, e] at hf ⊢
    obtain ⟨f, rfl, hf'⟩ := fuel_succ (fuel := fuel) (n := (l ++ ws.flatten).length) (by simpa using hf)
    have hl := lengthBytes_eq (first := b.toNat) (toNat_major hv)
    simp only [List.cons_append, parseValue, getByte, hl, e1]
    simp only [show ¬ (11 = 4) from by decide, show ¬ (11 = 10) from by decide, if_false, if_true]
    rw [List.append_assoc, ← e2, getInt_eq]
    simp only [e3]
    rw [h2 f q (by rw [List.length_append] at hf'; omega)]
  | .struct ms, hw, hr => by
    rw [WireOk] at hw
    rw [JsReadable] at hr
    obtain ⟨ws, h1, h2⟩ := parse_members hH hk hv ms hw.2 hr.2
    obtain ⟨b, l, e, e1, e2, e3⟩ := sized_parts ver hv (t := T_STRUCT) (by decide) ms.length (by omega)
    refine ⟨sized ver T_STRUCT ms.length ++ ws, by rw [feed, sz32_eq hw.1, run_cons strOk ver _ _ _ rfl, h1], by simp [sized], ?_⟩
    have e1 : b.toNat / 8 = 10 := e1
    rw [jsOf]
    intro fuel q hf
    rw [List.flatten_append, e] at hf ⊢
    obtain ⟨f, rfl, hf'⟩ := fuel_succ (fuel := fuel) (n := (l ++ ws.flatten).length) (by simpa using hf)
    have hl := lengthBytes_eq (first := b.toNat) (toNat_major hv)
    simp only [List.cons_append, parseValue, getByte, hl, e1]
    simp only [show ¬ (10 = 4) from by decide, if_false, if_true]
    rw [List.append_assoc, ← e2, getInt_eq]
    simp only [e3]
    rw [h2 f q [] (by rw [List.length_append] at hf'; omega) hr.1 (by simp)]
    simp
theorem parse_items {strOk : Bytes → Bool} (hH : Spec.Host.Faithful H) (hk : ver.Known) (hv : 2 ≤ ver.major) : ∀ vs, WireOkItems strOk ver vs → JsReadableItems ver.major.toNat vs →
    ∃ ws, run strOk ver (feedItems vs) = (ws, none) ∧ ∀ fuel q, 2 * ws.flatten.length ≤ fuel →
      parseItems H ver.major.toNat buffers fuel vs.length (ws.flatten ++ q) = .ok (jsOfItems H buffers vs, q)
  | [], _, _ => ⟨[], rfl, fun fuel q _ => by rw [jsOfItems]; simp only [List.length_nil, List.flatten_nil, List.nil_append]; cases fuel <;> rfl⟩
  | v :: vs, hw, hr => by
    rw [WireOkItems] at hw
    rw [JsReadableItems] at hr
    obtain ⟨w1, r1, n1, p1⟩ := parse_value hH hk hv v hw.1 hr.1
    obtain ⟨w2, r2, p2⟩ := parse_items hH hk hv vs hw.2 hr.2
    refine ⟨w1 ++ w2, by rw [feedItems, run_append strOk ver _ _ w1 r1, r2], fun fuel q hf => ?_⟩
    rw [List.flatten_append, List.length_append] at hf
    obtain ⟨f, rfl⟩ : ∃ f, fuel = f + 1 := ⟨fuel - 1, by omega⟩
    rw [List.flatten_append, List.append_assoc, jsOfItems, List.length_cons]
    simp only [parseItems]
    rw [p1 f _ (by omega)]
    simp only
    rw [p2 f q (by omega)]
theorem parse_members {strOk : Bytes → Bool} (hH : Spec.Host.Faithful H) (hk : ver.Known) (hv : 2 ≤ ver.major) : ∀ ms, WireOkMembers strOk ver ms → JsReadableMembers ver.major.toNat ms →
    ∃ ws, run strOk ver (feedMembers ms) = (ws, none) ∧ ∀ fuel q acc, 2 * ws.flatten.length ≤ fuel → (ms.map (·.1)).Nodup → (∀ m ∈ ms, m.1 ∉ acc.map (·.1)) →
      parseMembers H ver.major.toNat buffers fuel ms.length acc (ws.flatten ++ q) = .ok (acc ++ jsOfMembers H buffers ms, q)
  | [], _, _ => ⟨[], rfl, fun fuel q acc _ _ _ => by
      rw [jsOfMembers]; simp only [List.length_nil, List.flatten_nil, List.nil_append, List.append_nil]; cases fuel <;> rfl⟩
  | (k, v) :: ms, hw, hr => by
    rw [WireOkMembers] at hw
    rw [JsReadableMembers] at hr
    obtain ⟨hn, hw1, hw2⟩ := hw
    obtain ⟨⟨ht, hp⟩, hr1, hr2⟩ := hr
    obtain ⟨w1, r1, n1, p1⟩ := parse_value hH hk hv v hw1 hr1
    obtain ⟨w2, r2, p2⟩ := parse_members hH hk hv ms hw2 hr2
    refine ⟨[[UInt8.ofNat k.length], k] ++ (w1 ++ w2), ?_, fun fuel q acc hf hd ha => ?_⟩
    · rw [feedMembers, sz32_take (by omega), run_cons strOk ver _ _ _ (member_bytes k hn), run_append strOk ver _ _ w1 r1, r2]
    · simp only [List.map_cons, List.nodup_cons] at hd
      have hka := ha (k, v) List.mem_cons_self
      have hlen : (UInt8.ofNat k.length).toNat = k.length := by rw [UInt8.toNat_ofNat']; omega
      have hfl : ([[UInt8.ofNat k.length], k] ++ (w1 ++ w2)).flatten ++ q = UInt8.ofNat k.length :: (k ++ (w1.flatten ++ (w2.flatten ++ q))) := by simp
      have hfn : ([[UInt8.ofNat k.length], k] ++ (w1 ++ w2)).flatten.length = 1 + (k.length + (w1.flatten.length + w2.flatten.length)) := by
        rw [List.flatten_append, List.flatten_append]; simp only [List.length_append, List.flatten_cons, List.flatten_nil, List.length_cons, List.length_nil]; omega
      rw [hfn] at hf
      obtain ⟨f, rfl⟩ : ∃ f, fuel = f + 1 := ⟨fuel - 1, by omega⟩
      rw [hfl, jsOfMembers, List.length_cons]
      simp only [parseMembers, getByte, hlen]
      rw [decode_eq, hH k ht]
      simp only
      rw [p1 f _ (by omega)]
      simp only
      rw [assign_new hp hka, p2 f q _ (by omega) hd.2 (fun m hm hc => by
        rw [List.map_append, List.mem_append] at hc
        rcases hc with hc | hc
        · exact ha m (List.mem_cons_of_mem _ hm) hc
        · simp only [List.map_cons, List.map_nil, List.mem_singleton] at hc
          exact hd.1 (hc ▸ List.mem_map_of_mem hm))]
      simp
end

end Js
end Frpc
