import Verif.Model.JsonMarshaller
import Verif.Spec.Json
import Verif.Spec.Wire
import Verif.Spec.Base64
import Verif.Props.Base64
import Verif.Basic.Ascii
/-!
# Lemmas on the JSON marshaller and the JSON reader
-/
namespace Frpc
namespace JsonMarshaller
open Spec.Json

/-! ## Strings -/

theorem quote_control (c : UInt8) (h : iscntrl c = true) :
    ∃ x y hi lo, (escape c.toNat).take 6 = [92, 117, 48, 48, x, y] ∧ hexOf x = some hi ∧ hexOf y = some lo ∧ hi * 16 + lo = c.toNat ∧ c.toNat < 128 := by
  have := forall_byte (fun c => !iscntrl c || (decide ((escape c.toNat).take 6 = [92, 117, 48, 48, hexChar (c.toNat / 16), hexChar (c.toNat % 16)]) &&
    decide (hexOf (hexChar (c.toNat / 16)) = some (c.toNat / 16)) && decide (hexOf (hexChar (c.toNat % 16)) = some (c.toNat % 16)) && decide (c.toNat < 128)))
    (by decide +kernel) c
  simp only [h, Bool.not_true, Bool.false_or, Bool.and_eq_true, decide_eq_true_eq] at this
  exact ⟨_, _, _, _, this.1.1.1, this.1.1.2, this.1.2, by omega, this.2⟩

/-- A quoted character is read back. -/
theorem strChar_quote (c : UInt8) (rest : Bytes) : strChar (quoteChar c ++ rest) = some (c, rest) ∧ (quoteChar c).head? ≠ some 34 ∧ quoteChar c ≠ [] := by
  unfold quoteChar
  split
  · next h => subst h; exact ⟨rfl, by decide, by decide⟩
  split
  · next h => subst h; exact ⟨rfl, by decide, by decide⟩
  split
  · next h => subst h; exact ⟨rfl, by decide, by decide⟩
  split
  · next h => subst h; exact ⟨rfl, by decide, by decide⟩
  split
  · next h => subst h; exact ⟨rfl, by decide, by decide⟩
  split
  · next h =>
    obtain ⟨x, y, hi, lo, h1, h2, h3, h4, h5⟩ := quote_control c h
    rw [h1]
    refine ⟨?_, by simp, by simp⟩
    have h0 : hexOf 48 = some 0 := by decide
    simp only [List.cons_append, List.nil_append, strChar, h0, h2, h3]
    rw [if_pos (by omega)]
    have : ((0 * 16 + 0) * 16 + hi) * 16 + lo = c.toNat := by omega
    rw [this]; simp
  · next h1 h2 h3 h4 h5 h6 =>
    refine ⟨?_, by simpa using h1, by simp⟩
    have h7 : ¬ (c.toNat < 32 ∨ c = 34 ∨ c = 92) := by
      unfold iscntrl at h6
      simp only [decide_eq_true_eq] at h6
      grind
    show strChar (c :: rest) = _
    unfold strChar
    split
    · next h => cases h; exact absurd rfl h2
    · next h => cases h; exact absurd rfl h2
    · next h => cases h; rw [if_neg h7]
    · next h => cases h

/-- The characters of a quoted string. -/
def quoted (s : Bytes) : Bytes := (s.map quoteChar).flatten

theorem quote_flatten (s : Bytes) : (quote s).flatten = 34 :: (quoted s ++ [34]) := by
  simp [quote, quoted]

theorem strRest_quoted : ∀ (s : Bytes) (rest : Bytes) (f : Nat), s.length < f → strRest f (quoted s ++ 34 :: rest) = some (s, rest)
  | [], rest, f + 1, _ => by simp [quoted, strRest]
  | c :: s, rest, f + 1, h => by
    obtain ⟨h1, h2, h3⟩ := strChar_quote c (quoted s ++ 34 :: rest)
    have ih := strRest_quoted s rest f (by simpa using h)
    have e : quoted (c :: s) ++ 34 :: rest = quoteChar c ++ (quoted s ++ 34 :: rest) := by simp [quoted]
    rw [e]
    obtain ⟨a, l, ha⟩ := List.exists_cons_of_ne_nil h3
    have h4 : a ≠ 34 := by rw [ha] at h2; simpa using h2
    rw [ha, List.cons_append] at h1 ⊢
    rw [strRest.eq_def]
    split
    · next heq => cases heq
    · next heq1 heq => cases heq; exact absurd rfl h4
    · next heq0 heq => cases heq0; simp only [h1, ih]; rfl

theorem quoted_length (s : Bytes) : s.length ≤ (quoted s).length := by
  induction s with
  | nil => simp
  | cons c s ih =>
    have := (strChar_quote c []).2.2
    have : 0 < (quoteChar c).length := List.length_pos_iff.2 this
    simp only [quoted, List.map_cons, List.flatten_cons, List.length_append, List.length_cons] at ih ⊢
    omega

theorem readString_quoted (s rest : Bytes) : readString (34 :: (quoted s ++ 34 :: rest)) = some (s, rest) := by
  unfold readString
  apply strRest_quoted
  have := quoted_length s
  simp; omega

/-! ## Numbers -/

/-- What may follow a value in a text. -/
def Stop (rest : Bytes) : Prop := ∀ c, rest.head? = some c → c = 44 ∨ c = 93 ∨ c = 125 ∨ c = 32

theorem Stop.not_digit {rest : Bytes} (h : Stop rest) : rest = [] ∨ ∃ c r, rest = c :: r ∧ isDigit c = false ∧ c ≠ 46 ∧ c ≠ 101 ∧ c ≠ 69 := by
  cases rest with
  | nil => exact .inl rfl
  | cons c r =>
    right
    refine ⟨c, r, rfl, ?_⟩
    rcases h c rfl with rfl | rfl | rfl | rfl <;> decide

theorem digits_append {rest : Bytes} (hs : Stop rest) (s : Bytes) : digits (s ++ rest) = ((digits s).1, (digits s).2 ++ rest) := by
  unfold digits
  induction s with
  | nil =>
    rcases hs.not_digit with rfl | ⟨c, r, rfl, h, -⟩
    · rfl
    · simp [List.takeWhile_cons, List.dropWhile_cons, h]
  | cons c s ih =>
    simp only [Prod.mk.injEq] at ih ⊢
    simp only [List.cons_append, List.takeWhile_cons, List.dropWhile_cons]
    split <;> simp_all

theorem intPart_append {rest s i r : Bytes} (hs : Stop rest) (h : intPart s = some (i, r)) : intPart (s ++ rest) = some (i, r ++ rest) := by
  cases s with
  | nil => simp [intPart, digits] at h
  | cons c s =>
    by_cases hc : c = 48
    · subst hc
      simp only [intPart, Option.some.injEq, Prod.mk.injEq] at h
      obtain ⟨rfl, rfl⟩ := h
      rfl
    · have e : ∀ t : Bytes, intPart (c :: t) = (let d := digits (c :: t); if d.1 = [] then none else some d) := by
        intro t
        unfold intPart
        split
        · next heq => cases heq; exact absurd rfl hc
        · rfl
      rw [e] at h
      rw [List.cons_append, e, ← List.cons_append, digits_append hs]
      dsimp only at h ⊢
      split at h
      · cases h
      · next h0 =>
        rw [if_neg h0]
        simp only [Option.some.injEq] at h
        rw [h]

theorem fracPart_append {rest s i r : Bytes} (hs : Stop rest) (h : fracPart s = some (i, r)) : fracPart (s ++ rest) = some (i, r ++ rest) := by
  have other : ∀ t : Bytes, t.head? ≠ some 46 → fracPart t = some ([], t) := by
    intro t ht
    unfold fracPart
    split
    · exact absurd rfl ht
    · rfl
  cases s with
  | nil =>
    rw [other [] (by simp)] at h
    simp only [Option.some.injEq, Prod.mk.injEq] at h
    obtain ⟨rfl, rfl⟩ := h
    apply other
    rcases hs.not_digit with rfl | ⟨c, r, rfl, -, h, -⟩
    · simp
    · simpa using h
  | cons c s =>
    by_cases hc : c = 46
    · subst hc
      simp only [fracPart] at h
      simp only [List.cons_append, fracPart, digits_append hs]
      split at h
      · cases h
      · next h0 =>
        rw [if_neg h0]
        simp only [Option.some.injEq, Prod.mk.injEq] at h ⊢
        exact ⟨h.1, by rw [h.2]⟩
    · rw [other _ (by simpa using hc)] at h
      simp only [Option.some.injEq, Prod.mk.injEq] at h
      obtain ⟨rfl, rfl⟩ := h
      rw [List.cons_append]
      exact other _ (by simpa using hc)

theorem expSign_append {rest : Bytes} (hs : Stop rest) (s : Bytes) : expSign (s ++ rest) = ((expSign s).1, (expSign s).2 ++ rest) := by
  have other : ∀ t : Bytes, t.head? ≠ some 43 → t.head? ≠ some 45 → expSign t = ([], t) := by
    intro t h1 h2
    unfold expSign
    split
    · exact absurd rfl h1
    · exact absurd rfl h2
    · rfl
  cases s with
  | nil =>
    cases rest with
    | nil => rfl
    | cons c r =>
      rw [List.nil_append, other (c :: r) (by rcases hs c rfl with rfl | rfl | rfl | rfl <;> simp) (by rcases hs c rfl with rfl | rfl | rfl | rfl <;> simp)]
      rfl

  | cons c s =>
    by_cases h1 : c = 43
    · subst h1; rfl
    · by_cases h2 : c = 45
      · subst h2; rfl
      · rw [other (c :: s) (by simpa using h1) (by simpa using h2), List.cons_append, other _ (by simpa using h1) (by simpa using h2)]

theorem expPart_append {rest s i r : Bytes} (hs : Stop rest) (h : expPart s = some (i, r)) : expPart (s ++ rest) = some (i, r ++ rest) := by
  cases s with
  | nil =>
    simp only [expPart, Option.some.injEq, Prod.mk.injEq] at h
    obtain ⟨rfl, rfl⟩ := h
    rcases hs.not_digit with rfl | ⟨c, r, rfl, -, -, h1, h2⟩
    · rfl
    · simp [expPart, h1, h2]
  | cons c s =>
    simp only [List.cons_append, expPart] at h ⊢
    split at h
    · next hc =>
      rw [if_pos hc, expSign_append hs, digits_append hs]
      dsimp only at h ⊢
      split at h
      · cases h
      · next h0 =>
        rw [if_neg h0]
        simp only [Option.some.injEq, Prod.mk.injEq] at h ⊢
        exact ⟨h.1, by rw [h.2]⟩
    · next hc =>
      rw [if_neg hc]
      simp only [Option.some.injEq, Prod.mk.injEq] at h
      obtain ⟨rfl, rfl⟩ := h
      rfl

/-- The sign of a number. -/
def sign : Bytes → Bytes × Bytes
  | 45 :: r => ([45], r)
  | s => ([], s)

theorem readNumber_eq (s : Bytes) : readNumber s = (match intPart (sign s).2 with
  | none => none
  | some (i, r) =>
    match fracPart r with
    | none => none
    | some (f, r) =>
      match expPart r with
      | none => none
      | some (e, r) => some ((sign s).1 ++ i ++ f ++ e, r)) := by
  unfold readNumber sign
  cases s with
  | nil => rfl
  | cons c s =>
    by_cases h : c = 45
    · subst h; rfl
    · have other : sign (c :: s) = ([], c :: s) := by
        unfold sign
        split
        · next heq => cases heq; exact absurd rfl h
        · rfl
      unfold sign at other
      rw [other]
      split
      · next heq => cases heq; exact absurd rfl h
      · rfl

theorem readNumber_append {rest s l r : Bytes} (hs : Stop rest) (h : readNumber s = some (l, r)) : readNumber (s ++ rest) = some (l, r ++ rest) := by
  rw [readNumber_eq] at h ⊢
  have hsign : s ≠ [] → sign (s ++ rest) = ((sign s).1, (sign s).2 ++ rest) := by
    intro h0
    cases s with
    | nil => exact absurd rfl h0
    | cons c s =>
      by_cases h : c = 45
      · subst h; rfl
      · have other : ∀ t : Bytes, sign (c :: t) = ([], c :: t) := by
          intro t
          unfold sign
          split
          · next heq => cases heq; exact absurd rfl h
          · rfl
        rw [List.cons_append, other, other]; rfl
  by_cases h0 : s = []
  · subst h0; simp [sign, intPart, digits] at h
  rw [hsign h0]
  cases h1 : intPart (sign s).2 with
  | none => rw [h1] at h; cases h
  | some p =>
    obtain ⟨i, r1⟩ := p
    rw [h1] at h
    dsimp only at h ⊢
    rw [intPart_append hs h1]
    dsimp only
    cases h2 : fracPart r1 with
    | none => rw [h2] at h; cases h
    | some p =>
      obtain ⟨f, r2⟩ := p
      rw [h2] at h
      dsimp only at h ⊢
      rw [fracPart_append hs h2]
      dsimp only
      cases h3 : expPart r2 with
      | none => rw [h3] at h; cases h
      | some p =>
        obtain ⟨e, r3⟩ := p
        rw [h3] at h
        dsimp only at h ⊢
        rw [expPart_append hs h3]
        simp only [Option.some.injEq, Prod.mk.injEq] at h ⊢
        exact ⟨h.1, by rw [h.2]⟩

/-- A number begins with a minus sign or a digit. -/
theorem number_head {s : Bytes} (h : IsNumber s) : ∃ c r, s = c :: r ∧ (c = 45 ∨ isDigit c = true) := by
  unfold IsNumber at h
  rw [readNumber_eq] at h
  cases s with
  | nil => simp [sign, intPart, digits] at h
  | cons c s =>
    refine ⟨c, s, rfl, ?_⟩
    by_cases hc : c = 45
    · exact .inl hc
    right
    cases hd : isDigit c with
    | true => rfl
    | false =>
      exfalso
      have h1 : sign (c :: s) = ([], c :: s) := by
        unfold sign
        split
        · next heq => cases heq; exact absurd rfl hc
        · rfl
      have h2 : intPart (c :: s) = none := by
        unfold intPart
        split
        · next heq => cases heq; simp [isDigit] at hd
        · simp [digits, List.takeWhile_cons, hd]
      rw [h1, h2] at h
      cases h

theorem dec_head (n : Nat) (h : 0 < n) : (dec n).head? ≠ some 48 := by
  induction n using Nat.strongRecOn with
  | _ n ih =>
    unfold dec
    split
    · next h1 =>
      simp only [List.head?_cons, ne_eq, Option.some.injEq]
      intro h2
      have := digit_toNat h1
      rw [h2] at this
      simp at this; omega
    · next h1 =>
      have := ih (n / 10) (by omega) (by omega)
      rw [List.head?_append]
      cases hd : (dec (n / 10)).head? with
      | none => exact absurd (List.head?_eq_none_iff.1 hd) (dec_ne_nil _)
      | some c => rw [hd] at this; simpa using this

theorem digits_dec (n : Nat) : digits (dec n) = (dec n, []) := by
  unfold digits
  have h := dec_digits n
  rw [Prod.mk.injEq]
  refine ⟨?_, ?_⟩
  · generalize dec n = l at h
    induction l with
    | nil => rfl
    | cons c l ih => rw [List.takeWhile_cons, if_pos (h c (by simp)), ih (fun x hx => h x (by simp [hx]))]
  · generalize dec n = l at h
    induction l with
    | nil => rfl
    | cons c l ih => rw [List.dropWhile_cons, if_pos (h c (by simp)), ih (fun x hx => h x (by simp [hx]))]

theorem intPart_dec (n : Nat) : intPart (dec n) = some (dec n, []) := by
  by_cases h : n = 0
  · subst h; decide +kernel
  · have h1 := dec_head n (by omega)
    unfold intPart
    split
    · next heq => rw [heq] at h1; exact absurd rfl h1
    · rw [digits_dec]; simp [dec_ne_nil]

theorem dec_head_digit (n : Nat) : ∃ c r, dec n = c :: r ∧ isDigit c = true := by
  obtain ⟨c, r, h⟩ := List.exists_cons_of_ne_nil (dec_ne_nil n)
  exact ⟨c, r, h, dec_digits n c (by rw [h]; simp)⟩

/-- Decimal integers are JSON numbers. -/
theorem isNumber_decInt (n : Int) : IsNumber (decInt n) := by
  unfold IsNumber
  rw [readNumber_eq]
  unfold decInt
  by_cases hn : n < 0
  · simp only [if_pos hn, sign, intPart_dec, fracPart, expPart]
    simp
  · have : sign (dec n.natAbs) = ([], dec n.natAbs) := by
      obtain ⟨c, r, h, hd⟩ := dec_head_digit n.natAbs
      rw [h]
      unfold sign
      split
      · next heq => cases heq; simp [isDigit] at hd
      · rfl
    simp only [if_neg hn, this]
    simp only [intPart_dec, fracPart, expPart]
    simp

theorem intOf_decInt (n : Int) : intOf (decInt n) = n := by
  unfold decInt
  split
  · next h => simp only [intOf, atoi_dec]; omega
  · next h =>
    obtain ⟨c, r, h1, hd⟩ := dec_head_digit n.natAbs
    have : intOf (dec n.natAbs) = atoi (dec n.natAbs) := by
      rw [h1]
      unfold intOf
      split
      · next heq => cases heq; simp [isDigit] at hd
      · rfl
    rw [this, atoi_dec]; omega

/-! ## Values: what is written -/

mutual
/-- The text of a value. -/
def text (dbl : BitVec 64 → Bytes) : Value → Bytes
  | .int n => decInt n
  | .bool b => if b then asc "true" else asc "false"
  | .double x => dbl x
  | .string s | .stringView s => 34 :: (quoted s ++ [34])
  | .dateTime d => decInt d.unixTime
  | .binary s => 34 :: (Spec.base64 s ++ [34])
  | .binaryRef cs => 34 :: (Spec.base64 cs.flatten ++ [34])
  | .null => asc "null"
  | .secret v => text dbl v
  | .array [] => asc "[]"
  | .array (v :: vs) => 91 :: (text dbl v ++ textItems dbl vs)
  | .struct [] => asc "{}"
  | .struct ((k, v) :: ms) => 123 :: (34 :: (quoted k ++ [34, 58]) ++ text dbl v ++ textMembers dbl ms)
/-- The rest of an array. -/
def textItems (dbl : BitVec 64 → Bytes) : List Value → Bytes
  | [] => [93]
  | v :: vs => 44 :: (text dbl v ++ textItems dbl vs)
/-- The rest of an object. -/
def textMembers (dbl : BitVec 64 → Bytes) : List (Bytes × Value) → Bytes
  | [] => [125]
  | (k, v) :: ms => 44 :: (34 :: (quoted k ++ [34, 58]) ++ text dbl v ++ textMembers dbl ms)
end

/-- A value written in a context: its text, then what `decr` writes, then the rest. -/
def Writes (dbl : BitVec 64 → Bytes) (t : Bytes) (ctx : Ctx) (ops rest : List PackOp) : Prop :=
  (packAll dbl ctx (ops ++ rest)).1.flatten = t ++ ((decr ctx).1.flatten ++ (packAll dbl (decr ctx).2 rest).1.flatten) ∧
  (packAll dbl ctx (ops ++ rest)).2 = (packAll dbl (decr ctx).2 rest).2

theorem writes_item (dbl : BitVec 64 → Bytes) {op : PackOp} {ws : List Bytes} {ctx : Ctx} (rest : List PackOp)
    (h : pack dbl ctx op = item ws ctx) : Writes dbl ws.flatten ctx [op] rest := by
  unfold Writes
  rw [List.singleton_append, packAll, h]
  simp [item]

theorem quoteBase64_flatten (cs : List Bytes) : (quoteBase64 cs).flatten = 34 :: (Spec.base64 cs.flatten ++ [34]) := by
  have h1 := (C24_body cs).1
  have h2 : ∀ l : Bytes, (l.map (fun c => [c])).flatten = l := by
    intro l; induction l with
    | nil => rfl
    | cons c l ih => simp [ih]
  simp [quoteBase64, h1, h2]

theorem take_sz {s : Bytes} (h : s.length < 2 ^ 30) : s.take (sz32 s.length) = s := by
  apply List.take_of_length_le
  unfold sz32
  omega

open Spec (Small SmallItems SmallMembers) in
mutual
theorem writes_value (dbl : BitVec 64 → Bytes) : ∀ (v : Value), Small v → ∀ (ctx : Ctx) (rest : List PackOp), Writes dbl (text dbl v) ctx (feed v) rest
  | .int n, _, ctx, rest => by simpa [text, feed, sz32] using writes_item dbl (ws := [decInt n]) rest (ctx := ctx) (op := .packInt n) rfl
  | .bool b, _, ctx, rest => by simpa [text, feed, sz32] using writes_item dbl (ws := [if b then asc "true" else asc "false"]) rest (ctx := ctx) (op := .packBool b) rfl
  | .double x, _, ctx, rest => by simpa [text, feed, sz32] using writes_item dbl (ws := [dbl x]) rest (ctx := ctx) (op := .packDouble x) rfl
  | .string s, h, ctx, rest => by
    have := writes_item dbl (ws := quote s) rest (ctx := ctx) (op := .packString s) rfl
    rw [quote_flatten] at this
    simpa only [feed, text, take_sz h] using this
  | .stringView s, h, ctx, rest => by
    have := writes_item dbl (ws := quote s) rest (ctx := ctx) (op := .packString s) rfl
    rw [quote_flatten] at this
    simpa only [feed, text, take_sz h] using this
  | .dateTime d, _, ctx, rest => by simpa [text, feed, sz32] using writes_item dbl (ws := [decInt d.unixTime]) rest (ctx := ctx) (op := .packDateTime d) rfl
  | .binary s, h, ctx, rest => by
    have := writes_item dbl (ws := quoteBase64 [s]) rest (ctx := ctx) (op := .packBinary s) rfl
    rw [quoteBase64_flatten] at this
    simpa only [feed, text, take_sz h, List.flatten_singleton] using this
  | .binaryRef cs, _, ctx, rest => by
    have := writes_item dbl (ws := quoteBase64 cs) rest (ctx := ctx) (op := .packBinaryRef cs) rfl
    rw [quoteBase64_flatten] at this
    simpa only [feed, text] using this
  | .null, _, ctx, rest => by simpa [text, feed, sz32] using writes_item dbl (ws := [asc "null"]) rest (ctx := ctx) (op := .packNull) rfl
  | .secret v, h, ctx, rest => by
    have := writes_value dbl v (by simpa only [Small] using h) ctx rest
    simpa only [feed, text] using this
  | .array [], _, ctx, rest => by simpa [text, feed, sz32, feedItems] using writes_item dbl (ws := [asc "[]"]) rest (ctx := ctx) (op := .packArray 0) rfl
  | .struct [], _, ctx, rest => by simpa [text, feed, sz32, feedMembers] using writes_item dbl (ws := [asc "{}"]) rest (ctx := ctx) (op := .packStruct 0) rfl
  | .array (v :: vs), h, ctx, rest => by
    simp only [Small, SmallItems] at h
    have hn : sz32 (v :: vs).length = vs.length + 1 := by
      unfold sz32; simp only [List.length_cons] at h ⊢; omega
    obtain ⟨a1, a2⟩ := writes_value dbl v h.2.1 ((93, vs.length + 1) :: ctx) (feedItems vs ++ rest)
    obtain ⟨b1, b2⟩ := writes_items dbl vs h.2.2 ctx rest
    unfold Writes
    simp only [feed, hn, feedItems, List.cons_append, List.append_assoc, packAll, pack, Nat.add_one_ne_zero, if_false, List.flatten_cons, List.nil_append]
    rw [a1, a2, b1, b2]
    simp [text, asc]
  | .struct ((k, v) :: ms), h, ctx, rest => by
    simp only [Small, SmallMembers] at h
    have hn : sz32 ((k, v) :: ms).length = ms.length + 1 := by
      unfold sz32; simp only [List.length_cons] at h ⊢; omega
    obtain ⟨a1, a2⟩ := writes_value dbl v h.2.2.1 ((125, ms.length + 1) :: ctx) (feedMembers ms ++ rest)
    obtain ⟨b1, b2⟩ := writes_members dbl ms h.2.2.2 ctx rest
    unfold Writes
    simp only [feed, hn, feedMembers, take_sz h.2.1, List.cons_append, List.append_assoc, packAll, pack, Nat.add_one_ne_zero, if_false, List.flatten_cons, List.nil_append, List.flatten_append]
    rw [a1, a2, b1, b2]
    simp [text, asc, quote_flatten]
theorem writes_items (dbl : BitVec 64 → Bytes) : ∀ (vs : List Value), SmallItems vs → ∀ (ctx : Ctx) (rest : List PackOp),
    (decr ((93, vs.length + 1) :: ctx)).1.flatten ++ (packAll dbl (decr ((93, vs.length + 1) :: ctx)).2 (feedItems vs ++ rest)).1.flatten =
      textItems dbl vs ++ ((decr ctx).1.flatten ++ (packAll dbl (decr ctx).2 rest).1.flatten) ∧
    (packAll dbl (decr ((93, vs.length + 1) :: ctx)).2 (feedItems vs ++ rest)).2 = (packAll dbl (decr ctx).2 rest).2
  | [], _, ctx, rest => by simp [decr, feedItems, textItems]
  | v :: vs, h, ctx, rest => by
    simp only [SmallItems] at h
    obtain ⟨a1, a2⟩ := writes_value dbl v h.1 ((93, vs.length + 1) :: ctx) (feedItems vs ++ rest)
    obtain ⟨b1, b2⟩ := writes_items dbl vs h.2 ctx rest
    simp only [List.length_cons, decr, feedItems, List.append_assoc]
    rw [a1, a2, b1, b2]
    simp [textItems]
theorem writes_members (dbl : BitVec 64 → Bytes) : ∀ (ms : List (Bytes × Value)), SmallMembers ms → ∀ (ctx : Ctx) (rest : List PackOp),
    (decr ((125, ms.length + 1) :: ctx)).1.flatten ++ (packAll dbl (decr ((125, ms.length + 1) :: ctx)).2 (feedMembers ms ++ rest)).1.flatten =
      textMembers dbl ms ++ ((decr ctx).1.flatten ++ (packAll dbl (decr ctx).2 rest).1.flatten) ∧
    (packAll dbl (decr ((125, ms.length + 1) :: ctx)).2 (feedMembers ms ++ rest)).2 = (packAll dbl (decr ctx).2 rest).2
  | [], _, ctx, rest => by simp [decr, feedMembers, textMembers]
  | (k, v) :: ms, h, ctx, rest => by
    simp only [SmallMembers] at h
    obtain ⟨a1, a2⟩ := writes_value dbl v h.2.1 ((125, ms.length + 1) :: ctx) (feedMembers ms ++ rest)
    obtain ⟨b1, b2⟩ := writes_members dbl ms h.2.2 ctx rest
    simp only [List.length_cons, decr, feedMembers, take_sz h.1, List.cons_append, List.append_assoc, packAll, pack, List.flatten_append, List.flatten_cons, List.nil_append]
    rw [a1, a2, b1, b2]
    simp [textMembers, quote_flatten, asc]
end

/-- A whole response. -/
theorem run_value (dbl : BitVec 64 → Bytes) (v : Value) (h : Spec.Small v) :
    ∃ ws, run dbl (.packMethodResponse :: feed v) = (ws, none) ∧ ws.flatten = text dbl v := by
  obtain ⟨h1, h2⟩ := writes_value dbl v h [] []
  simp only [List.append_nil, decr, packAll, List.flatten_nil] at h1 h2
  generalize hp : packAll dbl [] (feed v) = p at h1 h2
  obtain ⟨ws, q⟩ := p
  dsimp only at h1 h2
  subst h2
  refine ⟨ws, ?_, h1⟩
  unfold run
  simp only [packAll, pack, List.nil_append, hp]
  simp [flush, flushLoop, decr]

/-! ## Values: what is read -/

theorem skipWs_cons {c : UInt8} (h : isWs c = false) (s : Bytes) : skipWs (c :: s) = c :: s := by
  simp [skipWs, List.dropWhile_cons, h]

theorem stop_ws {c : UInt8} (h : c = 44 ∨ c = 93 ∨ c = 125) (s : Bytes) : skipWs (c :: s) = c :: s := by
  apply skipWs_cons
  rcases h with rfl | rfl | rfl <;> decide

/-- A number at the front of a text. -/
theorem readValue_number {l : Bytes} (h : IsNumber l) {rest : Bytes} (hs : Stop rest) (f : Nat) :
    readValue (f + 1) (l ++ rest) = some (.num l, rest) := by
  obtain ⟨c, r, rfl, hc⟩ := number_head h
  have hw : isWs c = false := by
    rcases hc with rfl | hc
    · decide
    · have := forall_byte (fun c => !isDigit c || !isWs c) (by decide +kernel) c
      simpa [hc] using this
  have hne : c ≠ 110 ∧ c ≠ 116 ∧ c ≠ 102 ∧ c ≠ 34 ∧ c ≠ 91 ∧ c ≠ 123 := by
    rcases hc with rfl | hc
    · decide
    · have := forall_byte (fun c => !isDigit c || decide (c ≠ 110 ∧ c ≠ 116 ∧ c ≠ 102 ∧ c ≠ 34 ∧ c ≠ 91 ∧ c ≠ 123)) (by decide +kernel) c
      simpa [hc] using this
  have hn := readNumber_append hs h
  rw [List.nil_append] at hn
  rw [readValue, List.cons_append, skipWs_cons hw]
  split
  · next heq => exact absurd (List.cons.inj heq).1 hne.1
  · next heq => exact absurd (List.cons.inj heq).1 hne.2.1
  · next heq => exact absurd (List.cons.inj heq).1 hne.2.2.1
  · next heq => exact absurd (List.cons.inj heq).1 hne.2.2.2.1
  · next heq => exact absurd (List.cons.inj heq).1 hne.2.2.2.2.1
  · next heq => exact absurd (List.cons.inj heq).1 hne.2.2.2.2.2
  · rw [List.cons_append] at hn
    rw [hn]; rfl

theorem readValue_string (s rest : Bytes) (f : Nat) : readValue (f + 1) (34 :: (quoted s ++ [34]) ++ rest) = some (.str s, rest) := by
  have := readString_quoted s rest
  rw [readValue, List.cons_append, skipWs_cons (by decide)]
  simp only [List.append_assoc, List.singleton_append, this]
  rfl

theorem base64_chars : ∀ (d : Bytes), ∀ c ∈ Spec.base64 d, (∃ n, n < 64 ∧ c = Spec.b64char n) ∨ c = Spec.b64pad
  | [] => by simp [Spec.base64]
  | [a] => by
    have := a.toNat_lt
    intro c hc
    simp only [Spec.base64, List.mem_cons, List.not_mem_nil, or_false] at hc
    rcases hc with rfl | rfl | rfl | rfl
    · exact .inl ⟨_, by omega, rfl⟩
    · exact .inl ⟨_, by omega, rfl⟩
    · exact .inr rfl
    · exact .inr rfl
  | [a, b] => by
    have := a.toNat_lt
    have := b.toNat_lt
    intro c hc
    simp only [Spec.base64, List.mem_cons, List.not_mem_nil, or_false] at hc
    rcases hc with rfl | rfl | rfl | rfl
    · exact .inl ⟨_, by omega, rfl⟩
    · exact .inl ⟨_, by omega, rfl⟩
    · exact .inl ⟨_, by omega, rfl⟩
    · exact .inr rfl
  | a :: b :: c :: r => by
    have := a.toNat_lt
    have := b.toNat_lt
    have := c.toNat_lt
    intro x hx
    simp only [Spec.base64, List.mem_cons] at hx
    rcases hx with rfl | rfl | rfl | rfl | hx
    · exact .inl ⟨_, by omega, rfl⟩
    · exact .inl ⟨_, by omega, rfl⟩
    · exact .inl ⟨_, by omega, rfl⟩
    · exact .inl ⟨_, by omega, rfl⟩
    · exact base64_chars r x hx

theorem quoteChar_b64 {n : Nat} (h : n < 64) : quoteChar (Spec.b64char n) = [Spec.b64char n] := by
  have : (List.range 64).all (fun n => decide (quoteChar (Spec.b64char n) = [Spec.b64char n])) = true := by decide +kernel
  simpa using List.all_eq_true.1 this n (List.mem_range.2 h)

theorem quoted_base64 (s : Bytes) : quoted (Spec.base64 s) = Spec.base64 s := by
  have h : ∀ c ∈ Spec.base64 s, quoteChar c = [c] := by
    intro c hc
    rcases base64_chars s c hc with ⟨n, hn, rfl⟩ | rfl
    · exact quoteChar_b64 hn
    · decide
  unfold quoted
  generalize Spec.base64 s = l at h
  induction l with
  | nil => rfl
  | cons c l ih => simp [h c (by simp), ih (fun x hx => h x (by simp [hx]))]

theorem stop_items (dbl : BitVec 64 → Bytes) (vs : List Value) (rest : Bytes) : Stop (textItems dbl vs ++ rest) := by
  cases vs <;> simp [textItems, Stop]

theorem stop_members (dbl : BitVec 64 → Bytes) (ms : List (Bytes × Value)) (rest : Bytes) : Stop (textMembers dbl ms ++ rest) := by
  rcases ms with _ | ⟨⟨k, v⟩, ms⟩ <;> simp [textMembers, Stop]

theorem text_head (dbl : BitVec 64 → Bytes) (v : Value) (h : DoublesAll (fun b => IsNumber (dbl b)) v) :
    ∃ c r, text dbl v = c :: r ∧ isWs c = false ∧ c ≠ 93 ∧ c ≠ 125 := by
  have num : ∀ l, IsNumber l → ∃ c r, l = c :: r ∧ isWs c = false ∧ c ≠ 93 ∧ c ≠ 125 := by
    intro l hl
    obtain ⟨c, r, h1, h2⟩ := number_head hl
    refine ⟨c, r, h1, ?_⟩
    rcases h2 with rfl | h2
    · decide
    · have := forall_byte (fun c => !isDigit c || decide (isWs c = false ∧ c ≠ 93 ∧ c ≠ 125)) (by decide +kernel) c
      simpa [h2] using this
  induction v using Value.rec (motive_2 := fun _ => True) (motive_3 := fun _ => True) (motive_4 := fun _ => True) with
  | int n => exact num _ (isNumber_decInt n)
  | bool b => cases b <;> exact ⟨_, _, rfl, by decide, by decide, by decide⟩
  | double x => simp only [DoublesAll] at h; exact num _ h
  | string s => exact ⟨_, _, rfl, by decide, by decide, by decide⟩
  | stringView s => exact ⟨_, _, rfl, by decide, by decide, by decide⟩
  | dateTime d => exact num _ (isNumber_decInt _)
  | binary s => exact ⟨_, _, rfl, by decide, by decide, by decide⟩
  | binaryRef s => exact ⟨_, _, rfl, by decide, by decide, by decide⟩
  | null => exact ⟨_, _, rfl, by decide, by decide, by decide⟩
  | array vs => cases vs <;> exact ⟨_, _, rfl, by decide, by decide, by decide⟩
  | struct ms => rcases ms with _ | ⟨⟨k, v⟩, ms⟩ <;> exact ⟨_, _, rfl, by decide, by decide, by decide⟩
  | secret v ih => simp only [DoublesAll] at h; exact ih h
  | _ => trivial

theorem readValue_array (f : Nat) (r : Bytes) : readValue (f + 1) (91 :: r) = (match skipWs r with
    | 93 :: r => some (.arr [], r)
    | _ => (readItems f r).map fun p => (.arr p.1, p.2)) := by
  rw [readValue, skipWs_cons (by decide)]
  rfl

mutual
theorem reads_value (dbl : BitVec 64 → Bytes) : ∀ (v : Value), DoublesAll (fun b => IsNumber (dbl b)) v → ∀ (f : Nat) (rest : Bytes), Stop rest →
    2 * (text dbl v).length ≤ f → readValue (f + 1) (text dbl v ++ rest) = some (image dbl v, rest)
  | .int n, _, f, rest, hs, _ => by simpa only [text, image] using readValue_number (isNumber_decInt n) hs f
  | .bool b, _, f, rest, hs, _ => by cases b <;> rfl
  | .double x, h, f, rest, hs, _ => by
    simp only [DoublesAll] at h
    simpa only [text, image] using readValue_number h hs f
  | .string s, _, f, rest, hs, _ => by simpa only [text, image] using readValue_string s rest f
  | .stringView s, _, f, rest, hs, _ => by simpa only [text, image] using readValue_string s rest f
  | .dateTime d, _, f, rest, hs, _ => by simpa only [text, image] using readValue_number (isNumber_decInt d.unixTime) hs f
  | .binary s, _, f, rest, hs, _ => by
    have := readValue_string (Spec.base64 s) rest f
    rw [quoted_base64] at this
    simpa only [text, image] using this
  | .binaryRef cs, _, f, rest, hs, _ => by
    have := readValue_string (Spec.base64 cs.flatten) rest f
    rw [quoted_base64] at this
    simpa only [text, image] using this
  | .null, _, f, rest, hs, _ => by rfl
  | .secret v, h, f, rest, hs, hf => by
    have := reads_value dbl v (by simpa only [DoublesAll] using h) f rest hs (by simpa only [text] using hf)
    simpa only [text, image] using this
  | .array [], _, f, rest, hs, _ => by rfl
  | .struct [], _, f, rest, hs, _ => by rfl
  | .array (v :: vs), h, f, rest, hs, hf => by
    simp only [DoublesAll, DoublesItems] at h
    simp only [text, List.length_cons, List.length_append] at hf
    obtain ⟨f, rfl⟩ : ∃ g, f = g + 1 := ⟨f - 1, by omega⟩
    have := reads_items dbl v vs h.1 h.2 f rest (by omega)
    obtain ⟨c, r, h1, h2, h3, h4⟩ := text_head dbl v h.1
    rw [text, List.cons_append, readValue_array, List.append_assoc]
    rw [h1] at this ⊢
    rw [List.cons_append, skipWs_cons h2]
    rw [List.cons_append] at this
    split
    · next heq => cases heq; exact absurd rfl h3
    · rw [this]; simp only [image, imageItems, Option.map_some]
  | .struct ((k, v) :: ms), h, f, rest, hs, hf => by
    simp only [DoublesAll, DoublesMembers] at h
    simp only [text, List.length_cons, List.length_append] at hf
    obtain ⟨f, rfl⟩ : ∃ g, f = g + 1 := ⟨f - 1, by omega⟩
    have := reads_members dbl k v ms h.1 h.2 f rest (by omega)
    rw [readValue, text, List.cons_append, skipWs_cons (by decide)]
    simp only [List.cons_append, List.append_assoc, List.nil_append] at this ⊢
    rw [skipWs_cons (by decide)]
    split
    · next heq => cases heq
    · simp only [this, image, imageMembers, Option.map_some]
termination_by v => sizeOf v
decreasing_by all_goals (simp_wf; try omega)
theorem reads_items (dbl : BitVec 64 → Bytes) : ∀ (v : Value) (vs : List Value), DoublesAll (fun b => IsNumber (dbl b)) v →
    DoublesItems (fun b => IsNumber (dbl b)) vs → ∀ (f : Nat) (rest : Bytes), 2 * (text dbl v).length + 2 * (textItems dbl vs).length ≤ f →
    readItems (f + 1) (text dbl v ++ (textItems dbl vs ++ rest)) = some (image dbl v :: imageItems dbl vs, rest)
  | v, [], h, _, f, rest, hf => by
    simp only [textItems, List.length_cons, List.length_nil] at hf
    obtain ⟨f, rfl⟩ : ∃ g, f = g + 1 := ⟨f - 1, by omega⟩
    have := reads_value dbl v h f (textItems dbl [] ++ rest) (stop_items dbl [] rest) (by omega)
    rw [readItems, this]
    dsimp only [textItems, List.cons_append, List.nil_append]
    rw [skipWs_cons (by decide)]
    rfl
  | v, w :: vs, h, hv, f, rest, hf => by
    simp only [DoublesItems] at hv
    simp only [textItems, List.length_cons, List.length_append] at hf
    obtain ⟨f, rfl⟩ : ∃ g, f = g + 1 := ⟨f - 1, by omega⟩
    have := reads_value dbl v h f (textItems dbl (w :: vs) ++ rest) (stop_items dbl _ rest) (by omega)
    have ih := reads_items dbl w vs hv.1 hv.2 f rest (by omega)
    rw [readItems, this]
    dsimp only [textItems, List.cons_append]
    rw [skipWs_cons (by decide), List.append_assoc]
    show (readItems (f + 1) _).map _ = _
    rw [ih]
    simp only [imageItems, Option.map_some]
termination_by v vs => sizeOf v + sizeOf vs
decreasing_by all_goals (simp_wf; try omega)
theorem reads_members (dbl : BitVec 64 → Bytes) : ∀ (k : Bytes) (v : Value) (ms : List (Bytes × Value)), DoublesAll (fun b => IsNumber (dbl b)) v →
    DoublesMembers (fun b => IsNumber (dbl b)) ms → ∀ (f : Nat) (rest : Bytes), 2 * (text dbl v).length + 2 * (textMembers dbl ms).length ≤ f →
    readMembers (f + 1) (34 :: (quoted k ++ [34, 58]) ++ (text dbl v ++ (textMembers dbl ms ++ rest))) = some ((k, image dbl v) :: imageMembers dbl ms, rest)
  | k, v, [], h, _, f, rest, hf => by
    simp only [textMembers, List.length_cons, List.length_nil] at hf
    obtain ⟨f, rfl⟩ : ∃ g, f = g + 1 := ⟨f - 1, by omega⟩
    have := reads_value dbl v h f (textMembers dbl [] ++ rest) (stop_members dbl [] rest) (by omega)
    rw [readMembers, List.cons_append, skipWs_cons (by decide)]
    have e : ∀ t : Bytes, (34 :: (quoted k ++ [34, 58] ++ t) : Bytes) = 34 :: (quoted k ++ 34 :: (58 :: t)) := by intro t; simp
    rw [e, readString_quoted]
    try dsimp only
    rw [skipWs_cons (by decide)]
    show (match readValue (f + 1) _ with
      | none => none
      | some (v, r) =>
        match skipWs r with
        | 125 :: r => some ([(k, v)], r)
        | 44 :: r => (readMembers (f + 1) r).map fun (p : List (Bytes × JVal) × Bytes) => ((k, v) :: p.1, p.2)
        | _ => none) = _
    rw [this]
    dsimp only [textMembers, List.cons_append, List.nil_append]
    rw [skipWs_cons (by decide)]
    rfl
  | k, v, (k', w) :: ms, h, hv, f, rest, hf => by
    simp only [DoublesMembers] at hv
    simp only [textMembers, List.length_cons, List.length_append] at hf
    obtain ⟨f, rfl⟩ : ∃ g, f = g + 1 := ⟨f - 1, by omega⟩
    have := reads_value dbl v h f (textMembers dbl ((k', w) :: ms) ++ rest) (stop_members dbl _ rest) (by omega)
    have ih := reads_members dbl k' w ms hv.1 hv.2 f rest (by omega)
    rw [readMembers, List.cons_append, skipWs_cons (by decide)]
    have e : ∀ t : Bytes, (34 :: (quoted k ++ [34, 58] ++ t) : Bytes) = 34 :: (quoted k ++ 34 :: (58 :: t)) := by intro t; simp
    rw [e, readString_quoted]
    try dsimp only
    rw [skipWs_cons (by decide)]
    show (match readValue (f + 1) _ with
      | none => none
      | some (v, r) =>
        match skipWs r with
        | 125 :: r => some ([(k, v)], r)
        | 44 :: r => (readMembers (f + 1) r).map fun (p : List (Bytes × JVal) × Bytes) => ((k, v) :: p.1, p.2)
        | _ => none) = _
    rw [this]
    dsimp only [textMembers, List.cons_append]
    rw [skipWs_cons (by decide)]
    simp only [List.append_assoc, List.cons_append] at ih ⊢
    show (readMembers (f + 1) _).map _ = _
    rw [ih]
    simp only [imageMembers, Option.map_some]
termination_by k v ms => sizeOf v + sizeOf ms
decreasing_by all_goals (simp_wf; try omega)
end

end JsonMarshaller
end Frpc
