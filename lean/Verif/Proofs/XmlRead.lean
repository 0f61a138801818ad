import Verif.Model.XmlMarshaller
import Verif.Spec.Xml
import Verif.Spec.XmlRpc
/-!
# Lemmas on the XML reader of the specification
-/
namespace Frpc
namespace Spec.Xml
open XmlMarshaller (quoteChar)

/-! ## Without fuel -/

theorem drop_le (k : Nat) (s : Bytes) : (s.drop k).length ≤ s.length := by simp

theorem entity_shorter {s r : Bytes} {c : UInt8} (h : entity s = some (c, r)) : r.length < s.length := by
  unfold entity at h
  split at h <;> first | (cases h; done) | (simp only [Option.some.injEq, Prod.mk.injEq] at h; obtain ⟨-, rfl⟩ := h; simp; omega)

theorem dropWhile_le (p : UInt8 → Bool) : ∀ s : Bytes, (s.dropWhile p).length ≤ s.length
  | [] => by simp
  | c :: s => by
    have := dropWhile_le p s
    rw [List.dropWhile_cons]
    split <;> simp <;> omega

theorem nameAt_shorter (s : Bytes) : (nameAt s).2.length ≤ s.length := dropWhile_le _ s

theorem token_shorter {chr : CharReader} {s r : Bytes} {t : List Sax} (h : token chr s = some (t, r)) : r.length < s.length := by
  unfold token at h
  split at h
  · cases h
  · next s' =>
    have := nameAt_shorter s'
    split at h
    · cases h
    · next heq =>
      rw [heq] at this
      simp only [Option.some.injEq, Prod.mk.injEq] at h
      obtain ⟨-, rfl⟩ := h
      simp at this ⊢; omega
    · cases h
  · next s' _ =>
    have := nameAt_shorter s'
    split at h
    · cases h
    · next heq =>
      rw [heq] at this
      simp only [Option.some.injEq, Prod.mk.injEq] at h
      obtain ⟨-, rfl⟩ := h
      simp at this ⊢; omega
    · next heq =>
      rw [heq] at this
      simp only [Option.some.injEq, Prod.mk.injEq] at h
      obtain ⟨-, rfl⟩ := h
      simp at this ⊢; omega
    · cases h
  · next s' =>
    simp only [Option.map_eq_some_iff, Prod.mk.injEq] at h
    obtain ⟨p, hp, -, rfl⟩ := h
    have := entity_shorter hp
    simp; omega
  · cases h
  · next c s' _ _ _ _ =>
    simp only [Option.map_eq_some_iff, Prod.mk.injEq] at h
    obtain ⟨p, hp, -, rfl⟩ := h
    simp; omega

theorem tokens_fuel (chr : CharReader) : ∀ (n : Nat) (s : Bytes) (f g : Nat), s.length ≤ n → s.length ≤ f → s.length ≤ g → tokens chr f s = tokens chr g s := by
  intro n
  induction n with
  | zero =>
    intro s f g h1 h2 h3
    have : s = [] := List.length_eq_zero_iff.1 (by omega)
    subst this
    cases f <;> cases g <;> rfl
  | succ n ih =>
    intro s f g h1 h2 h3
    cases s with
    | nil => cases f <;> cases g <;> rfl
    | cons c s =>
      cases f with
      | zero => simp at h2
      | succ f =>
        cases g with
        | zero => simp at h3
        | succ g =>
          simp only [tokens]
          split
          · rfl
          · next t r heq =>
            have := token_shorter heq
            simp only [List.length_cons] at this h1 h2 h3
            rw [ih r f g (by omega) (by omega) (by omega)]

/-- The events of content. -/
def toks (chr : CharReader) (s : Bytes) : Option (List Sax) := tokens chr s.length s

theorem toks_nil (chr : CharReader) : toks chr [] = some [] := rfl

theorem toks_step {chr : CharReader} {s r : Bytes} {t : List Sax} (h : token chr s = some (t, r)) : toks chr s = (toks chr r).map (t ++ ·) := by
  have hs := token_shorter h
  unfold toks
  cases s with
  | nil => simp at hs
  | cons c s =>
    simp only [List.length_cons, tokens, h]
    simp only [List.length_cons] at hs
    rw [tokens_fuel chr r.length r s.length r.length (Nat.le_refl _) (by omega) (Nat.le_refl _)]

/-- These bytes are read to these events, whatever follows. -/
def Reads (chr : CharReader) (bs : Bytes) (evs : List Sax) : Prop := ∀ rest, toks chr (bs ++ rest) = (toks chr rest).map (evs ++ ·)

theorem Reads.nil {chr : CharReader} : Reads chr [] [] := by
  intro rest; simp

theorem Reads.append {chr : CharReader} {a b : Bytes} {x y : List Sax} (h1 : Reads chr a x) (h2 : Reads chr b y) : Reads chr (a ++ b) (x ++ y) := by
  intro rest
  rw [List.append_assoc, h1, h2, Option.map_map]
  congr 1
  funext l
  simp

theorem Reads.token {chr : CharReader} {a : Bytes} {x : List Sax} (h : ∀ rest, token chr (a ++ rest) = some (x, rest)) : Reads chr a x :=
  fun rest => toks_step (h rest)

theorem nameAt_name {n : Bytes} (h : n.all isNameChar = true) {c : UInt8} (hc : isNameChar c = false) (r : Bytes) : nameAt (n ++ c :: r) = (n, c :: r) := by
  unfold nameAt
  induction n with
  | nil => simp [hc]
  | cons a n ih =>
    simp only [List.all_cons, Bool.and_eq_true] at h
    have := ih h.2
    simp only [Prod.mk.injEq] at this
    simp [h.1, this]

theorem reads_start {chr : CharReader} {n : Bytes} (h : n.all isNameChar = true) (h0 : n ≠ []) : Reads chr (60 :: (n ++ [62])) [.start n] := by
  apply Reads.token
  intro rest
  have hn := nameAt_name h (c := 62) (by decide) rest
  cases n with
  | nil => exact absurd rfl h0
  | cons a n =>
    have ha : a ≠ 47 := by
      rintro rfl
      simp [isNameChar, isAlnum, isDigit, isUpper, isLower] at h
    have e : 60 :: (a :: n ++ [62]) ++ rest = 60 :: (a :: n ++ 62 :: rest) := by simp
    rw [e]
    unfold Xml.token
    split
    · next heq => cases heq
    · next heq => simp only [List.cons_append, List.cons.injEq] at heq; exact absurd heq.2.1 ha
    · next heq =>
      simp only [List.cons.injEq, true_and] at heq
      subst heq
      rw [hn]
      rfl
    · next heq => simp at heq
    · next heq => simp at heq
    · next h1 _ _ heq => cases heq; first | exact (h1 rfl).elim | exact (h1 _ rfl).elim

theorem reads_empty {chr : CharReader} {n : Bytes} (h : n.all isNameChar = true) (h0 : n ≠ []) : Reads chr (60 :: (n ++ [47, 62])) [.start n, .stop n] := by
  apply Reads.token
  intro rest
  have hn := nameAt_name h (c := 47) (by decide) (62 :: rest)
  cases n with
  | nil => exact absurd rfl h0
  | cons a n =>
    have ha : a ≠ 47 := by
      rintro rfl
      simp [isNameChar, isAlnum, isDigit, isUpper, isLower] at h
    have e : 60 :: (a :: n ++ [47, 62]) ++ rest = 60 :: (a :: n ++ 47 :: 62 :: rest) := by simp
    rw [e]
    unfold Xml.token
    split
    · next heq => cases heq
    · next heq => simp only [List.cons_append, List.cons.injEq] at heq; exact absurd heq.2.1 ha
    · next heq =>
      simp only [List.cons.injEq, true_and] at heq
      subst heq
      rw [hn]
      rfl
    · next heq => simp at heq
    · next heq => simp at heq
    · next h1 _ _ heq => cases heq; first | exact (h1 rfl).elim | exact (h1 _ rfl).elim

theorem reads_stop {chr : CharReader} {n : Bytes} (h : n.all isNameChar = true) (h0 : n ≠ []) : Reads chr (60 :: 47 :: (n ++ [62])) [.stop n] := by
  apply Reads.token
  intro rest
  have hn := nameAt_name h (c := 62) (by decide) rest
  cases n with
  | nil => exact absurd rfl h0
  | cons a n =>
    have e : 60 :: 47 :: (a :: n ++ [62]) ++ rest = 60 :: 47 :: (a :: n ++ 62 :: rest) := by simp
    rw [e]
    show (match nameAt (a :: n ++ 62 :: rest) with
      | ([], _) => none
      | (n, 62 :: r) => some ([Sax.stop n], r)
      | _ => none) = _
    rw [hn]
    rfl

/-! ## Text -/

/-- The bytes written for text. -/
def quoted (s : Bytes) : Bytes := (s.map quoteChar).flatten

theorem quoted_cons (c : UInt8) (s : Bytes) : quoted (c :: s) = quoteChar c ++ quoted s := by simp [quoted]
theorem quoted_append (a b : Bytes) : quoted (a ++ b) = quoted a ++ quoted b := by simp [quoted]

/-- Bytes that are written as entities. -/
def isSpecial (c : UInt8) : Bool := c == 60 || c == 62 || c == 34 || c == 38

theorem quoteChar_plain {c : UInt8} (h : isSpecial c = false) : quoteChar c = [c] := by
  have := forall_byte (fun c => isSpecial c || decide (quoteChar c = [c])) (by decide +kernel) c
  rw [h] at this
  simpa using this

theorem quoted_plain {s : Bytes} (h : ∀ c ∈ s, isSpecial c = false) : quoted s = s := by
  induction s with
  | nil => rfl
  | cons c s ih => rw [quoted_cons, quoteChar_plain (h c (by simp)), ih (fun c hc => h c (by simp [hc]))]; rfl

/-- The pieces in which a text comes out of the reader after it has been quoted. -/
inductive Spell (chr : CharReader) : Bytes → List Bytes → Prop
  | nil : Spell chr [] []
  | special {c s ps} (h : isSpecial c = true) (hs : Spell chr s ps) : Spell chr (c :: s) ([c] :: ps)
  | char {c s k o ps} (h : isSpecial c = false) (hc : chr (c :: s) = some (k, o)) (hs : Spell chr (s.drop k) ps) : Spell chr (c :: s) (o :: ps)

/-- Readers of characters for which quoting works. -/
structure Nice (chr : CharReader) : Prop where
  nl : ∀ s, chr (10 :: s) = some (0, [10])
  ascii : ∀ c s, 32 ≤ c.toNat → c.toNat < 127 → chr (c :: s) = some (0, [c])
  stable : ∀ c s k o rest, isSpecial c = false → chr (c :: s) = some (k, o) → k ≤ s.length ∧ (quoted s).drop k = quoted (s.drop k) ∧ k ≤ (quoted s).length ∧
    chr (c :: (quoted s ++ 60 :: rest)) = some (k, o)

theorem token_char {chr : CharReader} {c : UInt8} (h : isSpecial c = false) (s : Bytes) : Xml.token chr (c :: s) = (chr (c :: s)).map fun p => ([.text p.2], s.drop p.1) := by
  have h1 : c ≠ 60 := by rintro rfl; cases h
  have h2 : c ≠ 38 := by rintro rfl; cases h
  have h3 : c ≠ 62 := by rintro rfl; cases h
  unfold Xml.token
  split
  · next heq => cases heq
  · next heq => cases heq; exact absurd rfl h1
  · next heq => cases heq; exact absurd rfl h1
  · next heq => cases heq; exact absurd rfl h2
  · next heq => cases heq; exact absurd rfl h3
  · next heq => cases heq; rfl

theorem token_special {chr : CharReader} {c : UInt8} (h : isSpecial c = true) (s : Bytes) : Xml.token chr (quoteChar c ++ s) = some ([.text [c]], s) := by
  have : c = 60 ∨ c = 62 ∨ c = 34 ∨ c = 38 := by simpa [isSpecial, or_assoc] using h
  rcases this with rfl | rfl | rfl | rfl <;> rfl

theorem toks_text {chr : CharReader} (hn : Nice chr) {s : Bytes} {ps : List Bytes} (h : Spell chr s ps) (rest : Bytes) :
    toks chr (quoted s ++ 60 :: rest) = (toks chr (60 :: rest)).map (ps.map Sax.text ++ ·) := by
  induction h with
  | nil => simp [quoted]
  | @special c s ps h hs ih =>
    rw [quoted_cons, List.append_assoc, toks_step (token_special h _), ih, Option.map_map]
    congr 1
  | @char c s k o ps h hc hs ih =>
    obtain ⟨h1, h2, h3, h4⟩ := hn.stable c s k o rest h hc
    have : Xml.token chr (quoted (c :: s) ++ 60 :: rest) = some ([.text o], quoted (s.drop k) ++ 60 :: rest) := by
      rw [quoted_cons, quoteChar_plain h, List.singleton_append, List.cons_append, token_char h, h4]
      simp only [Option.map_some]
      rw [List.drop_append_of_le_length h3, h2]
    rw [toks_step this, ih, Option.map_map]
    congr 1

theorem reads_nl {chr : CharReader} (hn : Nice chr) : Reads chr [10] [.text [10]] := by
  apply Reads.token
  intro rest
  show Xml.token chr (10 :: rest) = _
  rw [token_char (by decide), hn.nl]
  rfl

/-- Text and the tag after it. -/
theorem reads_text_stop {chr : CharReader} (hn : Nice chr) {s : Bytes} {ps : List Bytes} (h : Spell chr s ps) {n : Bytes} (h1 : n.all isNameChar = true) (h0 : n ≠ []) :
    Reads chr (quoted s ++ 60 :: 47 :: (n ++ [62])) (ps.map Sax.text ++ [.stop n]) := by
  intro rest
  have := toks_text hn h (47 :: (n ++ [62]) ++ rest)
  rw [List.append_assoc]
  show toks chr (quoted s ++ 60 :: (47 :: (n ++ [62]) ++ rest)) = _
  rw [this]
  have h2 := reads_stop (chr := chr) h1 h0 rest
  rw [show 60 :: (47 :: (n ++ [62]) ++ rest) = 60 :: 47 :: (n ++ [62]) ++ rest by simp, h2, Option.map_map]
  congr 1
  funext l
  simp

/-! ## Character readers -/

theorem nice_anyByte : Nice anyByte where
  nl _ := rfl
  ascii _ _ _ _ := rfl
  stable c s k o rest _ h := by
    simp only [anyByte, Option.some.injEq, Prod.mk.injEq] at h
    obtain ⟨rfl, rfl⟩ := h
    simp [anyByte]

theorem spell_anyByte : ∀ s : Bytes, Spell anyByte s (s.map fun c => [c])
  | [] => .nil
  | c :: s => by
    have ih := spell_anyByte s
    by_cases h : isSpecial c = true
    · exact .special h ih
    · exact .char (k := 0) (by simpa using h) rfl (by simpa using ih)

theorem flatten_singles : ∀ s : Bytes, (s.map fun c => [c]).flatten = s
  | [] => rfl
  | c :: s => by simp [flatten_singles s]

/-- A code point is decided by its own bytes, which are all above 127 but for ASCII. -/
theorem codePoint_split {c : UInt8} {s : Bytes} {n k : Nat} (h : codePoint (c :: s) = some (n, k)) :
    ∃ a b, s = a ++ b ∧ k = a.length + 1 ∧ (∀ x ∈ a, 0x80 ≤ x.toNat) ∧ (∀ r, codePoint (c :: (a ++ r)) = some (n, k)) := by
  have cont : ∀ x v, contByte x = some v → 0x80 ≤ x.toNat := by
    intro x v h
    unfold contByte at h
    grind
  simp only [codePoint] at h
  split at h
  · next h1 =>
    simp only [Option.some.injEq, Prod.mk.injEq] at h
    refine ⟨[], s, rfl, by simpa using h.2.symm, by simp, ?_⟩
    intro r
    simp only [codePoint]
    rw [if_pos h1, h.1, h.2]
  · next h1 =>
    split at h
    · next h2 =>
      split at h
      · next b t =>
        split at h
        · next v hb =>
          split at h
          · next h3 =>
            simp only [Option.some.injEq, Prod.mk.injEq] at h
            refine ⟨[b], t, rfl, by simpa using h.2.symm, by simpa using cont _ _ hb, ?_⟩
            intro r
            simp only [codePoint]
            rw [if_neg h1, if_pos h2]
            simp [hb, h.1, h.2]; omega
          · cases h
        · cases h
      · cases h
    · next h2 =>
      split at h
      · next h3 =>
        split at h
        · next b d t =>
          split at h
          · next v w hb hd =>
            split at h
            · next h4 =>
              simp only [Option.some.injEq, Prod.mk.injEq] at h
              refine ⟨[b, d], t, rfl, by simpa using h.2.symm, by simpa using ⟨cont _ _ hb, cont _ _ hd⟩, ?_⟩
              intro r
              simp only [codePoint]
              rw [if_neg h1, if_neg h2, if_pos h3]
              simp [hb, hd, h.1, h.2]; omega
            · cases h
          · cases h
        · cases h
      · next h3 =>
        split at h
        · next h4 =>
          split at h
          · next b d e t =>
            split at h
            · next v w x hb hd he =>
              split at h
              · next h5 =>
                simp only [Option.some.injEq, Prod.mk.injEq] at h
                refine ⟨[b, d, e], t, rfl, by simpa using h.2.symm, by simpa using ⟨cont _ _ hb, cont _ _ hd, cont _ _ he⟩, ?_⟩
                intro r
                simp only [codePoint]
                rw [if_neg h1, if_neg h2, if_neg h3, if_pos h4]
                simp [hb, hd, he, h.1, h.2]; omega
              · cases h
            · cases h
          · cases h
        · cases h

theorem isSpecial_high {c : UInt8} (h : 0x80 ≤ c.toNat) : isSpecial c = false := by
  have := forall_byte (fun c => decide (c.toNat < 0x80) || !isSpecial c) (by decide +kernel) c
  simp only [Bool.or_eq_true, decide_eq_true_eq, Bool.not_eq_true'] at this
  rcases this with h1 | h1
  · omega
  · exact h1

theorem xmlChar_ascii {c : UInt8} (h1 : c ≠ 13) (h2 : isXmlChar c.toNat = true) (h3 : c.toNat < 128) (s : Bytes) : xmlChar (c :: s) = some (0, [c]) := by
  unfold xmlChar
  split
  · next heq => cases heq; exact absurd rfl h1
  · next heq => cases heq; exact absurd rfl h1
  · have : codePoint (c :: s) = some (c.toNat, 1) := by
      simp only [codePoint]; rw [if_pos (by omega)]
    rw [this]
    simp [h2]

theorem xmlChar_other {c : UInt8} (h : c ≠ 13) (s : Bytes) : xmlChar (c :: s) = (match codePoint (c :: s) with
    | some (n, k) => if isXmlChar n then some (k - 1, (c :: s).take k) else none
    | none => none) := by
  unfold xmlChar
  split
  · next heq => cases heq; exact absurd rfl h
  · next heq => cases heq; exact absurd rfl h
  · rfl

theorem xmlChar_cr {t : Bytes} (ht : t.head? ≠ some 10) : xmlChar (13 :: t) = some (0, [10]) := by
  cases t with
  | nil => rfl
  | cons d t =>
    have hd : d ≠ 10 := by simpa using ht
    unfold xmlChar
    split
    · next heq => exact absurd (List.cons.inj (List.cons.inj heq).2).1 hd
    · rfl
    · next h3 => exact absurd rfl (h3 _)

theorem quoted_head (s rest : Bytes) (h : s.head? ≠ some 10) : (quoted s ++ 60 :: rest).head? ≠ some 10 := by
  cases s with
  | nil => simp [quoted]
  | cons d s =>
    rw [quoted_cons]
    have := forall_byte (fun d => decide (d = 10) || ((quoteChar d).head? != some 10 && !(quoteChar d).isEmpty)) (by decide +kernel) d
    have hd : d ≠ 10 := by simpa using h
    simp only [hd, decide_false, Bool.false_or, Bool.and_eq_true, bne_iff_ne, ne_eq, Bool.not_eq_true', List.isEmpty_eq_false_iff] at this
    obtain ⟨a, l, e⟩ := List.exists_cons_of_ne_nil this.2
    rw [e] at this ⊢
    simpa using this.1

theorem nice_xmlChar : Nice xmlChar where
  nl s := xmlChar_ascii (by decide) (by decide) (by decide) s
  ascii c s h1 h2 := by
    refine xmlChar_ascii (by rintro rfl; simp at h1) ?_ (by omega) s
    unfold isXmlChar
    simp; omega
  stable c s k o rest hs h := by
    by_cases hc : c = 13
    · subst hc
      by_cases h1 : s.head? = some 10
      · cases s with
        | nil => simp at h1
        | cons d s =>
          have : d = 10 := by simpa using h1
          subst this
          have e : xmlChar (13 :: 10 :: s) = some (1, [10]) := rfl
          rw [e] at h
          simp only [Option.some.injEq, Prod.mk.injEq] at h
          obtain ⟨rfl, rfl⟩ := h
          have : quoted (10 :: s) = 10 :: quoted s := rfl
          rw [this]
          simp only [List.drop_succ_cons, List.drop_zero, List.length_cons]
          exact ⟨by omega, trivial, by omega, rfl⟩
      · have e : ∀ t : Bytes, t.head? ≠ some 10 → xmlChar (13 :: t) = some (0, [10]) := by
          intro t ht
          exact xmlChar_cr ht
        rw [e s h1] at h
        simp only [Option.some.injEq, Prod.mk.injEq] at h
        obtain ⟨rfl, rfl⟩ := h
        exact ⟨by omega, rfl, by omega, e _ (quoted_head s rest h1)⟩
    · rw [xmlChar_other hc] at h
      split at h
      · next n k' heq =>
        obtain ⟨a, b, rfl, rfl, ha, hr⟩ := codePoint_split heq
        split at h
        · next hx =>
          simp only [Option.some.injEq, Prod.mk.injEq] at h
          obtain ⟨rfl, rfl⟩ := h
          have hq : quoted (a ++ b) = a ++ quoted b := by
            rw [quoted_append, quoted_plain (fun c hc => isSpecial_high (ha c hc))]
          rw [hq]
          refine ⟨by simp, by simp, by simp, ?_⟩
          rw [xmlChar_other hc, List.append_assoc, hr]
          simp [hx]
        · cases h
      · cases h

theorem codePoint_pos {s : Bytes} {n k : Nat} (h : codePoint s = some (n, k)) : 0 < k := by
  cases s with
  | nil => cases h
  | cons c s =>
    obtain ⟨a, b, -, rfl, -⟩ := codePoint_split h
    omega

theorem lineEnds_other {c : UInt8} (h : c ≠ 13) (s : Bytes) : lineEnds (c :: s) = c :: lineEnds s := by
  rw [lineEnds]
  · rintro t rfl; exact absurd rfl h
  · exact h

theorem lineEnds_high : ∀ (a b : Bytes), (∀ x ∈ a, 0x80 ≤ x.toNat) → lineEnds (a ++ b) = a ++ lineEnds b
  | [], _, _ => rfl
  | c :: a, b, h => by
    have : c ≠ 13 := by
      rintro rfl
      have := h 13 (by simp)
      simp at this
    rw [List.cons_append, lineEnds_other this, lineEnds_high a b (fun x hx => h x (by simp [hx]))]
    rfl

/-- Legal text comes out with the ends of lines normalized. -/
theorem spell_xmlChar : ∀ (n : Nat) (chars : List Bytes), chars.length ≤ n → (∀ p ∈ chars, ∃ n, codePoint p = some (n, p.length) ∧ isXmlChar n = true) →
    ∃ ps, Spell xmlChar chars.flatten ps ∧ ps.flatten = lineEnds chars.flatten := by
  intro n
  induction n with
  | zero =>
    intro chars h _
    have : chars = [] := List.length_eq_zero_iff.1 (by omega)
    subst this
    exact ⟨[], .nil, rfl⟩
  | succ n ih =>
    intro chars hl h
    cases chars with
    | nil => exact ⟨[], .nil, rfl⟩
    | cons p chars =>
      obtain ⟨m, hm, hx⟩ := h p (by simp)
      simp only [List.length_cons] at hl
      obtain ⟨ps, hps, he⟩ := ih chars (by omega) (fun p hp => h p (by simp [hp]))
      cases p with
      | nil => cases hm
      | cons c s =>
        rw [List.flatten_cons, List.cons_append]
        obtain ⟨a, b, hab, hk, ha, hr⟩ := codePoint_split hm
        have hb : b = [] := by
          apply List.length_eq_zero_iff.1
          have := congrArg List.length hab
          simp at this hk
          omega
        subst hb
        rw [List.append_nil] at hab
        subst hab
        by_cases hc : c = 13
        · subst hc
          -- a carriage return is ASCII
          have hs : s = [] := by
            have : codePoint (13 :: s) = some (13, 1) := by simp only [codePoint]; rw [if_pos (by decide)]; rfl
            rw [hm] at this
            simp only [Option.some.injEq, Prod.mk.injEq, List.length_cons] at this
            exact List.length_eq_zero_iff.1 (by omega)
          subst hs
          rw [List.nil_append]
          by_cases h1 : chars.flatten.head? = some 10
          · -- CR LF
            obtain ⟨r, hr1⟩ : ∃ r, chars.flatten = 10 :: r := by
              cases hf : chars.flatten with
              | nil => rw [hf] at h1; cases h1
              | cons d r => rw [hf] at h1; exact ⟨r, by simpa using h1⟩
            -- the spelling of the rest begins with the line feed
            rw [hr1] at hps he ⊢
            cases hps with
            | special h2 _ => exact absurd h2 (by decide)
            | @char _ _ k o ps' h2 hc hs' =>
              have : xmlChar (10 :: r) = some (0, [10]) := xmlChar_ascii (by decide) (by decide) (by decide) r
              rw [this] at hc
              simp only [Option.some.injEq, Prod.mk.injEq] at hc
              obtain ⟨rfl, rfl⟩ := hc
              refine ⟨[10] :: ps', .char (k := 1) (by decide) rfl (by simpa using hs'), ?_⟩
              rw [he]
              rfl
          · have e : xmlChar (13 :: chars.flatten) = some (0, [10]) := by
              exact xmlChar_cr h1
            refine ⟨[10] :: ps, .char (k := 0) (by decide) e (by simpa using hps), ?_⟩
            rw [List.flatten_cons, he]
            generalize chars.flatten = t at h1
            cases t with
            | nil => rfl
            | cons d t =>
              have hd : d ≠ 10 := by simpa using h1
              rw [lineEnds.eq_def (13 :: d :: t)]
              split
              · next heq => cases heq; exact absurd rfl hd
              · next heq => cases heq; rfl
              · next h2 heq => cases heq; exact absurd rfl h2
              · next heq => cases heq
        · by_cases hsp : isSpecial c = true
          · have hs : s = [] := by
              have h3 : c.toNat < 0x80 := by
                apply Classical.byContradiction
                intro hh
                have := isSpecial_high (c := c) (by omega)
                rw [this] at hsp; cases hsp
              have : codePoint (c :: s) = some (c.toNat, 1) := by simp only [codePoint]; rw [if_pos h3]
              rw [hm] at this
              simp only [Option.some.injEq, Prod.mk.injEq, List.length_cons] at this
              exact List.length_eq_zero_iff.1 (by omega)
            subst hs
            refine ⟨[c] :: ps, .special hsp hps, ?_⟩
            rw [List.nil_append, lineEnds_other hc, List.flatten_cons, he]
            rfl
          · have e : xmlChar (c :: (s ++ chars.flatten)) = some (s.length, c :: s) := by
              rw [xmlChar_other hc, hr]
              simp [hx]
            refine ⟨(c :: s) :: ps, .char (by simpa using hsp) e (by simpa using hps), ?_⟩
            rw [lineEnds_other hc, lineEnds_high _ _ ha, List.flatten_cons, he]
            rfl

end Spec.Xml
end Frpc
