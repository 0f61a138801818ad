import Verif.Proofs.XmlRead
/-! # A conforming parser exists -/
namespace Frpc
namespace XmlParser
open Spec Spec.Xml XmlMarshaller

theorem xmlChar_prefix {c : UInt8} {s t : Bytes} {k : Nat} (h : xmlChar (c :: s) = some (k, t)) (hs : c :: s ≠ [13]) (b : Bytes) :
    xmlChar (c :: (s ++ b)) = some (k, t) ∧ k ≤ s.length := by
  by_cases hc : c = 13
  · subst hc
    cases s with
    | nil => exact absurd rfl hs
    | cons d s =>
      by_cases hd : d = 10
      · subst hd
        have h1 : ∀ s : Bytes, xmlChar (13 :: 10 :: s) = some (1, [10]) := fun _ => rfl
        rw [h1] at h
        cases h
        exact ⟨h1 _, by simp⟩
      · rw [xmlChar_cr (by simpa using hd)] at h
        cases h
        exact ⟨xmlChar_cr (by simpa using hd), by simp⟩
  · rw [xmlChar_other hc] at h ⊢
    cases hp : codePoint (c :: s) with
    | none => rw [hp] at h; cases h
    | some q =>
      obtain ⟨n, m⟩ := q
      rw [hp] at h
      obtain ⟨x, y, rfl, rfl, -, h3⟩ := codePoint_split hp
      rw [List.append_assoc, h3]
      simp only at h ⊢
      split at h
      · rename_i hx
        cases h
        rw [if_pos hx]
        simp
      · cases h

theorem nameAt_prefix {s n r : Bytes} {c : UInt8} (h : nameAt s = (n, c :: r)) (b : Bytes) : nameAt (s ++ b) = (n, c :: (r ++ b)) := by
  induction s generalizing n with
  | nil => simp [nameAt] at h
  | cons d s ih =>
    simp only [nameAt, List.takeWhile_cons, List.dropWhile_cons] at h ih
    simp only [nameAt, List.cons_append, List.takeWhile_cons, List.dropWhile_cons]
    split at h
    · rename_i hd
      rw [if_pos hd, if_pos hd]
      simp only [Prod.mk.injEq] at h
      obtain ⟨h1, h2⟩ := h
      cases n with
      | nil => cases h1
      | cons e n =>
        cases h1
        have := ih (n := List.takeWhile isNameChar s) (by rw [h2])
        simp only [Prod.mk.injEq, nameAt] at this
        rw [this.1, this.2]
    · rename_i hd
      rw [if_neg hd, if_neg hd]
      simp only [Prod.mk.injEq, List.cons.injEq] at h
      obtain ⟨rfl, rfl, rfl⟩ := h
      rfl

theorem entity_prefix {s r : Bytes} {c : UInt8} (h : entity s = some (c, r)) (b : Bytes) : entity (s ++ b) = some (c, r ++ b) := by
  unfold entity at h
  split at h
  · cases h; rfl
  · cases h; rfl
  · cases h; rfl
  · cases h; rfl
  · cases h; rfl
  · cases h

theorem token_stop (chr : CharReader) (s : Bytes) : Xml.token chr (60 :: 47 :: s) = (match nameAt s with
    | ([], _) => none
    | (n, 62 :: r) => some ([.stop n], r)
    | _ => none) := rfl

theorem token_start (chr : CharReader) {c : UInt8} (hc : c ≠ 47) (s : Bytes) : Xml.token chr (60 :: c :: s) = (match nameAt (c :: s) with
    | ([], _) => none
    | (n, 62 :: r) => some ([.start n], r)
    | (n, 47 :: 62 :: r) => some ([.start n, .stop n], r)
    | _ => none) := by
  rw [Xml.token.eq_def]
  split
  · next heq => cases heq
  · next heq => cases heq; exact absurd rfl hc
  · next heq => cases heq; rfl
  · next heq => cases heq
  · next heq => cases heq
  · next heq => cases heq; simp_all

theorem token_amp (chr : CharReader) (s : Bytes) : Xml.token chr (38 :: s) = (entity s).map fun p => ([.text [p.1]], p.2) := rfl

/-- Kinds of tokens. -/
inductive Tok : List Sax → Prop
  | start (n) : Tok [.start n]
  | stop (n) : Tok [.stop n]
  | both (n) : Tok [.start n, .stop n]
  | text (s) : Tok [.text s]

theorem token_prefix {s r : Bytes} {t : List Sax} (h : Xml.token xmlChar s = some (t, r)) (hs : s ≠ [13]) (b : Bytes) :
    Xml.token xmlChar (s ++ b) = some (t, r ++ b) ∧ Tok t := by
  cases s with
  | nil => cases h
  | cons c s =>
    by_cases h60 : c = 60
    · subst h60
      cases s with
      | nil => cases h
      | cons d s =>
        by_cases h47 : d = 47
        · subst h47
          rw [token_stop] at h
          simp only [List.cons_append]
          rw [token_stop]
          split at h
          · cases h
          · next n r' hne heq =>
            cases h
            rw [nameAt_prefix heq]
            cases n with
            | nil => exact (hne rfl).elim
            | cons x n => exact ⟨rfl, .stop _⟩
          · cases h
        · rw [token_start _ h47] at h
          simp only [List.cons_append]
          rw [token_start _ h47, ← List.cons_append]
          split at h
          · cases h
          · next n r' hne heq =>
            cases h
            rw [nameAt_prefix heq]
            cases n with
            | nil => exact (hne rfl).elim
            | cons x n => exact ⟨rfl, .start _⟩
          · next n r' hne heq =>
            cases h
            rw [nameAt_prefix heq]
            cases n with
            | nil => exact (hne rfl).elim
            | cons x n => exact ⟨rfl, .both _⟩
          · cases h
    · by_cases h38 : c = 38
      · subst h38
        simp only [List.cons_append]
        rw [token_amp] at h ⊢
        cases he : entity s with
        | none => rw [he] at h; cases h
        | some p =>
          obtain ⟨x, y⟩ := p
          rw [he] at h
          cases h
          rw [entity_prefix he]
          exact ⟨rfl, .text _⟩
      · by_cases h62 : c = 62
        · subst h62; cases h
        · have hgen : ∀ s : Bytes, Xml.token xmlChar (c :: s) = (xmlChar (c :: s)).map fun p => ([.text p.2], s.drop p.1) := by
            intro s
            rw [Xml.token.eq_def]
            split
            · next heq => cases heq
            · next heq => cases heq; exact absurd rfl h60
            · next heq => cases heq; exact absurd rfl h60
            · next heq => cases heq; exact absurd rfl h38
            · next heq => cases heq; exact absurd rfl h62
            · next heq => cases heq; rfl
          rw [List.cons_append, hgen]
          rw [hgen] at h
          cases hx : xmlChar (c :: s) with
          | none => rw [hx] at h; cases h
          | some p =>
            obtain ⟨k, o⟩ := p
            rw [hx] at h
            cases h
            have := xmlChar_prefix hx hs b
            rw [this.1]
            simp only [Option.map_some]
            rw [List.drop_append_of_le_length this.2]
            exact ⟨rfl, .text _⟩

theorem element_nil (st : List Bytes) : element st [] = none := by
  cases st with
  | nil => rfl
  | cons a st => cases st <;> rfl

/-- Two documents, one the beginning of the other, have the same events. -/
theorem content_prefix : ∀ (n : Nat) (p q : Bytes) (st : List Bytes) (t1 t2 e1 e2 : List Sax), p.length ≤ n → toks xmlChar p = some t1 → toks xmlChar (p ++ q) = some t2 →
    element st t1 = some e1 → element st t2 = some e2 → e1 = e2 := by
  intro n
  induction n with
  | zero =>
    intro p q st t1 t2 e1 e2 hp h1 _ h3 _
    have : p = [] := List.length_eq_zero_iff.1 (by omega)
    subst this
    cases h1
    rw [element_nil] at h3
    cases h3
  | succ n ih =>
    intro p q st t1 t2 e1 e2 hp h1 h2 h3 h4
    by_cases hcr : p = [13]
    · subst hcr
      have : toks xmlChar [13] = some [.text [10]] := by decide +kernel
      rw [this] at h1
      cases h1
      exfalso
      cases st with
      | nil => cases h3
      | cons m st => simp only [element, element_nil] at h3; cases h3
    · cases ht : Xml.token xmlChar p with
      | none =>
        cases p with
        | nil => cases h1; rw [element_nil] at h3; cases h3
        | cons c p => unfold toks at h1; simp only [List.length_cons, tokens, ht] at h1; cases h1
      | some tr =>
        obtain ⟨t, r⟩ := tr
        have hsh := token_shorter ht
        obtain ⟨ht2, hk⟩ := token_prefix ht hcr q
        rw [toks_step ht] at h1
        rw [toks_step ht2] at h2
        simp only [Option.map_eq_some_iff] at h1 h2
        obtain ⟨r1, hr1, rfl⟩ := h1
        obtain ⟨r2, hr2, rfl⟩ := h2
        have key := fun st => ih r q st r1 r2
        cases hk with
        | start m =>
          cases st with
          | nil =>
            simp only [List.singleton_append, element, Option.map_eq_some_iff] at h3 h4
            obtain ⟨x, hx, rfl⟩ := h3
            obtain ⟨y, hy, rfl⟩ := h4
            rw [key _ x y (by omega) hr1 hr2 hx hy]
          | cons a st =>
            simp only [List.singleton_append, element, Option.map_eq_some_iff] at h3 h4
            obtain ⟨x, hx, rfl⟩ := h3
            obtain ⟨y, hy, rfl⟩ := h4
            rw [key _ x y (by omega) hr1 hr2 hx hy]
        | text m =>
          cases st with
          | nil => cases h3
          | cons a st =>
            simp only [List.singleton_append, element, Option.map_eq_some_iff] at h3 h4
            obtain ⟨x, hx, rfl⟩ := h3
            obtain ⟨y, hy, rfl⟩ := h4
            rw [key _ x y (by omega) hr1 hr2 hx hy]
        | stop m =>
          cases st with
          | nil => cases h3
          | cons a st =>
            cases st with
            | nil =>
              simp only [List.singleton_append, element] at h3 h4
              split at h3
              · split at h4
                · cases h3; cases h4; rfl
                · cases h4
              · cases h3
            | cons k st =>
              simp only [List.singleton_append, element] at h3 h4
              by_cases hm : m = a
              · rw [if_pos hm] at h3 h4
                simp only [Option.map_eq_some_iff] at h3 h4
                obtain ⟨x, hx, rfl⟩ := h3
                obtain ⟨y, hy, rfl⟩ := h4
                rw [key _ x y (by omega) hr1 hr2 hx hy]
              · rw [if_neg hm] at h3; cases h3
        | both m =>
          cases st with
          | nil =>
            simp only [List.cons_append, List.nil_append, element] at h3 h4
            split at h3
            · split at h4
              · cases h3; cases h4; rfl
              · cases h4
            · cases h3
          | cons a st =>
            simp only [List.cons_append, List.nil_append, element, if_true] at h3 h4
            simp only [Option.map_eq_some_iff] at h3 h4
            obtain ⟨x, ⟨x', hx, rfl⟩, rfl⟩ := h3
            obtain ⟨y, ⟨y', hy, rfl⟩, rfl⟩ := h4
            rw [key _ x' y' (by omega) hr1 hr2 hx hy]

/-! ## What precedes the element -/

theorem afterComment_prefix : ∀ {s r : Bytes}, afterComment s = some r → ∀ b, afterComment (s ++ b) = some (r ++ b) := by
  intro s
  induction s using afterComment.induct with
  | case1 s => intro r h b; cases h; rfl
  | case2 s h1 =>
    intro r h b
    rw [afterComment.eq_def] at h
    split at h
    · next heq => cases heq; exact (h1 _ rfl).elim
    · cases h
    · next h2 heq => cases heq; exact (h2 _ rfl rfl).elim
    · next heq => cases heq
  | case3 c s h1 h2 ih =>
    intro r h b
    have e : ∀ t : Bytes, (∀ u, c = 45 → t = 45 :: u → False) → afterComment (c :: t) = afterComment t := by
      intro t ht
      rw [afterComment.eq_def]
      split
      · next heq => cases heq; exact (ht _ rfl rfl).elim
      · next heq => cases heq; exact (ht _ rfl rfl).elim
      · next heq => cases heq; rfl
      · next heq => cases heq
    have hne : ∀ u, c = 45 → s = 45 :: u → False := by
      rintro u rfl rfl; exact h2 u rfl rfl
    rw [e s hne] at h
    cases s with
    | nil => cases h
    | cons d s =>
      rw [List.cons_append, e (d :: s ++ b) (by rintro u rfl h; cases h; exact hne _ rfl rfl)]
      exact ih h b
  | case4 => intro r h; cases h

theorem dropWhile_prefix (f : UInt8 → Bool) : ∀ (p q : Bytes), p.dropWhile f ≠ [] → (p ++ q).dropWhile f = p.dropWhile f ++ q
  | [], _, h => (h rfl).elim
  | c :: p, q, h => by
    rw [List.cons_append, List.dropWhile_cons, List.dropWhile_cons]
    rw [List.dropWhile_cons] at h
    split
    · rename_i hc
      rw [if_pos hc] at h
      exact dropWhile_prefix f p q h
    · rfl

/-- A comment begins. -/
def comment : Bytes := [60, 33, 45, 45]

theorem afterMisc_comment {f : Nat} {s r : Bytes} (h : s.dropWhile isBlank = comment ++ r) : afterMisc (f + 1) s = (afterComment r).bind (afterMisc f) := by
  rw [afterMisc, h]
  rfl

theorem afterMisc_done {f : Nat} {s : Bytes} (h : ¬ comment <+: s.dropWhile isBlank) : afterMisc (f + 1) s = some (s.dropWhile isBlank) := by
  rw [afterMisc]
  split
  · next heq => rw [heq] at h; exact (h ⟨_, rfl⟩).elim
  · rfl

theorem afterMisc_prefix : ∀ (f g : Nat) (p q r : Bytes) (t : List Sax), f ≤ g → afterMisc f p = some r → toks xmlChar r = some t → (element [] t).isSome = true →
    afterMisc g (p ++ q) = some (r ++ q) := by
  intro f
  induction f with
  | zero => intro g p q r t _ h; cases h
  | succ f ih =>
    intro g p q r t hg h ht he
    obtain ⟨g, rfl⟩ : ∃ k, g = k + 1 := ⟨g - 1, by omega⟩
    by_cases hc : comment <+: p.dropWhile isBlank
    · obtain ⟨s, hs⟩ := hc
      rw [afterMisc_comment hs.symm] at h
      cases ha : afterComment s with
      | none => rw [ha] at h; cases h
      | some s' =>
        rw [ha] at h
        have hd : (p ++ q).dropWhile isBlank = comment ++ (s ++ q) := by
          rw [dropWhile_prefix _ _ _ (by rw [← hs]; simp [comment]), ← hs, List.append_assoc]
        rw [afterMisc_comment hd, afterComment_prefix ha]
        exact ih g s' q r t (by omega) h ht he
    · rw [afterMisc_done hc] at h
      cases h
      have hne : p.dropWhile isBlank ≠ [] := by
        intro h0
        rw [h0] at ht
        cases ht
        rw [element_nil] at he
        cases he
      have hd := dropWhile_prefix isBlank p q hne
      rw [afterMisc_done, hd]
      rw [hd]
      intro hpre
      apply hc
      rcases Nat.lt_or_ge (p.dropWhile isBlank).length 4 with hl | hl
      · exfalso
        have h1 : p.dropWhile isBlank = comment.take (p.dropWhile isBlank).length := by
          obtain ⟨u, hu⟩ := hpre
          have := congrArg (List.take (p.dropWhile isBlank).length) hu
          rw [List.take_left, List.take_append_of_le_length (by simp [comment]; omega)] at this
          exact this.symm
        have hn : ∀ n, n < 4 → n ≠ 0 → toks xmlChar (comment.take n) = none := by decide +kernel
        rw [h1, hn _ hl (fun h0 => hne (List.length_eq_zero_iff.1 h0))] at ht
        cases ht
      · obtain ⟨u, hu⟩ := hpre
        exact List.prefix_of_prefix_length_le ⟨u, hu⟩ ⟨q, rfl⟩ (by simpa [comment] using hl)

theorem decl_partial : ∀ n, n < declaration.length → Spec.Xml.read xmlChar (declaration.take n) = none := by decide +kernel

/-- A document that begins with a document has the same events. -/
theorem read_prefix {p q : Bytes} {e1 e2 : List Sax} (h1 : Spec.Xml.read xmlChar p = some e1) (h2 : Spec.Xml.read xmlChar (p ++ q) = some e2) : e1 = e2 := by
  have h1' := h1
  have hdecl : afterDeclaration (p ++ q) = afterDeclaration p ++ q := by
    unfold afterDeclaration
    by_cases hd : declaration.isPrefixOf p = true
    · have hd' := List.isPrefixOf_iff_prefix.1 hd
      have : declaration.isPrefixOf (p ++ q) = true := List.isPrefixOf_iff_prefix.2 (hd'.trans ⟨q, rfl⟩)
      rw [if_pos hd, if_pos this, List.drop_append_of_le_length hd'.length_le]
    · rw [if_neg hd, if_neg]
      intro hp
      have hp' := List.isPrefixOf_iff_prefix.1 hp
      rcases Nat.lt_or_ge p.length declaration.length with hl | hl
      · obtain ⟨u, hu⟩ := hp'
        have := congrArg (List.take p.length) hu
        rw [List.take_left, List.take_append_of_le_length (by omega)] at this
        rw [← this, decl_partial _ hl] at h1
        cases h1
      · exact hd (List.isPrefixOf_iff_prefix.2 (List.prefix_of_prefix_length_le hp' ⟨q, rfl⟩ hl))
  unfold Spec.Xml.read at h1 h2
  simp only [Option.bind_eq_some_iff] at h1 h2
  obtain ⟨r1, ha1, t1, ht1, he1⟩ := h1
  obtain ⟨r2, ha2, t2, ht2, he2⟩ := h2
  rw [hdecl, afterMisc_prefix _ _ _ q r1 t1 (by simp) ha1 ht1 (by rw [he1]; rfl)] at ha2
  cases ha2
  exact content_prefix _ r1 q [] t1 t2 e1 e2 (Nat.le_refl _) ht1 ht2 he1 he2

/-- Some of the first pieces make a document. -/
def told (prev : List Bytes) : Bool := (List.range (prev.length + 1)).any fun k => (Spec.Xml.read xmlChar (prev.take k).flatten).isSome

/-- A parser: tells everything as soon as the pieces so far are a document, once. -/
def eager : Parser := fun prev d =>
  if told prev then ([], false)
  else
    match Spec.Xml.read xmlChar (prev ++ [d]).flatten with
    | some evs => (evs, false)
    | none => ([], false)

theorem told_self {prev : List Bytes} {evs : List Sax} (h : Spec.Xml.read xmlChar prev.flatten = some evs) : told prev = true := by
  unfold told
  rw [List.any_eq_true]
  exact ⟨prev.length, by simp, by rw [List.take_length, h]; rfl⟩

theorem told_more {prev : List Bytes} (h : told prev = true) (d : Bytes) : told (prev ++ [d]) = true := by
  unfold told at h ⊢
  rw [List.any_eq_true] at h ⊢
  obtain ⟨k, hk, h⟩ := h
  simp only [List.mem_range] at hk
  refine ⟨k, by simp; omega, ?_⟩
  rw [List.take_append_of_le_length (by omega)]
  exact h

theorem told_new {prev : List Bytes} {d : Bytes} (h : told prev = false) (hr : Spec.Xml.read xmlChar (prev ++ [d]).flatten = none) : told (prev ++ [d]) = false := by
  unfold told at h ⊢
  rw [List.any_eq_false] at h ⊢
  intro k hk
  simp only [List.mem_range, List.length_append, List.length_singleton] at hk
  rcases Nat.lt_or_ge k (prev.length + 1) with hl | hl
  · rw [List.take_append_of_le_length (by omega)]
    exact h k (by simpa using hl)
  · rw [List.take_of_length_le (by simp; omega), hr]
    simp

theorem eager_fine : ∀ (ds prev : List Bytes), fine eager prev ds
  | [], _ => trivial
  | d :: ds, prev => by
    refine ⟨?_, eager_fine ds _⟩
    unfold eager
    split
    · rfl
    · split <;> rfl

theorem eager_told : ∀ (ds prev : List Bytes), told prev = true → events eager prev ds = []
  | [], _, _ => rfl
  | d :: ds, prev, h => by
    simp only [events]
    rw [eager_told ds _ (told_more h d)]
    unfold eager
    rw [if_pos h]
    rfl

theorem eager_events : ∀ (ds prev : List Bytes) (evs : List Sax), told prev = false → Spec.Xml.read xmlChar (prev ++ ds).flatten = some evs → events eager prev ds = evs
  | [], prev, evs, h, hr => by
    rw [List.append_nil] at hr
    rw [told_self hr] at h
    cases h
  | d :: ds, prev, evs, h, hr => by
    simp only [events]
    cases he : Spec.Xml.read xmlChar (prev ++ [d]).flatten with
    | none =>
      have e1 : (eager prev d).1 = [] := by
        unfold eager
        rw [if_neg (by rw [h]; decide), he]
      rw [e1, List.nil_append]
      exact eager_events ds (prev ++ [d]) evs (told_new h he) (by simpa using hr)
    | some e =>
      have e1 : (eager prev d).1 = e := by
        unfold eager
        rw [if_neg (by rw [h]; decide), he]
      rw [e1, eager_told _ _ (told_self he), List.append_nil]
      exact read_prefix he (q := ds.flatten) (by simpa using hr)

/-- The assumption on the parser can be met. -/
theorem eager_conforms : Conforms eager := by
  intro doc evs h ds hds hne
  have h0 : told [] = false := by
    have : Spec.Xml.read xmlChar [] = none := by decide +kernel
    simp [told, this]
  have hr : Spec.Xml.read xmlChar ([] ++ ds).flatten = some evs := by simpa [hds] using h
  have hl : eager ds [] = ([], false) := by
    unfold eager
    rw [if_pos (told_self (by simpa using hr))]
  refine ⟨eager_fine ds [], by rw [hl], ?_, by rw [hl]; simp⟩
  rw [hl, eager_events ds [] evs h0 hr, List.append_nil]

end XmlParser
end Frpc
