import Verif.Proofs.XmlWrite
/-!
# The documents of the XML marshaller, read
-/
namespace Frpc
namespace XmlMarshaller
open Spec.Xml Spec.XmlRpc Base64

theorem saxList_append : ∀ a b : List Node, saxList (a ++ b) = saxList a ++ saxList b
  | [], b => rfl
  | n :: a, b => by simp [saxList, saxList_append a b]

/-- The bytes are that content. -/
def Holds (chr : CharReader) (bs : Bytes) (c : List Node) : Prop := Reads chr bs (saxList c)

theorem Holds.nil {chr : CharReader} : Holds chr [] [] := Reads.nil

theorem Holds.append {chr : CharReader} {a b : Bytes} {c d : List Node} (h1 : Holds chr a c) (h2 : Holds chr b d) : Holds chr (a ++ b) (c ++ d) := by
  unfold Holds
  rw [saxList_append]
  exact Reads.append h1 h2

theorem holds_nl {chr : CharReader} (hn : Nice chr) : Holds chr [10] [.text [10]] := reads_nl hn

/-- A name of an element. -/
def IsName (n : Bytes) : Prop := n.all isNameChar = true ∧ n ≠ []

instance (n : Bytes) : Decidable (IsName n) := inferInstanceAs (Decidable (_ ∧ _))

/-- An element. -/
def wrap (n inner : Bytes) : Bytes := 60 :: (n ++ [62]) ++ (inner ++ 60 :: 47 :: (n ++ [62]))

theorem holds_elem {chr : CharReader} {n : Bytes} (h : IsName n) {bs : Bytes} {c : List Node} (hc : Holds chr bs c) : Holds chr (wrap n bs) [.elem n c] := by
  have := (reads_start (chr := chr) h.1 h.2).append (Reads.append hc (reads_stop (chr := chr) h.1 h.2))
  simpa [Holds, wrap, saxList, Node.sax] using this

theorem saxList_texts (ps : List Bytes) : saxList (ps.map Node.text) = ps.map Sax.text := by
  induction ps with
  | nil => rfl
  | cons p ps ih => simp [saxList, Node.sax, ih]

theorem isText_texts : ∀ ps : List Bytes, IsText (ps.map Node.text) ps.flatten
  | [] => rfl
  | p :: ps => ⟨ps.flatten, by simp, isText_texts ps⟩

/-- An element with text. -/
theorem holds_text {chr : CharReader} (hn : Nice chr) {n : Bytes} (h : IsName n) {s : Bytes} {ps : List Bytes} (hs : Spell chr s ps) :
    Holds chr (wrap n (quoted s)) [.elem n (ps.map .text)] := by
  have := (reads_start (chr := chr) h.1 h.2).append (reads_text_stop hn hs h.1 h.2)
  simpa [Holds, wrap, saxList, Node.sax, saxList_texts] using this

theorem typed_eq (tag t : Bytes) : typed tag t = wrap (asc "value") (wrap tag t) ++ [10] := by
  simp [typed, wrap, asc]

theorem value_name : IsName (asc "value") := by decide +kernel

/-- A leaf. -/
theorem holds_typed {chr : CharReader} (hn : Nice chr) {tag : Bytes} (h : IsName tag) {s : Bytes} {ps : List Bytes} (hs : Spell chr s ps) :
    ∃ n, Typed tag ps.flatten n ∧ Holds chr (typed tag (quoted s)) [n, .text [10]] := by
  refine ⟨.elem (asc "value") [.elem tag (ps.map .text)], ⟨_, _, rfl, rfl, isText_texts ps⟩, ?_⟩
  rw [typed_eq]
  exact (holds_elem value_name (holds_text hn h hs)).append (holds_nl hn)

/-- Printable, and not written as an entity. -/
def isPlain (c : UInt8) : Bool := decide (32 ≤ c.toNat) && decide (c.toNat < 127) && !isSpecial c

theorem spell_plain {chr : CharReader} (hn : Nice chr) : ∀ {t : Bytes}, (∀ c ∈ t, isPlain c = true) → Spell chr t (t.map fun c => [c])
  | [], _ => .nil
  | c :: t, h => by
    have hc := h c (by simp)
    simp only [isPlain, Bool.and_eq_true, decide_eq_true_eq, Bool.not_eq_true'] at hc
    exact .char (k := 0) hc.2 (hn.ascii c t hc.1.1 hc.1.2) (by simpa using spell_plain hn (fun c hc => h c (by simp [hc])))

theorem quoted_isPlain {t : Bytes} (h : ∀ c ∈ t, isPlain c = true) : quoted t = t := by
  apply quoted_plain
  intro c hc
  have := h c hc
  simp only [isPlain, Bool.and_eq_true, decide_eq_true_eq, Bool.not_eq_true'] at this
  exact this.2

theorem holds_plain {chr : CharReader} (hn : Nice chr) {tag : Bytes} (h : IsName tag) {t : Bytes} (ht : ∀ c ∈ t, isPlain c = true) :
    ∃ n, Typed tag t n ∧ Holds chr (typed tag t) [n, .text [10]] := by
  have := holds_typed hn h (spell_plain hn ht)
  rwa [flatten_singles, quoted_isPlain ht] at this

theorem plain_digit {c : UInt8} (h : isDigit c = true) : isPlain c = true := by
  have := forall_byte (fun c => !isDigit c || isPlain c) (by decide +kernel) c
  rw [h] at this
  simpa using this

theorem plain_decInt (n : Int) : ∀ c ∈ decInt n, isPlain c = true := by
  intro c hc
  unfold decInt at hc
  split at hc
  · rcases List.mem_cons.1 hc with rfl | hc
    · decide
    · exact plain_digit (dec_digits _ _ hc)
  · exact plain_digit (dec_digits _ _ hc)

theorem plain_decIntPad (w : Nat) (n : Int) : ∀ c ∈ decIntPad w n, isPlain c = true := by
  intro c hc
  unfold decIntPad at hc
  split at hc
  · rcases List.mem_cons.1 hc with rfl | hc
    · decide
    · exact plain_digit (decPad_digits _ _ _ hc)
  · exact plain_digit (decPad_digits _ _ _ hc)

theorem plain_date (d : DateTime) : ∀ c ∈ dateText d, isPlain c = true := by
  intro c hc
  unfold dateText IsoDate.format at hc
  simp only [List.mem_append] at hc
  have h84 : isPlain 84 = true := by decide
  have h58 : isPlain 58 = true := by decide
  rcases hc with ((((((((((hc | hc) | hc) | hc) | hc) | hc) | hc) | hc) | hc) | hc) | hc) | hc
  all_goals first
    | exact plain_decIntPad _ _ _ hc
    | exact plain_digit (decPad_digits _ _ _ hc)
    | (rw [List.mem_singleton] at hc; subst hc; first | assumption | (split <;> decide))

/-- What the reading depends on: texts of the leaves. -/
structure Fits (chr : CharReader) (T : Texts) (N : Need) (dbl : BitVec 64 → Bytes) : Prop where
  nice : Nice chr
  str : ∀ s, N.str s → ∃ ps, Spell chr s ps ∧ T.str s ps.flatten
  dbl : ∀ x, N.dbl x → (∀ c ∈ dbl x, isPlain c = true) ∧ T.dbl x (dbl x)
  date : ∀ d, N.date d → T.date d (dateText d)
  b64 : ∀ t, (∀ c ∈ t, isPlain c = true ∨ c = 10 ∨ c = 13) → ∃ ps, Spell chr t ps ∧ squeezed ps.flatten = squeezed t

theorem base64_chars : ∀ (d : Bytes), ∀ c ∈ Spec.base64 d, (∃ n, n < 64 ∧ c = Spec.b64char n) ∨ c = Spec.b64pad
  | [], c, h => by simp [Spec.base64] at h
  | [a], c, h => by
    have := a.toNat_lt
    simp only [Spec.base64, List.mem_cons, List.not_mem_nil, or_false] at h
    rcases h with rfl | rfl | rfl | rfl
    · exact .inl ⟨_, by omega, rfl⟩
    · exact .inl ⟨_, by omega, rfl⟩
    · exact .inr rfl
    · exact .inr rfl
  | [a, b], c, h => by
    have := a.toNat_lt
    have := b.toNat_lt
    simp only [Spec.base64, List.mem_cons, List.not_mem_nil, or_false] at h
    rcases h with rfl | rfl | rfl | rfl
    · exact .inl ⟨_, by omega, rfl⟩
    · exact .inl ⟨_, by omega, rfl⟩
    · exact .inl ⟨_, by omega, rfl⟩
    · exact .inr rfl
  | a :: b :: d :: r, c, h => by
    have := a.toNat_lt
    have := b.toNat_lt
    have := d.toNat_lt
    simp only [Spec.base64, List.mem_cons] at h
    rcases h with rfl | rfl | rfl | rfl | h
    · exact .inl ⟨_, by omega, rfl⟩
    · exact .inl ⟨_, by omega, rfl⟩
    · exact .inl ⟨_, by omega, rfl⟩
    · exact .inl ⟨_, by omega, rfl⟩
    · exact base64_chars r c h

theorem plain_base64 (d : Bytes) : ∀ c ∈ Spec.base64 d, isPlain c = true := by
  intro c hc
  rcases base64_chars d c hc with ⟨n, hn, rfl⟩ | rfl
  · have : ∀ n < 64, isPlain (Spec.b64char n) = true := by decide +kernel
    exact this n hn
  · decide

theorem squeezed_eq (t : Bytes) : squeezed t = squeeze t := by
  unfold squeezed squeeze
  congr 1
  funext c
  by_cases h : Spec.IsSpace c <;> simp [h]

/-- Text of a binary. -/
theorem base64_text (cs : List Bytes) : (∀ c ∈ Base64.writeEncodeBase64 true cs, isPlain c = true ∨ c = 10 ∨ c = 13) ∧
    squeezed (Base64.writeEncodeBase64 true cs) = Spec.base64 cs.flatten := by
  obtain ⟨-, ⟨ls, h2, h3, -⟩, -⟩ := C24_body cs
  have hp : ∀ c ∈ ls.flatten, isPlain c = true := by rw [h3]; exact plain_base64 _
  rw [h2]
  constructor
  · intro c hc
    have : ∀ (ls : List Bytes), (∀ c ∈ ls.flatten, isPlain c = true) → ∀ c ∈ joinLines ls, isPlain c = true ∨ c = 10 ∨ c = 13 := by
      intro ls
      induction ls with
      | nil => intro _ c hc; simp [joinLines] at hc
      | cons l ls ih =>
        intro h c hc
        cases ls with
        | nil => exact .inl (h c (by simpa [joinLines] using hc))
        | cons l2 ls =>
          simp only [joinLines, List.mem_append] at hc
          grind
    exact this ls hp c hc
  · rw [squeezed_eq, squeeze_eq, joinLines_filter, h3]
    intro c hc
    rw [h3] at hc
    exact nospace_base64 _ c hc

theorem parts_nl (c : List Node) : parts (.text [10] :: c) = parts c := rfl

theorem holds_base64 {chr : CharReader} {T : Texts} {N : Need} {dbl : BitVec 64 → Bytes} (F : Fits chr T N dbl) (cs : List Bytes) :
    ∃ n t, squeezed t = Spec.base64 cs.flatten ∧ Typed (asc "base64") t n ∧
      Holds chr (typed (asc "base64") (Base64.writeEncodeBase64 true cs)) [n, .text [10]] := by
  obtain ⟨h1, h2⟩ := base64_text cs
  obtain ⟨ps, h3, h4⟩ := F.b64 _ h1
  obtain ⟨n, h5, h6⟩ := holds_typed F.nice (tag := asc "base64") (by decide +kernel) h3
  refine ⟨n, ps.flatten, h4.trans h2, h5, ?_⟩
  rwa [quoted_plain] at h6
  intro c hc
  rcases h1 c hc with h | rfl | rfl
  · simp only [isPlain, Bool.and_eq_true, decide_eq_true_eq, Bool.not_eq_true'] at h; exact h.2
  · decide
  · decide

theorem stands_elem {T : Texts} : ∀ {v : Value} {n : Node}, Stands T v n → n.blank = false
  | .int _, n, h => by simp only [Stands] at h; obtain ⟨_, _, _, _, rfl, _⟩ := h; rfl
  | .bool _, n, h => by simp only [Stands] at h; obtain ⟨_, _, rfl, _⟩ := h; rfl
  | .double _, n, h => by simp only [Stands] at h; obtain ⟨_, _, _, _, rfl, _⟩ := h; rfl
  | .string _, n, h => by simp only [Stands] at h; obtain ⟨_, _, ⟨_, _, rfl, _⟩ | ⟨_, rfl, _⟩⟩ := h <;> rfl
  | .stringView _, n, h => by simp only [Stands] at h; obtain ⟨_, _, ⟨_, _, rfl, _⟩ | ⟨_, rfl, _⟩⟩ := h <;> rfl
  | .dateTime _, n, h => by simp only [Stands] at h; obtain ⟨_, _, _, _, rfl, _⟩ := h; rfl
  | .binary _, n, h => by simp only [Stands] at h; obtain ⟨_, _, _, _, rfl, _⟩ := h; rfl
  | .binaryRef _, n, h => by simp only [Stands] at h; obtain ⟨_, _, _, _, rfl, _⟩ := h; rfl
  | .null, n, h => by simp only [Stands] at h; obtain ⟨_, _, rfl, _⟩ := h; rfl
  | .secret v, n, h => by simp only [Stands] at h; exact stands_elem h
  | .array _, n, h => by simp only [Stands] at h; obtain ⟨_, _, _, rfl, _⟩ := h; rfl
  | .struct _, n, h => by simp only [Stands] at h; obtain ⟨_, _, rfl, _⟩ := h; rfl

theorem stands_parts {T : Texts} {v : Value} {n : Node} (h : Stands T v n) (c : List Node) : parts (n :: .text [10] :: c) = n :: parts c := by
  have h2 : Node.blank (.text [10]) = true := rfl
  simp [Spec.Xml.parts, stands_elem h, h2]

mutual
theorem holds_value {chr : CharReader} {T : Texts} {N : Need} {dbl : BitVec 64 → Bytes} (F : Fits chr T N dbl) : ∀ (v : Value), Leaves N v →
    ∃ n, Stands T v n ∧ Holds chr (xtext dbl v) [n, .text [10]]
  | .int i, _ => by
    have h : IsName (intTag i) := by unfold intTag; split <;> decide +kernel
    obtain ⟨n, h1, h2⟩ := holds_plain F.nice h (plain_decInt i)
    refine ⟨n, ?_, by rw [xtext]; exact h2⟩
    simp only [Stands]
    refine ⟨_, ?_, h1⟩
    unfold intTag
    split
    · exact .inr (.inl rfl)
    · exact .inl rfl
  | .bool b, _ => by
    obtain ⟨n, h1, h2⟩ := holds_plain F.nice (tag := asc "boolean") (by decide +kernel) (t := [if b then 49 else 48]) (by cases b <;> decide)
    refine ⟨n, ?_, by rw [xtext]; exact h2⟩
    simp only [Stands]
    cases b <;> exact h1
  | .double x, h => by
    simp only [Leaves] at h
    obtain ⟨h3, h4⟩ := F.dbl x h
    obtain ⟨n, h1, h2⟩ := holds_plain F.nice (tag := asc "double") (by decide +kernel) h3
    exact ⟨n, by simp only [Stands]; exact ⟨_, h4, h1⟩, by rw [xtext]; exact h2⟩
  | .string s, h => by
    simp only [Leaves] at h
    obtain ⟨ps, h3, h4⟩ := F.str s h
    obtain ⟨n, h1, h2⟩ := holds_typed F.nice (tag := asc "string") (by decide +kernel) h3
    exact ⟨n, by simp only [Stands]; exact ⟨_, h4, .inl h1⟩, by rw [xtext]; exact h2⟩
  | .stringView s, h => by
    simp only [Leaves] at h
    obtain ⟨ps, h3, h4⟩ := F.str s h
    obtain ⟨n, h1, h2⟩ := holds_typed F.nice (tag := asc "string") (by decide +kernel) h3
    exact ⟨n, by simp only [Stands]; exact ⟨_, h4, .inl h1⟩, by rw [xtext]; exact h2⟩
  | .dateTime d, h => by
    simp only [Leaves] at h
    obtain ⟨n, h1, h2⟩ := holds_plain F.nice (tag := asc "dateTime.iso8601") (by decide +kernel) (plain_date d)
    exact ⟨n, by simp only [Stands]; exact ⟨_, F.date d h, h1⟩, by rw [xtext]; exact h2⟩
  | .binary s, _ => by
    obtain ⟨n, t, h1, h2, h3⟩ := holds_base64 F [s]
    exact ⟨n, by simp only [Stands]; exact ⟨t, by simpa using h1, h2⟩, by rw [xtext]; exact h3⟩
  | .binaryRef cs, _ => by
    obtain ⟨n, t, h1, h2, h3⟩ := holds_base64 F cs
    exact ⟨n, by simp only [Stands]; exact ⟨t, h1, h2⟩, by rw [xtext]; exact h3⟩
  | .null, _ => by
    refine ⟨.elem (asc "value") [.elem (asc "nil") []], by simp only [Stands]; exact ⟨_, _, rfl, rfl, rfl⟩, ?_⟩
    have h1 : Holds chr (asc "<nil/>") [.elem (asc "nil") []] := by
      have := reads_empty (chr := chr) (n := asc "nil") (by decide +kernel) (by decide +kernel)
      simpa [Holds, saxList, Node.sax, asc] using this
    have := (holds_elem value_name h1).append (holds_nl F.nice)
    rw [xtext]
    simpa [wrap, asc] using this
  | .secret v, h => by
    simp only [Leaves] at h
    obtain ⟨n, h1, h2⟩ := holds_value F v h
    exact ⟨n, by simp only [Stands]; exact h1, by rw [xtext]; exact h2⟩
  | .array vs, h => by
    simp only [Leaves] at h
    obtain ⟨c, h1, h2⟩ := holds_items F vs h
    have n := holds_nl F.nice
    have h3 := holds_elem (n := asc "data") (by decide +kernel) (n.append h2)
    have h4 := holds_elem (n := asc "array") (by decide +kernel) (n.append (h3.append n))
    have h5 := (holds_elem value_name (n.append (h4.append n))).append n
    refine ⟨.elem (asc "value") ([.text [10]] ++ ([.elem (asc "array") ([.text [10]] ++ ([.elem (asc "data") ([.text [10]] ++ c)] ++ [.text [10]]))] ++ [.text [10]])), ?_, ?_⟩
    rotate_left
    · rw [xtext]
      have e : asc "<value>\n<array>\n<data>\n" ++ xitems dbl vs ++ asc "</data>\n</array>\n</value>\n" =
          wrap (asc "value") ([10] ++ (wrap (asc "array") ([10] ++ (wrap (asc "data") ([10] ++ xitems dbl vs) ++ [10])) ++ [10])) ++ [10] := by
        simp [wrap, asc]
      rw [e]
      exact h5
    · simp only [Stands]
      exact ⟨_, _, _, rfl, rfl, rfl, h1⟩
  | .struct ms, h => by
    simp only [Leaves] at h
    obtain ⟨c, h1, h2⟩ := holds_members F ms h
    have n := holds_nl F.nice
    have h4 := holds_elem (n := asc "struct") (by decide +kernel) (n.append h2)
    have h5 := (holds_elem value_name (n.append (h4.append n))).append n
    refine ⟨.elem (asc "value") ([.text [10]] ++ ([.elem (asc "struct") ([.text [10]] ++ c)] ++ [.text [10]])), ?_, ?_⟩
    rotate_left
    · rw [xtext]
      have e : asc "<value>\n<struct>\n" ++ xmembers dbl ms ++ asc "</struct>\n</value>\n" =
          wrap (asc "value") ([10] ++ (wrap (asc "struct") ([10] ++ xmembers dbl ms) ++ [10])) ++ [10] := by
        simp [wrap, asc]
      rw [e]
      exact h5
    · simp only [Stands]
      exact ⟨_, _, rfl, rfl, h1⟩
theorem holds_items {chr : CharReader} {T : Texts} {N : Need} {dbl : BitVec 64 → Bytes} (F : Fits chr T N dbl) : ∀ (vs : List Value), LeavesItems N vs →
    ∃ c, StandsItems T vs (parts c) ∧ Holds chr (xitems dbl vs) c
  | [], _ => ⟨[], by simp [StandsItems, parts], by rw [xitems]; exact Holds.nil⟩
  | v :: vs, h => by
    simp only [LeavesItems] at h
    obtain ⟨n, h1, h2⟩ := holds_value F v h.1
    obtain ⟨c, h3, h4⟩ := holds_items F vs h.2
    refine ⟨[n, .text [10]] ++ c, ?_, by rw [xitems]; exact h2.append h4⟩
    simp only [StandsItems]
    exact ⟨n, parts c, stands_parts h1 c, h1, h3⟩
theorem holds_members {chr : CharReader} {T : Texts} {N : Need} {dbl : BitVec 64 → Bytes} (F : Fits chr T N dbl) : ∀ (ms : List (Bytes × Value)), LeavesMembers N ms →
    ∃ c, StandsMembers T ms (parts c) ∧ Holds chr (xmembers dbl ms) c
  | [], _ => ⟨[], by simp [StandsMembers, parts], by rw [xmembers]; exact Holds.nil⟩
  | (k, v) :: ms, h => by
    simp only [LeavesMembers] at h
    obtain ⟨n, h1, h2⟩ := holds_value F v h.2.2.1
    obtain ⟨c, h3, h4⟩ := holds_members F ms h.2.2.2
    obtain ⟨ps, h5, h6⟩ := F.str k h.2.1
    have nl := holds_nl F.nice
    have h7 := holds_text F.nice (n := asc "name") (by decide +kernel) h5
    have h8 := (holds_elem (n := asc "member") (by decide +kernel) (nl.append (h7.append (nl.append h2)))).append (nl.append h4)
    refine ⟨[.elem (asc "member") ([.text [10]] ++ ([.elem (asc "name") (ps.map .text)] ++ ([.text [10]] ++ [n, .text [10]])))] ++ ([.text [10]] ++ c), ?_, ?_⟩
    rotate_left
    · have e : xmembers dbl ((k, v) :: ms) = wrap (asc "member") ([10] ++ (wrap (asc "name") (quoted k) ++ ([10] ++ xtext dbl v))) ++ ([10] ++ xmembers dbl ms) := by
        simp [xmembers, wrap, asc]
      rw [e]
      exact h8
    · simp only [StandsMembers]
      refine ⟨_, parts c, ps.map .text, n, ps.flatten, rfl, ?_, h6, isText_texts ps, h1, h3⟩
      have := stands_parts h1 []
      show .elem (asc "name") (ps.map .text) :: parts [n, .text [10]] = _
      rw [this]; rfl
end

theorem holds_params {chr : CharReader} {T : Texts} {N : Need} {dbl : BitVec 64 → Bytes} (F : Fits chr T N dbl) : ∀ (vs : List Value), LeavesItems N vs →
    ∃ c, StandsParams T vs (parts c) ∧ Holds chr (xparams dbl vs) c
  | [], _ => ⟨[], rfl, Holds.nil⟩
  | v :: vs, h => by
    simp only [LeavesItems] at h
    obtain ⟨n, h1, h2⟩ := holds_value F v h.1
    obtain ⟨c, h3, h4⟩ := holds_params F vs h.2
    have nl := holds_nl F.nice
    have h8 := (holds_elem (n := asc "param") (by decide +kernel) (nl.append h2)).append (nl.append h4)
    refine ⟨[.elem (asc "param") ([.text [10]] ++ [n, .text [10]])] ++ ([.text [10]] ++ c), ?_, ?_⟩
    rotate_left
    · have e : xparams dbl (v :: vs) = wrap (asc "param") ([10] ++ xtext dbl v) ++ ([10] ++ xparams dbl vs) := by
        simp [xparams, wrap, asc]
      rw [e]
      exact h8
    · exact ⟨_, parts c, n, rfl, stands_parts h1 [], h1, h3⟩

/-! ## Documents -/

mutual
theorem element_node : ∀ (n : Node) (m : Bytes) (st : List Bytes) (r : List Sax), element (m :: st) (n.sax ++ r) = (element (m :: st) r).map (n.sax ++ ·)
  | .text s, m, st, r => by simp [Node.sax, element]
  | .elem n c, m, st, r => by
    have e : Node.sax (.elem n c) ++ r = .start n :: (saxList c ++ .stop n :: r) := by simp [Node.sax]
    rw [e]
    simp only [element]
    rw [element_list c n (m :: st)]
    simp only [element, if_true, Option.map_map]
    congr 1
    funext l
    simp [Node.sax]
theorem element_list : ∀ (c : List Node) (m : Bytes) (st : List Bytes) (r : List Sax), element (m :: st) (saxList c ++ r) = (element (m :: st) r).map (saxList c ++ ·)
  | [], m, st, r => by simp [saxList]
  | n :: c, m, st, r => by
    rw [saxList, List.append_assoc, element_node n, element_list c, Option.map_map]
    congr 1
    funext l
    simp
end

theorem element_root (n : Bytes) (c : List Node) {r : List Sax} (hr : r.all blankText = true) :
    element [] ((Node.elem n c).sax ++ r) = some (Node.elem n c).sax := by
  have e : Node.sax (.elem n c) ++ r = .start n :: (saxList c ++ .stop n :: r) := by simp [Node.sax]
  rw [e]
  simp only [element]
  rw [element_list c n []]
  simp [element, hr, Node.sax]

theorem dropWhile_head {p : UInt8 → Bool} {c : UInt8} (h : p c = false) (s : Bytes) : (c :: s).dropWhile p = c :: s := by
  simp [h]

theorem afterMisc_elem {f : Nat} {a : UInt8} {s : Bytes} (h : a ≠ 33) : afterMisc (f + 1) (10 :: 60 :: a :: s) = some (60 :: a :: s) := by
  rw [afterMisc]
  have : (10 :: 60 :: a :: s : Bytes).dropWhile isBlank = 60 :: a :: s := by
    rw [List.dropWhile_cons, if_pos (by decide), dropWhile_head (by decide)]
  rw [this]
  split
  · next heq => cases heq; exact absurd rfl h
  · rfl

theorem after_magic (ver : Version) {f : Nat} (hf : 2 ≤ f) {a : UInt8} {s : Bytes} (h : a ≠ 33) :
    afterMisc f (afterDeclaration (packMagic ver ++ 60 :: a :: s)) = some (60 :: a :: s) := by
  obtain ⟨f, rfl⟩ : ∃ g, f = g + 2 := ⟨f - 2, by omega⟩
  have hd : ∀ t : Bytes, afterDeclaration (declaration ++ t) = t := by
    intro t
    unfold afterDeclaration
    have : declaration.isPrefixOf (declaration ++ t) = true := by simp
    rw [if_pos this]
    simp
  have hc : ∀ (v : Bytes) (r : Bytes), v = asc "protocolVersion=\"2.0\"-->\n" ∨ v = asc "protocolVersion=\"2.1\"-->\n" →
      afterMisc (f + 2) (10 :: (asc "<!--" ++ (v ++ r))) = afterMisc (f + 1) (10 :: r) := by
    intro v r hv
    rw [afterMisc]
    have : (10 :: (asc "<!--" ++ (v ++ r)) : Bytes).dropWhile isBlank = 60 :: 33 :: 45 :: 45 :: (v ++ r) := by
      rw [List.dropWhile_cons, if_pos (by decide)]
      exact dropWhile_head (by decide) _
    rw [this]
    show (afterComment (v ++ r)).bind (afterMisc (f + 1)) = _
    have : afterComment (v ++ r) = some (10 :: r) := by
      rcases hv with rfl | rfl <;> simp [asc, afterComment]
    rw [this]
    rfl
  unfold packMagic
  split
  · have e : asc "<?xml version=\"1.0\"?>\n" ++ 60 :: a :: s = declaration ++ (10 :: 60 :: a :: s) := by simp [declaration, asc]
    rw [e, hd]
    exact afterMisc_elem h
  split
  · have e : asc "<?xml version=\"1.0\"?>\n<!--protocolVersion=\"2.0\"-->\n" ++ 60 :: a :: s =
        declaration ++ (10 :: (asc "<!--" ++ (asc "protocolVersion=\"2.0\"-->\n" ++ (60 :: a :: s)))) := by simp [declaration, asc]
    rw [e, hd, hc _ _ (.inl rfl)]
    exact afterMisc_elem h
  · have e : asc "<?xml version=\"1.0\"?>\n<!--protocolVersion=\"2.1\"-->\n" ++ 60 :: a :: s =
        declaration ++ (10 :: (asc "<!--" ++ (asc "protocolVersion=\"2.1\"-->\n" ++ (60 :: a :: s)))) := by simp [declaration, asc]
    rw [e, hd, hc _ _ (.inr rfl)]
    exact afterMisc_elem h

/-- A document: the head, the root element, a line feed. -/
theorem isDocument_of {chr : CharReader} (hn : Nice chr) (ver : Version) {n : Bytes} (h : IsName n) (h33 : n.head? ≠ some 33) {bs : Bytes} {c : List Node} (hc : Holds chr bs c) :
    IsDocument chr (packMagic ver ++ (wrap n bs ++ [10])) (.elem n c) := by
  have h1 := (holds_elem h hc).append (holds_nl hn)
  refine ⟨(Node.elem n c).sax, ?_, rfl⟩
  unfold Spec.Xml.read
  cases n with
  | nil => exact absurd rfl h.2
  | cons a n =>
    have ha : a ≠ 33 := by simpa using h33
    have e : wrap (a :: n) bs ++ [10] = 60 :: a :: (n ++ [62] ++ (bs ++ 60 :: 47 :: (a :: n ++ [62])) ++ [10]) := by simp [wrap]
    rw [e, after_magic ver (by simp; omega) ha, ← e]
    have h2 := h1 []
    rw [List.append_nil, toks_nil] at h2
    show (toks chr (wrap (a :: n) bs ++ [10])).bind (element []) = _
    rw [h2]
    simp only [Option.map_some, List.append_nil, saxList_append, Option.bind_some]
    have e2 : saxList [Node.elem (a :: n) c] = (Node.elem (a :: n) c).sax := by simp [saxList]
    rw [e2]
    exact element_root (a :: n) c (by decide)

/-! ## Messages -/

open Spec (Small SmallItems)

/-- The operations that send a message. -/
def ops : Message → List PackOp
  | .call name args => .packMethodCall name :: feedItems args
  | .response v => .packMethodResponse :: feed v
  | .fault code msg => [.packFault code msg]

/-- No string, binary or container has 2^30 bytes or elements. -/
def SmallMessage : Message → Prop
  | .call _ args => SmallItems args
  | .response v => Small v
  | .fault _ _ => True

/-- The body of a document. -/
def xmessage (dbl : BitVec 64 → Bytes) : Message → Bytes
  | .call name args => wrap (asc "methodCall") ([10] ++ (wrap (asc "methodName") (quoted name) ++ ([10] ++ (wrap (asc "params") ([10] ++ xparams dbl args) ++ [10])))) ++ [10]
  | .response v => wrap (asc "methodResponse") ([10] ++ (wrap (asc "params") ([10] ++ xparams dbl [v]) ++ [10])) ++ [10]
  | .fault code msg => wrap (asc "methodResponse") ([10] ++ (wrap (asc "fault") ([10] ++ xtext dbl (.struct [(asc "faultCode", .int code), (asc "faultString", .string msg)])) ++ [10])) ++ [10]

theorem run_of {dbl : BitVec 64 → Bytes} {ver : Version} (hv : accepts ver = true) {ops : List PackOp} {out : Bytes} {m : M} (h : Runs dbl (new ver) ops out m) :
    ∃ ws, run dbl ver ops = (ws, none) ∧ ws.flatten = out ++ (flush m).1.flatten := by
  obtain ⟨ws, h1, h2⟩ := h
  refine ⟨ws ++ (flush m).1, ?_, by simp [h2]⟩
  unfold run
  rw [if_pos hv, h1]

set_option maxRecDepth 4000 in
theorem run_message (dbl : BitVec 64 → Bytes) {ver : Version} (hv : accepts ver = true) (msg : Message) (hs : SmallMessage msg) (hl : msg.Leaves (needs ver)) :
    ∃ ws, run dbl ver (ops msg) = (ws, none) ∧ ws.flatten = packMagic ver ++ xmessage dbl msg := by
  cases msg with
  | call name args =>
    obtain ⟨h1, -, h2⟩ := hl
    have hk : ¬ (name.length > 255 ∨ name.length = 0) := by omega
    have hp := writes_params dbl args hs ver .call h2
    have h3 : pack dbl (new ver) (.packMethodCall name) = ([packMagic ver, asc "<methodCall>\n", asc "<methodName>"] ++ quote name ++ [asc "</methodName>\n", asc "<params>\n"],
        ⟨ver, [], .call⟩, none) := by
      simp only [pack, hk, if_false, new]
    obtain ⟨ws, h4, h5⟩ := run_of hv (Runs.cons h3 hp)
    refine ⟨ws, h4, ?_⟩
    rw [h5]
    simp only [List.flatten_append, quote_flatten, flush]
    simp [xmessage, wrap, asc]
  | response v =>
    have hp := writes_params dbl [v] ⟨hs, trivial⟩ ver .response ⟨hl, trivial⟩
    have h3 : pack dbl (new ver) .packMethodResponse = ([packMagic ver, asc "<methodResponse>\n", asc "<params>\n"], ⟨ver, [], .response⟩, none) := rfl
    have h6 := Runs.cons h3 hp
    rw [feedItems, feedItems, List.append_nil] at h6
    obtain ⟨ws, h4, h5⟩ := run_of hv h6
    refine ⟨ws, h4, ?_⟩
    rw [h5]
    simp only [flush]
    simp [xmessage, wrap, asc]
  | fault code msg =>
    have d1 : decrementItem [(Kind.struct, 2), (Kind.fault, 0)] = ([asc "</member>\n"], [(Kind.struct, 1), (Kind.fault, 0)]) := by decide +kernel
    have d2 : decrementItem [(Kind.struct, 1), (Kind.fault, 0)] = ([asc "</member>\n", asc "</struct>\n", asc "</value>\n"], [(Kind.fault, 2 ^ 32 - 1)]) := by
      decide +kernel
    have k1 : packStructMember (asc "faultCode") = ([asc "<member>\n", asc "<name>"] ++ quote (asc "faultCode") ++ [asc "</name>\n"], none) := by
      unfold packStructMember; rw [if_neg (by decide +kernel)]
    have k2 : packStructMember (asc "faultString") = ([asc "<member>\n", asc "<name>"] ++ quote (asc "faultString") ++ [asc "</name>\n"], none) := by
      unfold packStructMember; rw [if_neg (by decide +kernel)]
    have h3 : pack dbl (new ver) (.packFault code msg) = ([packMagic ver, asc "<methodResponse>\n", asc "<fault>\n"] ++ [asc "<value>\n", asc "<struct>\n"] ++
        ([asc "<member>\n", asc "<name>"] ++ quote (asc "faultCode") ++ [asc "</name>\n"]) ++
        ([asc "<value><" ++ intTag code ++ [62], decInt code, [60, 47] ++ intTag code ++ asc "></value>\n"] ++ [asc "</member>\n"]) ++
        ([asc "<member>\n", asc "<name>"] ++ quote (asc "faultString") ++ [asc "</name>\n"]) ++
        (([asc "<value><string>"] ++ quote msg ++ [asc "</string></value>\n"]) ++ [asc "</member>\n", asc "</struct>\n", asc "</value>\n"]) ++
        [asc "</fault>\n", asc "</methodResponse>\n"], ⟨ver, [(.fault, 2 ^ 32 - 1)], .fault⟩, none) := by
      simp only [pack, packFault, packStruct, new, openParam, List.isEmpty_cons, Bool.false_eq_true, if_false, List.nil_append, k1, k2]
      have : packInt ver code [(Kind.struct, 2), (Kind.fault, 0)] = _ := packInt_ok hl.1 _
      rw [if_neg (by decide)]
      dsimp only
      rw [this]
      simp only [item, d1, openParam, List.isEmpty_cons, Bool.false_eq_true, if_false, List.nil_append, List.append_nil, packString, d2]
    obtain ⟨ws, h4, h5⟩ := run_of hv (Runs.cons h3 Runs.nil)
    refine ⟨ws, h4, ?_⟩
    rw [h5]
    simp only [List.flatten_append, quote_flatten, flush]
    simp only [xmessage, xtext, xmembers, typed, wrap]
    simp [asc]

/-- Every document of the marshaller, read with a reader of characters. -/
theorem message_document {chr : CharReader} {T : Texts} {N : Need} {dbl : BitVec 64 → Bytes} (F : Fits chr T N dbl) (ver : Version) (msg : Message) (hl : msg.Leaves N)
    (hk : N.str (asc "faultCode") ∧ N.str (asc "faultString")) :
    ∃ root, IsDocument chr (packMagic ver ++ xmessage dbl msg) root ∧ msg.Is T root := by
  have nl := holds_nl F.nice
  cases msg with
  | call name args =>
    obtain ⟨h1, h2, h3⟩ := hl
    obtain ⟨ps, h5, h6⟩ := F.str name h2
    obtain ⟨c, h7, h8⟩ := holds_params F args h3
    have h9 := holds_text F.nice (n := asc "methodName") (by decide +kernel) h5
    have h10 := holds_elem (n := asc "params") (by decide +kernel) (nl.append h8)
    refine ⟨.elem (asc "methodCall") _, isDocument_of F.nice ver (by decide +kernel) (by decide +kernel) (nl.append (h9.append (nl.append (h10.append nl)))), ?_⟩
    exact ⟨_, _, _, _, rfl, rfl, h6, isText_texts ps, h7⟩
  | response v =>
    obtain ⟨c, h7, h8⟩ := holds_params F [v] ⟨hl, trivial⟩
    have h10 := holds_elem (n := asc "params") (by decide +kernel) (nl.append h8)
    refine ⟨.elem (asc "methodResponse") _, isDocument_of F.nice ver (by decide +kernel) (by decide +kernel) (nl.append (h10.append nl)), ?_⟩
    exact ⟨_, _, rfl, rfl, h7⟩
  | fault code msg =>
    obtain ⟨n, h1, h2⟩ := holds_value F (.struct [(asc "faultCode", .int code), (asc "faultString", .string msg)])
      (by
        simp only [Leaves, LeavesMembers]
        exact ⟨by decide +kernel, hk.1, hl.1, by decide +kernel, hk.2, hl.2, trivial⟩)
    have h10 := holds_elem (n := asc "fault") (by decide +kernel) (nl.append h2)
    refine ⟨.elem (asc "methodResponse") _, isDocument_of F.nice ver (by decide +kernel) (by decide +kernel) (nl.append (h10.append nl)), ?_⟩
    exact ⟨_, _, n, rfl, rfl, stands_parts h1 [], h1⟩

end XmlMarshaller
end Frpc
