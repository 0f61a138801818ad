import Verif.Proofs.XmlDoc
/-!
# XML output: C28, C29
-/
namespace Frpc
open XmlMarshaller Spec.Xml Spec.XmlRpc
open Spec (isXmlChar)

/-- **C28.** The escaped text of any bytes has no `<`, `>` or `"`; every `&` in it begins one of the four entities; replacing the entities
gives the bytes back. -/
theorem C28_quote (s : Bytes) :
    (∀ c ∈ (quote s).flatten, c ≠ 60 ∧ c ≠ 62 ∧ c ≠ 34) ∧
    (∀ a b, (quote s).flatten = a ++ 38 :: b → asc "lt;" <+: b ∨ asc "gt;" <+: b ∨ asc "quot;" <+: b ∨ asc "amp;" <+: b) ∧
    (∀ f, (quote s).flatten.length ≤ f → unescape f (quote s).flatten = some s) := by
  rw [quote_flatten]
  refine ⟨?_, ?_, ?_⟩
  · intro c hc
    simp only [quoted, List.mem_flatten, List.mem_map] at hc
    obtain ⟨l, ⟨x, hx, rfl⟩, hc⟩ := hc
    have := forall_byte (fun x => (quoteChar x).all (fun c => decide (c ≠ 60 ∧ c ≠ 62 ∧ c ≠ 34))) (by decide +kernel) x
    simpa using List.all_eq_true.1 this c hc
  · induction s with
    | nil => intro a b h; simp [quoted] at h
    | cons c s ih =>
      intro a b h
      rw [quoted_cons] at h
      by_cases hs : isSpecial c = true
      · have h2 : c = 60 ∨ c = 62 ∨ c = 34 ∨ c = 38 := by simpa [isSpecial, or_assoc] using hs
        cases a with
        | nil =>
          rcases h2 with rfl | rfl | rfl | rfl
          · exact .inl ⟨quoted s, (List.cons.inj h).2⟩
          · exact .inr (.inl ⟨quoted s, (List.cons.inj h).2⟩)
          · exact .inr (.inr (.inl ⟨quoted s, (List.cons.inj h).2⟩))
          · exact .inr (.inr (.inr ⟨quoted s, (List.cons.inj h).2⟩))
        | cons x a =>
          obtain ⟨q, hq, hm⟩ : ∃ q, quoteChar c = 38 :: q ∧ (38 : UInt8) ∉ q := by
            rcases h2 with rfl | rfl | rfl | rfl
            · exact ⟨asc "lt;", by decide +kernel, by decide +kernel⟩
            · exact ⟨asc "gt;", by decide +kernel, by decide +kernel⟩
            · exact ⟨asc "quot;", by decide +kernel, by decide +kernel⟩
            · exact ⟨asc "amp;", by decide +kernel, by decide +kernel⟩
          rw [hq] at h
          have h3 : q ++ quoted s = a ++ 38 :: b := (List.cons.inj h).2
          obtain ⟨a2, h4, h5⟩ | ⟨b2, h4, h5⟩ := List.append_eq_append_iff.1 h3
          · exact ih a2 b h5
          · cases b2 with
            | nil => exact ih [] b (by simpa using h5.symm)
            | cons y b2 =>
              have : y = 38 := ((List.cons.inj h5).1).symm
              subst this
              exact absurd (by rw [h4]; simp) hm
      · have hs : isSpecial c = false := by simpa using hs
        rw [quoteChar_plain hs] at h
        cases a with
        | nil =>
          have : c = 38 := (List.cons.inj h).1
          subst this
          cases hs
        | cons x a => exact ih a b (List.cons.inj h).2
  · induction s with
    | nil => intro f _; cases f <;> rfl
    | cons c s ih =>
      intro f hf
      rw [quoted_cons, List.length_append] at hf
      rw [quoted_cons]
      by_cases hs : isSpecial c = true
      · have h2 : c = 60 ∨ c = 62 ∨ c = 34 ∨ c = 38 := by simpa [isSpecial, or_assoc] using hs
        rcases h2 with rfl | rfl | rfl | rfl
        all_goals
          obtain ⟨g, rfl⟩ : ∃ g, f = g + 1 := ⟨f - 1, by
            have : 0 < (quoteChar 60).length ∧ 0 < (quoteChar 62).length ∧ 0 < (quoteChar 34).length ∧ 0 < (quoteChar 38).length := by decide +kernel
            omega⟩
          have hg : (quoted s).length ≤ g := by
            have : 0 < (quoteChar 60).length ∧ 0 < (quoteChar 62).length ∧ 0 < (quoteChar 34).length ∧ 0 < (quoteChar 38).length := by decide +kernel
            omega
          have := ih g hg
        · show (unescape g (quoted s)).map _ = _
          rw [this]; rfl
        · show (unescape g (quoted s)).map _ = _
          rw [this]; rfl
        · show (unescape g (quoted s)).map _ = _
          rw [this]; rfl
        · show (unescape g (quoted s)).map _ = _
          rw [this]; rfl
      · have hs : isSpecial c = false := by simpa using hs
        rw [quoteChar_plain hs] at hf ⊢
        have hc : c ≠ 38 := by rintro rfl; cases hs
        obtain ⟨g, rfl⟩ : ∃ g, f = g + 1 := ⟨f - 1, by simp at hf; omega⟩
        have := ih g (by simp at hf; omega)
        simp [unescape, hc, this]

example : (quote (asc "a<b & \"c\"")).flatten = asc "a&lt;b &amp; &quot;c&quot;" := by decide +kernel

/-! ## C29 -/

/-- What the marshaller accepts: integers but the least one, below protocol 2 of 32 bits without the least of these. -/
def XmlInt (ver : Version) (n : Int) : Prop := n ≠ -(2 : Int) ^ 63 ∧ (ver.major < 2 → n.natAbs < 2 ^ 31)

/-- The double prints in printable ASCII without `<`, `>`, `&`, `"`. -/
def PlainText (t : Bytes) : Prop := ∀ c ∈ t, 32 ≤ c.toNat ∧ c.toNat < 127 ∧ c ≠ 60 ∧ c ≠ 62 ∧ c ≠ 34 ∧ c ≠ 38

/-- Texts as written: a string by its own bytes; a date-time whose fields fit by its ISO form. -/
def asWritten (dbl : BitVec 64 → Bytes) : Texts := ⟨fun s t => t = s, fun x t => t = dbl x, fun d t => Dated d → t = isoText d⟩

/-- Texts after the normalization of line ends. -/
def normalized (dbl : BitVec 64 → Bytes) : Texts := ⟨fun s t => t = lineEnds s, fun x t => t = dbl x, fun d t => Dated d → t = isoText d⟩

namespace XmlMarshaller

theorem leaves_mono {N N' : Need} (hi : ∀ n, N.int n → N'.int n) (hs : ∀ s, N.str s → N'.str s) (hd : ∀ x, N.dbl x → N'.dbl x) (ht : ∀ d, N.date d → N'.date d) (v : Value) :
    Leaves N v → Leaves N' v := by
  refine Value.rec (motive_1 := fun v => Leaves N v → Leaves N' v) (motive_2 := fun ms => LeavesMembers N ms → LeavesMembers N' ms)
    (motive_3 := fun vs => LeavesItems N vs → LeavesItems N' vs) (motive_4 := fun p => Leaves N p.2 → Leaves N' p.2)
    ?_ ?_ ?_ ?_ ?_ ?_ ?_ ?_ ?_ ?_ ?_ ?_ ?_ ?_ ?_ ?_ ?_ v
  all_goals (intros; simp_all [Leaves, LeavesItems, LeavesMembers])

theorem leavesItems_mono {N N' : Need} (hi : ∀ n, N.int n → N'.int n) (hs : ∀ s, N.str s → N'.str s) (hd : ∀ x, N.dbl x → N'.dbl x) (ht : ∀ d, N.date d → N'.date d) :
    ∀ vs : List Value, LeavesItems N vs → LeavesItems N' vs
  | [], _ => trivial
  | v :: vs, h => ⟨leaves_mono hi hs hd ht v h.1, leavesItems_mono hi hs hd ht vs h.2⟩

theorem messageLeaves_mono {N N' : Need} (hi : ∀ n, N.int n → N'.int n) (hs : ∀ s, N.str s → N'.str s) (hd : ∀ x, N.dbl x → N'.dbl x) (ht : ∀ d, N.date d → N'.date d)
    (msg : Message) (h : msg.Leaves N) : msg.Leaves N' := by
  cases msg with
  | call name args => exact ⟨h.1, hs _ h.2.1, leavesItems_mono hi hs hd ht args h.2.2⟩
  | response v => exact leaves_mono hi hs hd ht v h
  | fault code msg => exact ⟨hi _ h.1, hs _ h.2⟩

theorem dateText_iso {d : DateTime} (h : Dated d) : dateText d = isoText d := by
  obtain ⟨h1, h2, h3, h4, h5, h6, h7, h8⟩ := h
  have p : ∀ (w : Nat) (n : Int), 0 ≤ n → decIntPad w n = decPad w n.natAbs := by
    intro w n hn
    unfold decIntPad
    rw [if_neg (by omega)]
  have e1 : (IsoDate.cdiv (IsoDate.cdiv d.timeZone 60) 60).natAbs = d.timeZone.natAbs / 3600 := by
    simp only [IsoDate.cdiv, Int.natAbs_tdiv]
    show d.timeZone.natAbs / 60 / 60 = _
    omega
  have e2 : (IsoDate.cmod (IsoDate.cdiv d.timeZone 60) 60).natAbs = d.timeZone.natAbs / 60 % 60 := by
    simp only [IsoDate.cdiv, IsoDate.cmod, Int.natAbs_tmod, Int.natAbs_tdiv]
    rfl
  unfold dateText IsoDate.format isoText zoneText two
  rw [p _ _ h1.1, p _ _ h2.1, p _ _ h3.1, p _ _ h4.1, p _ _ h5.1, p _ _ h6.1, e1, e2]
  simp [asc]

theorem plain_of {t : Bytes} (h : PlainText t) : ∀ c ∈ t, isPlain c = true := by
  intro c hc
  have := h c hc
  simp only [isPlain, Bool.and_eq_true, decide_eq_true_eq, Bool.not_eq_true', isSpecial, Bool.or_eq_false_iff, beq_eq_false_iff_ne]
  grind

theorem fits_anyByte (dbl : BitVec 64 → Bytes) (ver : Version) : Fits anyByte (asWritten dbl) ⟨XmlInt ver, fun _ => True, fun x => PlainText (dbl x), fun _ => True⟩ dbl where
  nice := nice_anyByte
  str s _ := ⟨_, spell_anyByte s, flatten_singles s⟩
  dbl x h := ⟨plain_of h, rfl⟩
  date d _ := dateText_iso
  b64 t _ := ⟨_, spell_anyByte t, by rw [flatten_singles]⟩

theorem squeezed_lineEnds (t : Bytes) : squeezed (lineEnds t) = squeezed t := by
  induction t using lineEnds.induct with
  | case1 s ih => rw [lineEnds]; simp only [squeezed] at ih ⊢; simp [show Spec.IsSpace 10 by decide, show Spec.IsSpace 13 by decide, ih]
  | case2 s h ih =>
    rw [lineEnds]
    · simp only [squeezed] at ih ⊢; simp [show Spec.IsSpace 10 by decide, show Spec.IsSpace 13 by decide, ih]
    · exact h
  | case3 c s h1 h2 ih => rw [lineEnds_other h2]; simp only [squeezed] at ih ⊢; simp [List.filter_cons, ih]
  | case4 => rfl

theorem xmlText_ascii {t : Bytes} (h : ∀ c ∈ t, c.toNat < 128 ∧ isXmlChar c.toNat = true) : IsXmlText t := by
  refine ⟨t.map fun c => [c], (flatten_singles t).symm, ?_⟩
  intro p hp
  obtain ⟨c, hc, rfl⟩ := List.mem_map.1 hp
  refine ⟨c.toNat, ?_, (h c hc).2⟩
  simp only [Spec.codePoint]
  rw [if_pos (h c hc).1]
  rfl

theorem spell_legal {s : Bytes} (h : IsXmlText s) : ∃ ps, Spell xmlChar s ps ∧ ps.flatten = lineEnds s := by
  obtain ⟨chars, rfl, h⟩ := h
  exact spell_xmlChar chars.length chars (Nat.le_refl _) h

theorem fits_xmlChar (dbl : BitVec 64 → Bytes) (ver : Version) : Fits xmlChar (normalized dbl) ⟨XmlInt ver, IsXmlText, fun x => PlainText (dbl x), fun _ => True⟩ dbl where
  nice := nice_xmlChar
  str s h := spell_legal h
  dbl x h := ⟨plain_of h, rfl⟩
  date d _ := dateText_iso
  b64 t h := by
    obtain ⟨ps, h1, h2⟩ := spell_legal (s := t) (xmlText_ascii (by
      intro c hc
      rcases h c hc with hp | rfl | rfl
      · have := forall_byte (fun c => !isPlain c || (decide (c.toNat < 128) && isXmlChar c.toNat)) (by decide +kernel) c
        rw [hp] at this
        simpa using this
      · decide
      · decide))
    exact ⟨ps, h1, by rw [h2, squeezed_lineEnds]⟩

end XmlMarshaller

/-- **C29.** Every call, response or fault, with strings of any bytes: what the XML marshaller writes is a document with properly nested
tags whose root element is the XML-RPC form of the message: elements, members and parameters in order, every text the one that was
given. For each version, whatever the depth. (Integers: those the marshaller accepts; doubles: if their text is printable.) -/
theorem C29_document (dbl : BitVec 64 → Bytes) (ver : Version) (hv : accepts ver = true) (msg : Message) (hsmall : SmallMessage msg)
    (hleaves : msg.Leaves ⟨XmlInt ver, fun _ => True, fun x => PlainText (dbl x), fun _ => True⟩) :
    ∃ ws root, run dbl ver (ops msg) = (ws, none) ∧ IsDocument anyByte ws.flatten root ∧ msg.Is (asWritten dbl) root := by
  obtain ⟨ws, h1, h2⟩ := run_message dbl hv msg hsmall
    (messageLeaves_mono (N' := needs ver) (fun n (h : XmlInt ver n) => h) (fun _ _ => trivial) (fun _ _ => trivial) (fun _ _ => trivial) msg hleaves)
  obtain ⟨root, h3, h4⟩ := message_document (fits_anyByte dbl ver) ver msg hleaves ⟨trivial, trivial⟩
  exact ⟨ws, root, h1, by rw [h2]; exact h3, h4⟩

/-- **C29 (XML).** If moreover the strings and names consist of characters of XML in UTF-8, the document is XML 1.0, and a reader gets the
strings with their ends of lines normalized. -/
theorem C29_document_xml (dbl : BitVec 64 → Bytes) (ver : Version) (hv : accepts ver = true) (msg : Message) (hsmall : SmallMessage msg)
    (hleaves : msg.Leaves ⟨XmlInt ver, IsXmlText, fun x => PlainText (dbl x), fun _ => True⟩) :
    ∃ ws root, run dbl ver (ops msg) = (ws, none) ∧ IsDocument xmlChar ws.flatten root ∧ msg.Is (normalized dbl) root := by
  obtain ⟨ws, h1, h2⟩ := run_message dbl hv msg hsmall
    (messageLeaves_mono (N' := needs ver) (fun n (h : XmlInt ver n) => h) (fun _ _ => trivial) (fun _ _ => trivial) (fun _ _ => trivial) msg hleaves)
  have hk : ∀ t : Bytes, t.all isAlnum = true → IsXmlText t := by
    intro t ht
    apply xmlText_ascii
    intro c hc
    have := forall_byte (fun c => !isAlnum c || (decide (c.toNat < 128) && Spec.isXmlChar c.toNat)) (by decide +kernel) c
    rw [List.all_eq_true.1 ht c hc] at this
    simpa using this
  obtain ⟨root, h3, h4⟩ := message_document (fits_xmlChar dbl ver) ver msg hleaves ⟨hk _ (by decide +kernel), hk _ (by decide +kernel)⟩
  exact ⟨ws, root, h1, by rw [h2]; exact h3, h4⟩

/-- The text of doubles in the examples. -/
def xmlExampleDbl (_ : BitVec 64) : Bytes := asc "-1.5e+10"

/-- A message with everything in it. -/
def xmlExample : Message := .call (asc "a.b") [.array [.int (-5), .array [], .double 7, .struct [(asc "k<", .string (asc "x&y\r\n")), (asc "z", .null)]],
  .binaryRef [[1], [2, 3]], .secret (.bool true), .dateTime ⟨2020, 1, 2, 3, 4, 5, 0, 0, -3600⟩]

example : xmlExample.Leaves ⟨XmlInt ⟨2, 1⟩, fun _ => True, fun x => PlainText (xmlExampleDbl x), fun _ => True⟩ ∧ SmallMessage xmlExample := by
  have : PlainText (asc "-1.5e+10") := by unfold PlainText; decide +kernel
  constructor
  · simp [xmlExample, Message.Leaves, LeavesItems, Leaves, LeavesMembers, XmlInt, xmlExampleDbl, asc]
    exact this
  · simp [xmlExample, SmallMessage, Spec.SmallItems, Spec.Small, Spec.SmallMembers, asc]
example : (run xmlExampleDbl ⟨2, 1⟩ (ops (.response (.struct [(asc "k<", .string (asc "x&y"))])))).1.flatten =
    asc "<?xml version=\"1.0\"?>\n<!--protocolVersion=\"2.1\"-->\n<methodResponse>\n<params>\n<param>\n<value>\n<struct>\n<member>\n<name>k&lt;</name>\n<value><string>x&amp;y</string></value>\n</member>\n</struct>\n</value>\n</param>\n</params>\n</methodResponse>\n" := by
  decide +kernel
example : IsXmlText (asc "x&y\r\n") ∧ IsXmlText [0xC3, 0xA9] ∧ lineEnds (asc "x\r\ny\rz") = asc "x\ny\nz" :=
  ⟨xmlText_ascii (by decide +kernel), ⟨[[0xC3, 0xA9]], rfl, by simp only [List.mem_singleton, forall_eq]; exact ⟨0xE9, by decide, by decide⟩⟩, by decide +kernel⟩

/-- Remark on C29: which integers are refused. The least 64-bit integer is negated, which is undefined; below protocol 2 integers beyond 32 bits
raise a stream error after `<param>` has been written. -/
theorem C29_refused (dbl : BitVec 64 → Bytes) (ver : Version) (hv : accepts ver = true) :
    (run dbl ver (ops (.response (.int (-(2 : Int) ^ 63))))).2 = some .ub ∧
    (∀ n : Int, n ≠ -(2 : Int) ^ 63 → ver.major < 2 → 2 ^ 31 ≤ n.natAbs → (run dbl ver (ops (.response (.int n)))).2 = some .stream) := by
  constructor
  · simp [run, hv, ops, feed, packAll, pack, packInt, new]
  · intro n h1 h2 h3
    have h4 : ¬ n = -9223372036854775808 := by simpa using h1
    simp [run, hv, ops, feed, packAll, pack, packInt, new, h2, h3, h4]

end Frpc
