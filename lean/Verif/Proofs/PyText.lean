import Verif.Proofs.PyXml
import Verif.Proofs.Utf8
import Verif.Props.XmlRead
import Verif.Props.Python
import Verif.Model.PyText
import Verif.Spec.PyText
/-! # The text form of Python's `dumps`: it is UTF-8, and it is read again -/
namespace Frpc
namespace XmlMarshaller
open Spec.Xml Spec.XmlRpc
open Spec (isUtf8 isUtf8_append isUtf8_ascii codePoint)

theorem utf_high : ∀ {s : Bytes}, (∀ c ∈ s, 0x80 ≤ c.toNat) → quoted s = s
  | _, h => quoted_plain fun c hc => isSpecial_high (h c hc)

theorem utf_char {p : Bytes} {n : Nat} (h : codePoint p = some (n, p.length)) (hn : Spec.isXmlChar n = true) : isUtf8 p = true := by
  cases p with
  | nil => rfl
  | cons c s =>
    unfold isUtf8
    simp only [List.length_cons, Spec.utf8Within, h]
    rw [show (c :: s).drop (s.length + 1) = [] by simp]
    have : n ≤ 0x10FFFF ∧ ¬ (0xD800 ≤ n ∧ n ≤ 0xDFFF) := by
      unfold Spec.isXmlChar at hn
      rw [decide_eq_true_eq] at hn
      omega
    rw [decide_eq_true this]
    cases s.length <;> rfl

theorem utf_quoted_char {p : Bytes} {n : Nat} (h : codePoint p = some (n, p.length)) (hn : Spec.isXmlChar n = true) : isUtf8 (quoted p) = true := by
  cases p with
  | nil => rfl
  | cons c s =>
    by_cases hc : c.toNat < 128
    · have hl : s = [] := by
        simp only [codePoint, if_pos hc, Option.some.injEq, Prod.mk.injEq, List.length_cons] at h
        exact List.eq_nil_of_length_eq_zero (by omega)
      subst hl
      apply isUtf8_ascii
      have := forall_byte (fun c => !decide (c.toNat < 128) || (quoted [c]).all (fun x => decide (x.toNat < 128))) (by decide +kernel) c
      rw [decide_eq_true hc] at this
      intro x hx
      simpa using List.all_eq_true.1 this x hx
    · obtain ⟨a, b, h1, h2, h3, -⟩ := codePoint_split h
      have hb : b = [] := by
        subst h1
        simpa using h2
      subst hb
      rw [List.append_nil] at h1
      subst h1
      rw [utf_high (by
        intro x hx
        rcases List.mem_cons.1 hx with rfl | hx
        · omega
        · exact h3 x hx)]
      exact utf_char h hn

theorem xmlText_utf8 : ∀ {chars : List Bytes}, (∀ p ∈ chars, ∃ n, codePoint p = some (n, p.length) ∧ Spec.isXmlChar n = true) →
    isUtf8 chars.flatten = true ∧ isUtf8 (quoted chars.flatten) = true ∧ (0 : UInt8) ∉ chars.flatten
  | [], _ => ⟨rfl, rfl, by simp⟩
  | p :: ps, h => by
    obtain ⟨n, h1, h2⟩ := h p (by simp)
    obtain ⟨i1, i2, i3⟩ := xmlText_utf8 (chars := ps) (fun q hq => h q (by simp [hq]))
    rw [List.flatten_cons, quoted_append]
    refine ⟨isUtf8_append (utf_char h1 h2) i1, isUtf8_append (utf_quoted_char h1 h2) i2, ?_⟩
    intro hm
    rcases List.mem_append.1 hm with hm | hm
    · cases p with
      | nil => simp at hm
      | cons c s =>
        by_cases hc : c.toNat < 128
        · have hl : s = [] ∧ n = c.toNat := by
            simp only [codePoint, if_pos hc, Option.some.injEq, Prod.mk.injEq, List.length_cons] at h1
            exact ⟨List.eq_nil_of_length_eq_zero (by omega), h1.1.symm⟩
          rw [hl.1, List.mem_singleton] at hm
          rw [hl.2, ← hm] at h2
          exact absurd h2 (by decide)
        · obtain ⟨a, b, g1, g2, g3, -⟩ := codePoint_split h1
          have hb : b = [] := by
            subst g1
            simpa using g2
          subst hb
          rw [List.append_nil] at g1
          subst g1
          rcases List.mem_cons.1 hm with rfl | hm
          · exact hc (by decide)
          · exact absurd (g3 _ hm) (by decide)
    · exact i3 hm

theorem text_utf8 {s : Bytes} (h : IsXmlText s) : isUtf8 s = true ∧ isUtf8 (quoted s) = true ∧ (0 : UInt8) ∉ s := by
  obtain ⟨chars, rfl, h⟩ := h
  exact xmlText_utf8 h

theorem utf_all {s : Bytes} (h : s.all (fun c => decide (c.toNat < 128)) = true) : isUtf8 s = true :=
  isUtf8_ascii s fun c hc => by simpa using List.all_eq_true.1 h c hc

theorem utf_plain {t : Bytes} (h : ∀ c ∈ t, isPlain c = true) : isUtf8 t = true := by
  apply isUtf8_ascii
  intro c hc
  have := h c hc
  simp only [isPlain, Bool.and_eq_true, decide_eq_true_eq] at this
  omega

theorem utf_intTag (n : Int) : isUtf8 (intTag n) = true := by
  unfold intTag
  split <;> exact utf_all (by decide +kernel)

theorem utf_typed {tag t : Bytes} (h1 : isUtf8 tag = true) (h2 : isUtf8 t = true) : isUtf8 (typed tag t) = true := by
  unfold typed
  exact isUtf8_append (isUtf8_append (isUtf8_append (isUtf8_append (isUtf8_append (isUtf8_append (utf_all (by decide +kernel)) h1) (utf_all (by decide +kernel))) h2)
    (utf_all (by decide +kernel))) h1) (utf_all (by decide +kernel))

theorem utf_base64 (cs : List Bytes) : isUtf8 (Base64.writeEncodeBase64 true cs) = true := by
  apply isUtf8_ascii
  intro c hc
  rcases (base64_text cs).1 _ hc with h | rfl | rfl
  · simp only [isPlain, Bool.and_eq_true, decide_eq_true_eq] at h
    omega
  · decide
  · decide

variable {dbl : BitVec 64 → Bytes} {N : Need}

mutual
theorem utf_value (hd : ∀ x, N.dbl x → isUtf8 (dbl x) = true) (hs : ∀ s, N.str s → isUtf8 (quoted s) = true) : ∀ v : Value, Leaves N v → isUtf8 (xtext dbl v) = true
  | .int n, h => by simp only [xtext]; exact utf_typed (utf_intTag n) (utf_plain (plain_decInt n))
  | .bool b, h => by simp only [xtext]; exact utf_typed (utf_all (by decide +kernel)) (by cases b <;> decide)
  | .double x, h => by simp only [xtext]; exact utf_typed (utf_all (by decide +kernel)) (hd x (by simpa only [Leaves] using h))
  | .string s, h => by simp only [xtext]; exact utf_typed (utf_all (by decide +kernel)) (hs s (by simpa only [Leaves] using h))
  | .stringView s, h => by simp only [xtext]; exact utf_typed (utf_all (by decide +kernel)) (hs s (by simpa only [Leaves] using h))
  | .dateTime d, h => by simp only [xtext]; exact utf_typed (utf_all (by decide +kernel)) (utf_plain (plain_date d))
  | .binary s, h => by simp only [xtext]; exact utf_typed (utf_all (by decide +kernel)) (utf_base64 _)
  | .binaryRef s, h => by simp only [xtext]; exact utf_typed (utf_all (by decide +kernel)) (utf_base64 _)
  | .null, h => by simp only [xtext]; exact utf_all (by decide +kernel)
  | .secret v, h => by simp only [xtext]; exact utf_value hd hs v (by simpa only [Leaves] using h)
  | .array vs, h => by
    simp only [xtext]
    exact isUtf8_append (isUtf8_append (utf_all (by decide +kernel)) (utf_items hd hs vs (by simpa only [Leaves] using h))) (utf_all (by decide +kernel))
  | .struct ms, h => by
    simp only [xtext]
    exact isUtf8_append (isUtf8_append (utf_all (by decide +kernel)) (utf_members hd hs ms (by simpa only [Leaves] using h))) (utf_all (by decide +kernel))
theorem utf_items (hd : ∀ x, N.dbl x → isUtf8 (dbl x) = true) (hs : ∀ s, N.str s → isUtf8 (quoted s) = true) : ∀ vs : List Value, LeavesItems N vs → isUtf8 (xitems dbl vs) = true
  | [], h => by simp only [xitems]; rfl
  | v :: vs, h => by simp only [xitems]; exact isUtf8_append (utf_value hd hs v h.1) (utf_items hd hs vs h.2)
theorem utf_members (hd : ∀ x, N.dbl x → isUtf8 (dbl x) = true) (hs : ∀ s, N.str s → isUtf8 (quoted s) = true) : ∀ ms : List (Bytes × Value), LeavesMembers N ms →
    isUtf8 (xmembers dbl ms) = true
  | [], h => by simp only [xmembers]; rfl
  | (k, v) :: ms, h => by
    simp only [xmembers]
    exact isUtf8_append (isUtf8_append (isUtf8_append (isUtf8_append (isUtf8_append (utf_all (by decide +kernel)) (hs k h.2.1)) (utf_all (by decide +kernel)))
      (utf_value hd hs v h.2.2.1)) (utf_all (by decide +kernel))) (utf_members hd hs ms h.2.2.2)
end

theorem utf_params (hd : ∀ x, N.dbl x → isUtf8 (dbl x) = true) (hs : ∀ s, N.str s → isUtf8 (quoted s) = true) : ∀ vs : List Value, LeavesItems N vs → isUtf8 (xparams dbl vs) = true
  | [], _ => by simp only [xparams]; rfl
  | v :: vs, h => by
    simp only [xparams]
    exact isUtf8_append (isUtf8_append (isUtf8_append (utf_all (by decide +kernel)) (utf_value hd hs v h.1)) (utf_all (by decide +kernel))) (utf_params hd hs vs h.2)

theorem utf_wrap {n s : Bytes} (h1 : isUtf8 n = true) (h2 : isUtf8 s = true) : isUtf8 (wrap n s) = true := by
  unfold wrap
  have a : isUtf8 ([60] ++ (n ++ [62])) = true := isUtf8_append (by decide) (isUtf8_append h1 (by decide))
  have b : isUtf8 (s ++ ([60, 47] ++ (n ++ [62]))) = true := isUtf8_append h2 (isUtf8_append (by decide) (isUtf8_append h1 (by decide)))
  exact isUtf8_append a b

theorem utf_message (hd : ∀ x, N.dbl x → isUtf8 (dbl x) = true) (hs : ∀ s, N.str s → isUtf8 (quoted s) = true) (hk : N.str (asc "faultCode") ∧ N.str (asc "faultString"))
    (msg : Message) (h : msg.Leaves N) : isUtf8 (xmessage dbl msg) = true := by
  have nl : isUtf8 [10] = true := by decide
  cases msg with
  | call name args =>
    simp only [xmessage]
    exact isUtf8_append (utf_wrap (utf_all (by decide +kernel)) (isUtf8_append nl (isUtf8_append (utf_wrap (utf_all (by decide +kernel)) (hs _ h.2.1))
      (isUtf8_append nl (isUtf8_append (utf_wrap (utf_all (by decide +kernel)) (isUtf8_append nl (utf_params hd hs args h.2.2))) nl))))) nl
  | response v =>
    simp only [xmessage]
    exact isUtf8_append (utf_wrap (utf_all (by decide +kernel)) (isUtf8_append nl (isUtf8_append (utf_wrap (utf_all (by decide +kernel))
      (isUtf8_append nl (utf_params hd hs [v] ⟨h, trivial⟩))) nl))) nl
  | fault code m =>
    simp only [xmessage]
    refine isUtf8_append (utf_wrap (utf_all (by decide +kernel)) (isUtf8_append nl (isUtf8_append (utf_wrap (utf_all (by decide +kernel)) (isUtf8_append nl ?_)) nl))) nl
    apply utf_value hd hs
    simp only [Leaves, LeavesMembers]
    exact ⟨by decide +kernel, hk.1, h.1, by decide +kernel, hk.2, h.2, trivial⟩

end XmlMarshaller

namespace Python
open Spec.Xml Spec.XmlRpc XmlMarshaller XmlUnMarshaller BinUnMarshaller
open Spec (isUtf8)
open Spec.Python (Carried CarriedItems CarriedMembers means meansItems meansMembers)

theorem eager_prompt : Prompt XmlParser.eager := by
  intro doc evs h
  have h0 : XmlParser.told [] = false := by
    have : Spec.Xml.read xmlChar [] = none := by decide +kernel
    simp [XmlParser.told, this]
  have h1 := XmlParser.eager_events [doc] [] evs h0 (by simpa using h)
  have h2 := XmlParser.eager_fine [doc] []
  simp only [events, List.append_nil] at h1
  exact ⟨h2.1, by rw [h1]⟩

/-- A document given whole to a prompt parser. -/
theorem readXml_document {β : Type} {B : Builder β} {env : XmlUnMarshaller.Env} {P : Spec.Xml.Parser} (hP : Prompt P) {msg : Message} {doc : Bytes} {root : Node} (hdoc : IsDocument xmlChar doc root)
    (his : msg.Is (understood env.strtod) root) (hi : msg.IntsAll (readable env.erange)) {v : Version}
    (hs : sniff doc XmlUnMarshaller.init = ({ XmlUnMarshaller.init with ver := v, check := false }, none)) {b b' : β} (ha : applyEvents B b msg.calls = (b', none)) :
    readXml env P B b doc = (b', none) := by
  obtain ⟨evs, h1, h2⟩ := hdoc
  obtain ⟨h3, h4⟩ := hP doc evs h1
  have hreq : asked .any msg := by cases msg <;> exact .inr rfl
  obtain ⟨x, h7, h8, h9, h10, h11⟩ := sax_message (x := { XmlUnMarshaller.init with ver := v, check := false }) hreq his hi rfl rfl ha
  rw [← saxAll_canon, ← h2, ← h4, saxAll_canon] at h7
  unfold readXml
  rw [hs]
  simp only [XmlUnMarshaller.unMarshall, hs, h3, h7, h8]
  rfl

/-- What the marshaller writes is UTF-8, begins with a `<`, and is read again. -/
theorem own_text {β : Type} {B : Builder β} {env : XmlUnMarshaller.Env} {P : Spec.Xml.Parser} (hP : Prompt P) {msg : Message} {dbl : BitVec 64 → Bytes} {ver : Version}
    (hv : XmlMarshaller.accepts ver = true) (hsmall : SmallMessage msg) (hleaves : msg.Leaves (xmlNeed ver env dbl)) (hints : msg.IntsAll (readable env.erange))
    {b b' : β} (hb : applyEvents B b msg.calls = (b', none)) :
    ∃ ws, XmlMarshaller.run dbl ver (ops msg) = (ws, none) ∧ isUtf8 ws.flatten = true ∧ (∃ r, ws.flatten = asc "<?xml" ++ r) ∧ readXml env P B b ws.flatten = (b', none) := by
  obtain ⟨ws, h1, h2⟩ := run_message dbl hv msg hsmall
    (messageLeaves_mono (N := xmlNeed ver env dbl) (N' := needs ver) (fun n h => h.1) (fun _ _ => trivial) (fun _ _ => trivial) (fun _ _ => trivial) msg hleaves)
  have hk : ∀ t : Bytes, t.all isAlnum = true → IsXmlText t ∧ (13 : UInt8) ∉ t := by
    intro t ht
    refine ⟨xmlText_ascii ?_, fun h => absurd (List.all_eq_true.1 ht _ h) (by decide)⟩
    intro c hc
    have := forall_byte (fun c => !isAlnum c || (decide (c.toNat < 128) && Spec.isXmlChar c.toNat)) (by decide +kernel) c
    rw [List.all_eq_true.1 ht c hc] at this
    simpa using this
  obtain ⟨root, h3, h4⟩ := message_document (fits_own ver env dbl) ver msg hleaves ⟨hk _ (by decide +kernel), hk _ (by decide +kernel)⟩
  have hm : ∃ m, XmlMarshaller.packMagic ver = asc "<?xml" ++ m ∧ isUtf8 (XmlMarshaller.packMagic ver) = true := by
    unfold XmlMarshaller.packMagic
    split
    · exact ⟨asc " version=\"1.0\"?>\n", by decide +kernel, utf_all (by decide +kernel)⟩
    · split
      · exact ⟨asc " version=\"1.0\"?>\n<!--protocolVersion=\"2.0\"-->\n", by decide +kernel, utf_all (by decide +kernel)⟩
      · exact ⟨asc " version=\"1.0\"?>\n<!--protocolVersion=\"2.1\"-->\n", by decide +kernel, utf_all (by decide +kernel)⟩
  obtain ⟨m, m1, m2⟩ := hm
  have hnoq := noq_message (N := xmlNeed ver env dbl) (dbl := dbl) (fun x h => noq_plain (plain_of h.1)) msg hleaves
  have hne : ws.flatten ≠ [] := by rw [h2, m1]; simp [asc]
  have hs := sniff_own (d := ws.flatten) (r := []) hnoq (by simpa using h2) hne
  refine ⟨ws, h1, ?_, ?_, ?_⟩
  · rw [h2]
    exact Spec.isUtf8_append m2 (utf_message (N := xmlNeed ver env dbl) (fun x h => utf_plain (plain_of h.1)) (fun s h => (text_utf8 h.1).2.1)
      ⟨hk _ (by decide +kernel), hk _ (by decide +kernel)⟩ msg hleaves)
  · exact ⟨m ++ xmessage dbl msg, by rw [h2, m1, List.append_assoc]⟩
  · exact readXml_document hP (by rw [h2]; exact h3) h4 hints hs hb

mutual
theorem means_carried {N : Spec.XmlRpc.Need} (hi : ∀ n, N.int n → IsI64 n) : ∀ p : Py, Carried N p → ∃ v, means p = some v ∧ Leaves N v
  | .none, _ => ⟨_, rfl, by simp [Leaves]⟩
  | .bool b, _ => ⟨_, rfl, by simp [Leaves]⟩
  | .boolean b, _ => ⟨_, rfl, by simp [Leaves]⟩
  | .bytes b, _ => ⟨_, rfl, by simp [Leaves]⟩
  | .int n, h => by
    simp only [Carried] at h
    have := hi n h
    unfold IsI64 at this
    exact ⟨.int n, by unfold means; rw [if_pos this], by simpa only [Leaves] using h⟩
  | .float x, h => ⟨_, rfl, by simp only [Carried] at h; simpa only [Leaves] using h⟩
  | .str s, h => ⟨_, rfl, by simp only [Carried] at h; simpa only [Leaves] using h⟩
  | .dateTime d, h => ⟨_, rfl, by simp only [Carried] at h; simpa only [Leaves] using h⟩
  | .list xs, h => by
    simp only [Carried] at h
    obtain ⟨vs, h1, h2⟩ := means_carried_items hi xs h
    exact ⟨.array vs, by unfold means; rw [h1]; rfl, by simpa only [Leaves] using h2⟩
  | .tuple xs, h => by
    simp only [Carried] at h
    obtain ⟨vs, h1, h2⟩ := means_carried_items hi xs h
    exact ⟨.array vs, by unfold means; rw [h1]; rfl, by simpa only [Leaves] using h2⟩
  | .dict ms, h => by
    simp only [Carried] at h
    obtain ⟨vs, h1, h2⟩ := means_carried_members hi ms h
    exact ⟨.struct vs, by unfold means; rw [h1]; rfl, by simpa only [Leaves] using h2⟩
  | .surrogates, h => by simp only [Carried] at h
  | .native .., h => by simp only [Carried] at h
  | .fault .., h => by simp only [Carried] at h
  | .other, h => by simp only [Carried] at h
theorem means_carried_items {N : Spec.XmlRpc.Need} (hi : ∀ n, N.int n → IsI64 n) : ∀ xs : List Py, CarriedItems N xs → ∃ vs, meansItems xs = some vs ∧ LeavesItems N vs
  | [], _ => ⟨[], rfl, trivial⟩
  | x :: xs, h => by
    simp only [CarriedItems] at h
    obtain ⟨v, h1, h2⟩ := means_carried hi x h.1
    obtain ⟨vs, h3, h4⟩ := means_carried_items hi xs h.2
    exact ⟨v :: vs, by unfold meansItems; rw [h1, h3], h2, h4⟩
theorem means_carried_members {N : Spec.XmlRpc.Need} (hi : ∀ n, N.int n → IsI64 n) : ∀ ms : List (Key × Py), CarriedMembers N ms →
    ∃ vs, meansMembers ms = some vs ∧ LeavesMembers N vs
  | [], _ => ⟨[], rfl, trivial⟩
  | (.str k, x) :: ms, h => by
    simp only [CarriedMembers] at h
    obtain ⟨v, h1, h2⟩ := means_carried hi x h.2.2.1
    obtain ⟨vs, h3, h4⟩ := means_carried_members hi ms h.2.2.2
    exact ⟨(k, v) :: vs, by unfold meansMembers; rw [h1, h3], h.1, h.2.1, h2, h4⟩
  | (.surrogates, _) :: _, h => by simp only [CarriedMembers] at h
  | (.other, _) :: _, h => by simp only [CarriedMembers] at h
end

/-- What `means_back` needs to know. -/
def eachOf (N : Spec.XmlRpc.Need) : Spec.Python.Need := ⟨fun _ => True, N.date, N.str, False⟩

mutual
theorem each_carried {N : Spec.XmlRpc.Need} : ∀ p : Py, Carried N p → Spec.Python.Each (eachOf N) p
  | .none, _ | .bool _, _ | .boolean _, _ | .bytes _, _ | .float _, _ | .str _, _ => by simp [Spec.Python.Each]
  | .int _, _ => by simp [Spec.Python.Each, eachOf]
  | .dateTime d, h => by simp only [Carried] at h; simp only [Spec.Python.Each]; exact h
  | .list xs, h => by simp only [Carried] at h; simp only [Spec.Python.Each]; exact each_carried_items xs h
  | .tuple xs, h => by simp only [Carried] at h; simp only [Spec.Python.Each]; exact each_carried_items xs h
  | .dict ms, h => by simp only [Carried] at h; simp only [Spec.Python.Each]; exact each_carried_members ms h
  | .surrogates, h | .native .., h | .fault .., h | .other, h => by simp only [Carried] at h
theorem each_carried_items {N : Spec.XmlRpc.Need} : ∀ xs : List Py, CarriedItems N xs → Spec.Python.EachItems (eachOf N) xs
  | [], _ => by simp [Spec.Python.EachItems]
  | x :: xs, h => by
    simp only [CarriedItems] at h
    simp only [Spec.Python.EachItems]
    exact ⟨each_carried x h.1, each_carried_items xs h.2⟩
theorem each_carried_members {N : Spec.XmlRpc.Need} : ∀ ms : List (Key × Py), CarriedMembers N ms → Spec.Python.EachMembers (eachOf N) ms
  | [], _ => by simp [Spec.Python.EachMembers]
  | (.str k, x) :: ms, h => by
    simp only [CarriedMembers] at h
    simp only [Spec.Python.EachMembers]
    exact ⟨(fun s hs => by cases hs; exact h.2.1), each_carried x h.2.2.1, each_carried_members ms h.2.2.2⟩
  | (.surrogates, _) :: _, h => by simp only [CarriedMembers] at h
  | (.other, _) :: _, h => by simp only [CarriedMembers] at h
end

end Python
end Frpc
