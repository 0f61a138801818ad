import Verif.Model.XmlUnmarshaller
import Verif.Spec.XmlRpc
import Verif.Proofs.XmlDoc
import Verif.Proofs.IsoDate
import Verif.Proofs.Trace
import Verif.Proofs.Build
import Verif.Props.Base64
import Verif.Props.IsoDate
import Verif.Props.Xml
/-! # What the XML unmarshaller makes of a document -/
namespace Frpc
namespace XmlUnMarshaller
open Spec.Xml Spec.XmlRpc BinUnMarshaller
open XmlMarshaller (saxList_append squeezed_eq dateText_iso)

variable {β : Type} {env : Env} {B : Builder β} {want : Option Req}

theorem saxAll_append (a c : List Sax) : ∀ (u : X) (b : β), saxAll env B want u b (a ++ c) =
    saxAll env B want (saxAll env B want u b a).1 (saxAll env B want u b a).2 c := by
  induction a with
  | nil => intro u b; rfl
  | cons e a ih => intro u b; simp only [List.cons_append, saxAll]; exact ih _ _

theorem sax_start {u : X} (h : u.exc = none) (b : β) (n : Bytes) : sax env B want u b (.start n) = caught (onStart B want n u b) := by
  simp only [sax, h]
theorem sax_stop {u : X} (h : u.exc = none) (b : β) (n : Bytes) : sax env B want u b (.stop n) = caught (onStop env B n u b) := by
  simp only [sax, h]
theorem sax_text {u : X} (h : u.exc = none) (b : β) (s : Bytes) : sax env B want u b (.text s) = ({ u with buf := u.buf ++ s }, b) := by
  simp only [sax, h]

theorem sax_text_append (x y : Bytes) (u : X) (b : β) (r : List Sax) :
    saxAll env B want u b (.text x :: .text y :: r) = saxAll env B want u b (.text (x ++ y) :: r) := by
  simp only [saxAll]
  cases h : u.exc with
  | some e => simp only [sax, h]
  | none => simp only [sax, h, List.append_assoc]

theorem sax_text_nil (u : X) (b : β) (r : List Sax) : saxAll env B want u b (.text [] :: r) = saxAll env B want u b r := by
  simp only [saxAll]
  cases h : u.exc with
  | some e => simp only [sax, h]
  | none => rw [sax_text h]; simp only [List.append_nil]

theorem saxAll_join (a : Bytes) (r : List Sax) (u : X) (b : β) : saxAll env B want u b (joinText a r) = saxAll env B want u b (.text a :: r) := by
  unfold joinText
  split
  · exact (sax_text_append _ _ _ _ _).symm
  · split
    · rename_i h; subst h; exact (sax_text_nil _ _ _).symm
    · rfl

theorem saxAll_canon : ∀ (evs : List Sax) (u : X) (b : β), saxAll env B want u b (canon evs) = saxAll env B want u b evs
  | [], _, _ => rfl
  | .text a :: r, u, b => by
    simp only [canon, saxAll_join, saxAll]
    exact saxAll_canon r _ _
  | .start n :: r, u, b => by simp only [canon, saxAll]; exact saxAll_canon r _ _
  | .stop n :: r, u, b => by simp only [canon, saxAll]; exact saxAll_canon r _ _

/-- From state `x` with any text pending, the events lead to `x'`. -/
def Goes (env : Env) (B : Builder β) (want : Option Req) (x : X) (b : β) (evs : List Sax) (x' : X) (b' : β) : Prop :=
  ∀ buf, ∃ buf', saxAll env B want { x with buf := buf } b evs = ({ x' with buf := buf' }, b')

theorem Goes.nil {x : X} {b : β} : Goes env B want x b [] x b := fun buf => ⟨buf, rfl⟩

theorem Goes.append {x x1 x2 : X} {b b1 b2 : β} {a c : List Sax} (h1 : Goes env B want x b a x1 b1) (h2 : Goes env B want x1 b1 c x2 b2) :
    Goes env B want x b (a ++ c) x2 b2 := by
  intro buf
  obtain ⟨t, ht⟩ := h1 buf
  obtain ⟨s, hs⟩ := h2 t
  exact ⟨s, by rw [saxAll_append, ht]; exact hs⟩

theorem Goes.cons {x x1 x2 : X} {b b1 b2 : β} {e : Sax} {c : List Sax} (h1 : Goes env B want x b [e] x1 b1) (h2 : Goes env B want x1 b1 c x2 b2) :
    Goes env B want x b (e :: c) x2 b2 := Goes.append (a := [e]) h1 h2

theorem goes_text {x : X} (hx : x.exc = none) (s : Bytes) (b : β) : Goes env B want x b [.text s] x b := by
  intro buf
  refine ⟨buf ++ s, ?_⟩
  simp only [saxAll]
  rw [sax_text (by exact hx)]

theorem goes_blank {x : X} (hx : x.exc = none) (b : β) : ∀ c : List Node, parts c = [] → Goes env B want x b (saxList c) x b
  | [], _ => Goes.nil
  | .text s :: c, h => by
    simp only [saxList, Node.sax]
    refine (goes_text hx s b).append (goes_blank hx b c ?_)
    simp only [parts, List.filter_cons] at h
    split at h
    · cases h
    · exact h
  | .elem n d :: c, h => by simp [parts, Node.blank] at h

theorem parts_cons : ∀ {c : List Node} {x : Node} {r : List Node}, parts c = x :: r → ∃ pre post, c = pre ++ x :: post ∧ parts pre = [] ∧ parts post = r
  | [], _, _, h => by simp [parts] at h
  | n :: c, x, r, h => by
    simp only [parts, List.filter_cons] at h
    split at h
    · cases h
      exact ⟨[], c, rfl, rfl, rfl⟩
    · rename_i hb
      obtain ⟨pre, post, rfl, h1, h2⟩ := parts_cons (c := c) (x := x) (r := r) h
      refine ⟨n :: pre, post, rfl, ?_, h2⟩
      simp only [parts, List.filter_cons, hb]
      exact h1

/-- Going through the first part. -/
theorem Goes.part {x x1 x2 : X} (hx : x.exc = none) {b b1 b2 : β} {n : Node} {c r : List Node} (h : parts c = n :: r)
    (h1 : Goes env B want x b n.sax x1 b1) (h2 : ∀ c', parts c' = r → Goes env B want x1 b1 (saxList c') x2 b2) :
    Goes env B want x b (saxList c) x2 b2 := by
  obtain ⟨pre, post, rfl, h3, h4⟩ := parts_cons h
  rw [saxList_append]
  exact (goes_blank hx b pre h3).append (by simp only [saxList]; exact h1.append (h2 post h4))

/-- A start tag. -/
theorem goes_start {x x' : X} (hx : x.exc = none) {n : Bytes} {b b' : β}
    (h : ∀ buf, setValueType B want n { x with buf := buf } b = ({ x' with buf := buf }, b', none)) : Goes env B want x b [.start n] x' b' := by
  intro buf
  refine ⟨[], ?_⟩
  simp only [saxAll]
  rw [sax_start (by exact hx)]
  simp only [onStart, h, caught]

/-- A stop tag where no data is pending. -/
theorem goes_stop {x x' : X} (hx : x.exc = none) (ht : x.ty = .none) {n : Bytes} {b b' : β}
    (h : ∀ buf, closeEntity B n { x with buf := buf } b = ({ x' with buf := buf }, b', none)) : Goes env B want x b [.stop n] x' b' := by
  intro buf
  refine ⟨buf, ?_⟩
  simp only [saxAll]
  rw [sax_stop (by exact hx)]
  have hd : setValueData env B { x with buf := buf } b buf = ({ x with buf := buf }, b, none) := by
    unfold setValueData
    simp only [ht]
  simp only [onStop, hd, h, caught]

theorem saxAll_isText {x : X} (hx : x.exc = none) (b : β) : ∀ {d : List Node} {t : Bytes}, IsText d t → ∀ buf,
    saxAll env B want { x with buf := buf } b (saxList d) = ({ x with buf := buf ++ t }, b)
  | [], t, h, buf => by simp only [IsText] at h; subst h; simp [saxList, saxAll]
  | .text a :: r, t, h, buf => by
    obtain ⟨s, rfl, h⟩ := h
    simp only [saxList, Node.sax, List.singleton_append, saxAll]
    rw [sax_text (by exact hx)]
    simp only
    rw [saxAll_isText hx b h]
    simp
  | .elem _ _ :: _, _, h, _ => by simp [IsText] at h

/-- An element of text. -/
theorem goes_leaf {x x1 x2 : X} (hx : x.exc = none) {tag t : Bytes} {d : List Node} (hd : IsText d t) {b b' : β}
    (h1 : ∀ buf, setValueType B want tag { x with buf := buf } b = ({ x1 with buf := buf }, b, none))
    (hx1 : x1.exc = none)
    (h2 : setValueData env B { x1 with buf := t } b t = ({ x2 with buf := t }, b', none))
    (h3 : closeEntity B tag { x2 with buf := t } b' = ({ x2 with buf := t }, b', none)) :
    Goes env B want x b (Node.elem tag d).sax x2 b' := by
  intro buf
  refine ⟨t, ?_⟩
  simp only [Node.sax, saxAll]
  rw [sax_start (by exact hx)]
  simp only [onStart, h1, caught]
  rw [saxAll_append, saxAll_isText hx1 b hd]
  simp only [List.nil_append, saxAll]
  rw [sax_stop (by exact hx1)]
  simp only [onStop, h2, h3, caught]

/-- Types that are not containers or kinds of messages. -/
def Ty.simple : Ty → Bool
  | .struct | .array | .fault | .call | .response => false
  | _ => true

theorem setValueType_simple {name : Bytes} (h : (getValueType name).simple = true) {u : X} (hm : u.main ≠ .response) (b : β) :
    setValueType B want name u b = ({ u with ty := getValueType name }, b, none) := by
  unfold setValueType
  generalize getValueType name = t at h
  cases t <;> first | exact absurd h (by decide) | simp [beginResponse, hm]

theorem closeEntity_simple {name : Bytes} (h : (getValueType name).simple = true) {u : X} (b : β) :
    closeEntity B name u b = ({ u with ty := .none }, b, none) := by
  unfold closeEntity
  generalize getValueType name = t at h
  simp only
  split
  · cases t <;> first | exact absurd h (by decide) | simp
  · cases t <;> first | exact absurd h (by decide) | simp

/-- An element of text of a simple type. -/
theorem goes_simple {x x2 : X} (hx : x.exc = none) (hm : x.main ≠ .response) {tag t : Bytes} {d : List Node} (hd : IsText d t) {b b' : β}
    (hs : (getValueType tag).simple = true)
    (h2 : setValueData env B { x with ty := getValueType tag, buf := t } b t = ({ x2 with ty := .none, buf := t }, b', none)) :
    Goes env B want x b (Node.elem tag d).sax { x2 with ty := .none } b' := by
  refine goes_leaf (x1 := { x with ty := getValueType tag }) hx hd (fun buf => setValueType_simple hs (by exact hm) b) hx (by exact h2) ?_
  rw [closeEntity_simple hs]

/-- An element of a simple type around one part. -/
theorem goes_around {x x2 : X} (hx : x.exc = none) (hm : x.main ≠ .response) {tag : Bytes} {c : List Node} {b b' : β}
    (hs : (getValueType tag).simple = true) (hx2 : x2.exc = none) (ht : x2.ty = .none)
    (h2 : Goes env B want { x with ty := getValueType tag } b (saxList c) x2 b') :
    Goes env B want x b (Node.elem tag c).sax x2 b' := by
  simp only [Node.sax]
  refine Goes.cons (goes_start hx (fun buf => setValueType_simple hs (by exact hm) b)) (h2.append (goes_stop hx2 ht fun buf => ?_))
  rw [closeEntity_simple hs, ← ht]

/-- A value element with text of a type. -/
theorem goes_typed {x x2 : X} (hx : x.exc = none) (hm : x.main ≠ .response) {tag t : Bytes} {n : Node} (hn : Typed tag t n) {b b' : β}
    (hs : (getValueType tag).simple = true) (hx2 : x2.exc = none)
    (h2 : setValueData env B { x with ty := getValueType tag, buf := t } b t = ({ x2 with ty := .none, buf := t }, b', none)) :
    Goes env B want x b n.sax { x2 with ty := .none } b' := by
  obtain ⟨c, d, rfl, h3, h4⟩ := hn
  refine goes_around hx hm (by decide +kernel) (by exact hx2) rfl ?_
  refine Goes.part (by exact hx) h3 (goes_simple (x2 := x2) (by exact hx) (by exact hm) h4 hs h2) ?_
  intro c' h'
  exact goes_blank (by exact hx2) _ c' h'

theorem call_ok {b b' : β} {e : Event} (h : B.build b e = .ok b') : call B b e = (b', none) := by simp [call, h]

theorem callNone_ok {u : X} {b b' : β} {e : Event} (h : B.build b e = .ok b') : callNone B u b e = ({ u with ty := .none }, b', none) := by
  simp [callNone, call_ok h]

theorem build_of_one {b b' : β} {e : Event} (h : applyEvents B b [e] = (b', none)) : B.build b e = .ok b' := by
  simp only [applyEvents] at h
  cases hb : B.build b e with
  | ok c => rw [hb] at h; simp at h; rw [h]
  | error e => rw [hb] at h; simp at h

theorem takeWhile_self {p : UInt8 → Bool} : ∀ {s : Bytes}, (∀ c ∈ s, p c = true) → s.takeWhile p = s
  | [], _ => rfl
  | c :: s, h => by
    rw [List.takeWhile_cons, if_pos (h c (by simp)), takeWhile_self (fun x hx => h x (by simp [hx]))]

theorem cstr_eq {s : Bytes} (h : (0 : UInt8) ∉ s) : cstr s = s := by
  unfold cstr
  apply takeWhile_self
  intro c hc
  simp only [decide_eq_true_eq]
  exact fun h0 => h (h0 ▸ hc)

theorem strtol_decInt (n : Int) (hn : IsI64 n) : strtol (decInt n) = (n, true, false) := by
  have hd0 : ∀ c, isDigit c = true → c ≠ 0 ∧ isSpace c = false ∧ c ≠ 45 ∧ c ≠ 43 := by
    intro c hc
    have := forall_byte (fun c => !isDigit c || (c != 0 && !isSpace c && c != 45 && c != 43)) (by decide +kernel) c
    rw [hc] at this
    simpa [and_assoc] using this
  have hc : cstr (decInt n) = decInt n := by
    apply cstr_eq
    unfold decInt
    intro h
    split at h
    · rcases List.mem_cons.1 h with h | h
      · simp at h
      · exact (hd0 0 (dec_digits _ _ h)).1 rfl
    · exact (hd0 0 (dec_digits _ _ h)).1 rfl
  have hdig : (dec n.natAbs).takeWhile isDigit = dec n.natAbs := takeWhile_self (dec_digits _)
  have hsp : (decInt n).dropWhile isSpace = decInt n := by
    unfold decInt
    split
    · rw [List.dropWhile_cons]; simp [show isSpace 45 = false by decide]
    · cases hd : dec n.natAbs with
      | nil => exact absurd hd (dec_ne_nil _)
      | cons c r => rw [List.dropWhile_cons]; simp [(hd0 c (dec_digits n.natAbs c (by rw [hd]; simp))).2.1]
  have hsign : sign (decInt n) = (decide (n < 0), dec n.natAbs) := by
    unfold decInt
    split
    · rename_i h; simp [sign, h]
    · rename_i h
      cases hd : dec n.natAbs with
      | nil => exact absurd hd (dec_ne_nil _)
      | cons c r =>
        have hh := hd0 c (dec_digits n.natAbs c (by rw [hd]; simp))
        unfold sign
        split
        · rename_i heq; exact absurd (List.cons.inj heq).1 hh.2.2.1
        · rename_i heq; exact absurd (List.cons.inj heq).1 hh.2.2.2
        · simp [h]
  unfold strtol
  rw [hc, hsp, hsign]
  simp only [hdig, if_neg (dec_ne_nil _), List.drop_length, List.isEmpty_nil]
  have hv : (if decide (n < 0) = true then -(atoi (dec n.natAbs) : Int) else (atoi (dec n.natAbs) : Int)) = n := by
    rw [atoi_dec]
    simp only [decide_eq_true_eq]
    split <;> omega
  rw [hv]
  unfold IsI64 at hn
  rw [if_neg (by omega), if_neg (by omega)]

/-- Texts as this reader understands them: a string is its text; a double is what `strtod` makes of all of the text; a date-time is in
its ISO form. -/
def understood (strtod : Bytes → BitVec 64 × Nat) : Texts :=
  ⟨fun s t => t = s, fun x t => (0 : UInt8) ∉ t ∧ strtod t = (x, t.length), fun d t => Dated d ∧ t = isoText d⟩

/-- 64-bit integers; not the extremes if `errno` was left at `ERANGE`. -/
def readable (erange : Bool) (n : Int) : Prop := IsI64 n ∧ (erange = true → n ≠ -2 ^ 63 ∧ n ≠ 2 ^ 63 - 1)

theorem setInt_ok {u : X} {b : β} {n : Int} (hn : readable env.erange n) : setInt env B u b (decInt n) =
    if u.main = .fault then ({ u with faultCode := n, ty := .none }, b, none) else callNone B u b (.int n) := by
  unfold setInt
  rw [strtol_decInt n hn.1]
  simp only
  rw [if_neg]
  rintro ⟨h1, h2⟩
  rcases h2 with h2 | h2
  · cases h2
  · have := hn.2 h2; omega

theorem parse_isoText {d : DateTime} (h : Dated d) : IsoDate.parse (isoText d) = .ok ⟨d.year, d.month, d.day, d.hour, d.minute, d.sec, d.timeZone⟩ := by
  rw [← dateText_iso h]
  exact C31_iso_roundtrip _ _ _ _ _ _ _ h.1 h.2.1 h.2.2.1 h.2.2.2.1 h.2.2.2.2.1 h.2.2.2.2.2.1 h.2.2.2.2.2.2.1 h.2.2.2.2.2.2.2

theorem applyEvents_split {b b' : β} {a c : List Event} (h : applyEvents B b (a ++ c) = (b', none)) :
    ∃ b1, applyEvents B b a = (b1, none) ∧ applyEvents B b1 c = (b', none) := by
  rw [applyEvents_append] at h
  generalize applyEvents B b a = q at h
  obtain ⟨b1, o⟩ := q
  cases o with
  | none => exact ⟨b1, rfl, h⟩
  | some e => simp at h

theorem applyEvents_split1 {b b' : β} {e : Event} {c : List Event} (h : applyEvents B b (e :: c) = (b', none)) :
    ∃ b1, B.build b e = .ok b1 ∧ applyEvents B b1 c = (b', none) := by
  obtain ⟨b1, h1, h2⟩ := applyEvents_split (a := [e]) h
  exact ⟨b1, build_of_one h1, h2⟩

theorem goes_container {x : X} (hx : x.exc = none) (hm : x.main = .none) {tag : Bytes} {c : List Node} {b b1 b2 b' : β} {eo ec : Event}
    (ho : ∀ u : X, u.main = .none → B.build b eo = .ok b1 → setValueType B want tag u b = ({ u with ty := .none }, b1, none))
    (hc : ∀ u : X, u.main = .none → B.build b2 ec = .ok b' → closeEntity B tag u b2 = ({ u with ty := .none }, b', none))
    (h1 : B.build b eo = .ok b1) (h2 : Goes env B want { x with ty := .none } b1 (saxList c) { x with ty := .none } b2) (h3 : B.build b2 ec = .ok b') :
    Goes env B want x b (Node.elem tag c).sax { x with ty := .none } b' := by
  simp only [Node.sax]
  refine Goes.cons (goes_start hx (fun buf => ho _ (by exact hm) h1)) (h2.append (goes_stop (by exact hx) rfl fun buf => ?_))
  rw [hc _ (by exact hm) h3]

theorem open_array {b b1 : β} {u : X} (hu : u.main = .none) (h : B.build b (.openArray 0) = .ok b1) :
    setValueType B want (asc "array") u b = ({ u with ty := .none }, b1, none) := by
  unfold setValueType
  rw [show getValueType (asc "array") = .array by decide +kernel]
  simp [beginResponse, hu, call_ok h]

theorem close_array {b b1 : β} {u : X} (hu : u.main = .none) (h : B.build b .closeArray = .ok b1) :
    closeEntity B (asc "array") u b = ({ u with ty := .none }, b1, none) := by
  unfold closeEntity
  rw [show getValueType (asc "array") = .array by decide +kernel]
  simp [hu, call_ok h]

theorem open_struct {b b1 : β} {u : X} (hu : u.main = .none) (h : B.build b (.openStruct 0) = .ok b1) :
    setValueType B want (asc "struct") u b = ({ u with ty := .none }, b1, none) := by
  unfold setValueType
  rw [show getValueType (asc "struct") = .struct by decide +kernel]
  simp [beginResponse, hu, call_ok h]

theorem close_struct {b b1 : β} {u : X} (hu : u.main = .none) (h : B.build b .closeStruct = .ok b1) :
    closeEntity B (asc "struct") u b = ({ u with ty := .none }, b1, none) := by
  unfold closeEntity
  rw [show getValueType (asc "struct") = .struct by decide +kernel]
  simp [hu, call_ok h]

/-- What a value element does. -/
theorem goes_single {x : X} (hx : x.exc = none) (hm : x.main = .none) {tag t : Bytes} {n : Node} (hn : Typed tag t n) {b b' : β} {e : Event}
    (hs : (getValueType tag).simple = true) (ha : applyEvents B b [e] = (b', none))
    (h2 : ∀ u : X, u.main = .none → u.ty = getValueType tag → setValueData env B u b t = callNone B u b e) :
    Goes env B want x b n.sax { x with ty := .none } b' := by
  refine goes_typed (x2 := x) hx (by rw [hm]; decide) hn hs hx ?_
  rw [h2 _ (by exact hm) rfl, callNone_ok (build_of_one ha)]

theorem goes_string {x : X} (hx : x.exc = none) (hm : x.main = .none) {t : Bytes} {n : Node} (h : Stringy t n) {b b' : β}
    (ha : applyEvents B b [.string t] = (b', none)) : Goes env B want x b n.sax { x with ty := .none } b' := by
  rcases h with h | ⟨c, rfl, hc⟩
  · refine goes_single hx hm h (by decide +kernel) ha ?_
    intro u hu hty
    rw [show getValueType (asc "string") = .string by decide +kernel] at hty
    unfold setValueData
    rw [hty]
    simp only
    rw [if_neg (by rw [hu]; decide)]
  · refine goes_simple (x2 := x) hx (by rw [hm]; decide) hc (by decide +kernel) ?_
    rw [show getValueType (asc "value") = .string by decide +kernel]
    unfold setValueData
    simp only
    rw [if_neg (by rw [hm]; decide), callNone_ok (build_of_one ha)]

mutual
theorem goes_value : ∀ (v : Value) (n : Node), Stands (understood env.strtod) v n → IntsAll (readable env.erange) v → ∀ (x : X) (b b' : β), x.exc = none →
    x.main = .none → applyEvents B b (calls v) = (b', none) → Goes env B want x b n.sax { x with ty := .none } b'
  | .int k, n, h, hi, x, b, b', hx, hm, ha => by
    simp only [Stands] at h
    simp only [IntsAll] at hi
    simp only [calls] at ha
    obtain ⟨tag, ht, h⟩ := h
    have hg : getValueType tag = .int := by rcases ht with rfl | rfl | rfl <;> decide +kernel
    refine goes_single hx hm h (by rw [hg]; rfl) ha ?_
    intro u hu hty
    rw [hg] at hty
    unfold setValueData
    rw [hty]
    simp only
    rw [setInt_ok hi, if_neg (by rw [hu]; decide)]
  | .bool k, n, h, _, x, b, b', hx, hm, ha => by
    simp only [Stands] at h
    simp only [calls] at ha
    refine goes_single hx hm h (by decide +kernel) ha ?_
    intro u hu hty
    rw [show getValueType (asc "boolean") = .bool by decide +kernel] at hty
    unfold setValueData
    rw [hty]
    cases k <;> rfl
  | .double k, n, h, _, x, b, b', hx, hm, ha => by
    simp only [Stands] at h
    simp only [calls] at ha
    obtain ⟨t, ⟨h0, ht⟩, h⟩ := h
    refine goes_single hx hm h (by decide +kernel) ha ?_
    intro u hu hty
    rw [show getValueType (asc "double") = .double by decide +kernel] at hty
    unfold setValueData
    rw [hty]
    simp only [cstr_eq h0, ht, if_true]
  | .string k, n, h, _, x, b, b', hx, hm, ha => by
    simp only [Stands] at h
    simp only [calls] at ha
    obtain ⟨t, ht, h⟩ := h
    cases ht
    exact goes_string hx hm h ha
  | .stringView k, n, h, _, x, b, b', hx, hm, ha => by
    simp only [Stands] at h
    simp only [calls] at ha
    obtain ⟨t, ht, h⟩ := h
    cases ht
    exact goes_string hx hm h ha
  | .dateTime k, n, h, _, x, b, b', hx, hm, ha => by
    simp only [Stands] at h
    simp only [calls] at ha
    obtain ⟨t, ⟨hd, ht⟩, h⟩ := h
    subst ht
    refine goes_single hx hm h (by decide +kernel) ha ?_
    intro u hu hty
    rw [show getValueType (asc "dateTime.iso8601") = .dateTime by decide +kernel] at hty
    unfold setValueData
    rw [hty]
    simp only
    rw [parse_isoText hd]
    rfl
  | .binary k, n, h, _, x, b, b', hx, hm, ha => by
    simp only [Stands] at h
    simp only [calls] at ha
    obtain ⟨t, ht, h⟩ := h
    refine goes_single hx hm h (by decide +kernel) ha ?_
    intro u hu hty
    rw [show getValueType (asc "base64") = .binary by decide +kernel] at hty
    unfold setValueData
    rw [hty]
    simp only
    rw [C23_decode_once k t (by rw [← squeezed_eq]; exact ht)]
  | .binaryRef k, n, h, _, x, b, b', hx, hm, ha => by
    simp only [Stands] at h
    simp only [calls] at ha
    obtain ⟨t, ht, h⟩ := h
    refine goes_single hx hm h (by decide +kernel) ha ?_
    intro u hu hty
    rw [show getValueType (asc "base64") = .binary by decide +kernel] at hty
    unfold setValueData
    rw [hty]
    simp only
    rw [C23_decode_once k.flatten t (by rw [← squeezed_eq]; exact ht)]
  | .null, n, h, _, x, b, b', hx, hm, ha => by
    simp only [Stands] at h
    simp only [calls] at ha
    refine goes_single hx hm h (by decide +kernel) ha ?_
    intro u hu hty
    rw [show getValueType (asc "nil") = .null by decide +kernel] at hty
    unfold setValueData
    rw [hty]
  | .secret v, n, h, hi, x, b, b', hx, hm, ha => by
    simp only [Stands] at h
    simp only [IntsAll] at hi
    simp only [calls] at ha
    exact goes_value v n h hi x b b' hx hm ha
  | .array vs, n, h, hi, x, b, b', hx, hm, ha => by
    simp only [Stands] at h
    simp only [IntsAll] at hi
    simp only [calls] at ha
    obtain ⟨c, a, d, rfl, hc, ha', hd⟩ := h
    obtain ⟨b1, e1, ha⟩ := applyEvents_split1 ha
    obtain ⟨b2, e2, e3⟩ := applyEvents_split ha
    have hv : (getValueType (asc "value")).simple = true := by decide +kernel
    have hd2 : (getValueType (asc "data")).simple = true := by decide +kernel
    refine goes_around hx (by rw [hm]; decide) hv (by exact hx) rfl ?_
    refine Goes.part (by exact hx) hc ?_ (fun c' h' => goes_blank (by exact hx) _ c' h')
    refine goes_container (x := { x with ty := getValueType (asc "value") }) (by exact hx) (by exact hm) (fun u => open_array) (fun u => close_array) e1 ?_ (build_of_one e3)
    refine Goes.part (by exact hx) ha' ?_ (fun c' h' => goes_blank (by exact hx) _ c' h')
    refine goes_around (by exact hx) (by show x.main ≠ _; rw [hm]; decide) hd2 (by exact hx) rfl ?_
    have := goes_items vs d hd hi { x with ty := .none } b1 b2 hx hm rfl e2
    exact this
  | .struct ms, n, h, hi, x, b, b', hx, hm, ha => by
    simp only [Stands] at h
    simp only [IntsAll] at hi
    simp only [calls] at ha
    obtain ⟨c, a, rfl, hc, hd⟩ := h
    obtain ⟨b1, e1, ha⟩ := applyEvents_split1 ha
    obtain ⟨b2, e2, e3⟩ := applyEvents_split ha
    have hv : (getValueType (asc "value")).simple = true := by decide +kernel
    refine goes_around hx (by rw [hm]; decide) hv (by exact hx) rfl ?_
    refine Goes.part (by exact hx) hc ?_ (fun c' h' => goes_blank (by exact hx) _ c' h')
    refine goes_container (x := { x with ty := getValueType (asc "value") }) (by exact hx) (by exact hm) (fun u => open_struct) (fun u => close_struct) e1 ?_ (build_of_one e3)
    exact goes_members ms a hd hi { x with ty := .none } b1 b2 hx hm rfl e2
theorem goes_items : ∀ (vs : List Value) (c : List Node), StandsItems (understood env.strtod) vs (parts c) → IntsAllItems (readable env.erange) vs → ∀ (x : X) (b b' : β),
    x.exc = none → x.main = .none → x.ty = .none → applyEvents B b (callsItems vs) = (b', none) → Goes env B want x b (saxList c) x b'
  | [], c, h, _, x, b, b', hx, hm, hty, ha => by
    simp only [StandsItems] at h
    simp only [callsItems, applyEvents] at ha
    cases ha
    exact goes_blank hx _ c h
  | v :: vs, c, h, hi, x, b, b', hx, hm, hty, ha => by
    simp only [StandsItems] at h
    simp only [IntsAllItems] at hi
    simp only [callsItems] at ha
    obtain ⟨n, r, hp, h1, h2⟩ := h
    obtain ⟨b1, e1, e2⟩ := applyEvents_split ha
    have g1 := goes_value v n h1 hi.1 x b b1 hx hm e1
    rw [← hty] at g1
    exact Goes.part hx hp g1 (fun c' h' => goes_items vs c' (by rw [h']; exact h2) hi.2 x b1 b' hx hm hty e2)
theorem goes_members : ∀ (ms : List (Bytes × Value)) (c : List Node), StandsMembers (understood env.strtod) ms (parts c) → IntsAllMembers (readable env.erange) ms →
    ∀ (x : X) (b b' : β), x.exc = none → x.main = .none → x.ty = .none → applyEvents B b (callsMembers ms) = (b', none) → Goes env B want x b (saxList c) x b'
  | [], c, h, _, x, b, b', hx, hm, hty, ha => by
    simp only [StandsMembers] at h
    simp only [callsMembers, applyEvents] at ha
    cases ha
    exact goes_blank hx _ c h
  | (k, v) :: ms, c, h, hi, x, b, b', hx, hm, hty, ha => by
    simp only [StandsMembers] at h
    simp only [IntsAllMembers] at hi
    simp only [callsMembers] at ha
    obtain ⟨d, r, t, val, kt, hp, hd, hk, ht, h1, h2⟩ := h
    cases hk
    obtain ⟨b1, e1, ha⟩ := applyEvents_split1 ha
    obtain ⟨b2, e2, e3⟩ := applyEvents_split ha
    have hm1 : (getValueType (asc "member")).simple = true := by decide +kernel
    have hn1 : (getValueType (asc "name")).simple = true := by decide +kernel
    have g1 : Goes env B want x b (Node.elem (asc "member") d).sax { x with ty := .none } b2 := by
      refine goes_around hx (by rw [hm]; decide) hm1 (by exact hx) rfl ?_
      refine Goes.part (by exact hx) hd (x1 := { x with ty := .none }) (b1 := b1) ?_ ?_
      · refine goes_simple (x := { x with ty := getValueType (asc "member") }) (x2 := x) (by exact hx) (by show x.main ≠ _; rw [hm]; decide) ht hn1 ?_
        unfold setValueData
        rw [show getValueType (asc "name") = .memberName by decide +kernel]
        simp only [hm]
        rw [if_neg (by decide), callNone_ok e1]
      · intro c' h'
        refine Goes.part (by exact hx) h' (goes_value v val h1 hi.1 { x with ty := .none } b1 b2 hx hm e2) ?_
        intro c'' h''
        exact goes_blank (by exact hx) _ c'' h''
    rw [← hty] at g1
    exact Goes.part hx hp g1 (fun c' h' => goes_members ms c' (by rw [h']; exact h2) hi.2 x b2 b' hx hm hty e3)
end

theorem goes_params : ∀ (vs : List Value) (c : List Node), StandsParams (understood env.strtod) vs (parts c) → IntsAllItems (readable env.erange) vs → ∀ (x : X) (b b' : β),
    x.exc = none → x.main = .none → x.ty = .none → applyEvents B b (callsItems vs) = (b', none) → Goes env B want x b (saxList c) x b'
  | [], c, h, _, x, b, b', hx, hm, hty, ha => by
    simp only [StandsParams] at h
    simp only [callsItems, applyEvents] at ha
    cases ha
    exact goes_blank hx _ c h
  | v :: vs, c, h, hi, x, b, b', hx, hm, hty, ha => by
    simp only [StandsParams] at h
    simp only [IntsAllItems] at hi
    simp only [callsItems] at ha
    obtain ⟨d, r, n, hp, hd, h1, h2⟩ := h
    obtain ⟨b1, e1, e2⟩ := applyEvents_split ha
    have hp1 : (getValueType (asc "param")).simple = true := by decide +kernel
    have g1 : Goes env B want x b (Node.elem (asc "param") d).sax { x with ty := .none } b1 := by
      refine goes_around hx (by rw [hm]; decide) hp1 (by exact hx) rfl ?_
      refine Goes.part (by exact hx) hd (goes_value v n h1 hi.1 { x with ty := getValueType (asc "param") } b b1 hx hm e1) ?_
      intro c' h'
      exact goes_blank (by exact hx) _ c' h'
    rw [← hty] at g1
    exact Goes.part hx hp g1 (fun c' h' => goes_params vs c' (by rw [h']; exact h2) hi.2 x b1 b' hx hm hty e2)

/-- The unmarshaller is asked for such messages. -/
def asked (req : Req) : Message → Prop
  | .call _ _ => req = .call ∨ req = .any
  | .response _ => req = .response ∨ req = .any
  | .fault _ _ => req = .response ∨ req = .any

theorem goes_call {req : Req} (hreq : req = .call ∨ req = .any) {name : Bytes} {args : List Value} {n : Node} (h : IsCall (understood env.strtod) name args n)
    (hi : IntsAllItems (readable env.erange) args) {x : X} (hx : x.exc = none) (hty : x.ty = .none) {b b' : β}
    (ha : applyEvents B b (.methodCall name :: callsItems args) = (b', none)) :
    Goes env B (some req) x b n.sax { x with main := .none, ty := .none } b' := by
  obtain ⟨c, m, p, t, rfl, hc, hk, ht, hp⟩ := h
  cases hk
  obtain ⟨b1, e1, e2⟩ := applyEvents_split1 ha
  have hmn : (getValueType (asc "methodName")).simple = true := by decide +kernel
  have hps : (getValueType (asc "params")).simple = true := by decide +kernel
  simp only [Node.sax]
  refine Goes.cons (x1 := { x with main := .call }) (b1 := b) (goes_start hx fun buf => ?_) (Goes.append (x1 := { x with main := .none, ty := .none }) (b1 := b') ?_ ?_)
  · unfold setValueType
    rw [show getValueType (asc "methodCall") = .call by decide +kernel]
    rcases hreq with rfl | rfl <;> simp [wanted]
  · refine Goes.part (by exact hx) hc (x1 := { x with main := .none, ty := .none }) (b1 := b1) ?_ ?_
    · refine goes_simple (x := { x with main := .call }) (x2 := { x with main := .none }) (by exact hx) (by show Ty.call ≠ _; decide) ht hmn ?_
      unfold setValueData
      rw [show getValueType (asc "methodName") = .methodName by decide +kernel]
      simp only [call_ok e1]
    · intro c' h'
      refine Goes.part (by exact hx) h' (x1 := { x with main := .none, ty := .none }) (b1 := b') ?_ (fun c' h' => goes_blank (by exact hx) _ c' h')
      refine goes_around (by exact hx) (by show Ty.none ≠ _; decide) hps (by exact hx) rfl ?_
      exact goes_params args p hp hi { x with main := .none, ty := .none } b1 b' hx rfl rfl e2
  · refine goes_stop (by exact hx) rfl fun buf => ?_
    unfold closeEntity
    rw [show getValueType (asc "methodCall") = .call by decide +kernel]
    simp

theorem goes_response {req : Req} (hreq : req = .response ∨ req = .any) {v : Value} {n : Node} (h : IsResponse (understood env.strtod) v n)
    (hi : IntsAll (readable env.erange) v) {x : X} (hx : x.exc = none) (hty : x.ty = .none) {b b' : β}
    (ha : applyEvents B b (.methodResponse :: calls v) = (b', none)) :
    Goes env B (some req) x b n.sax { x with main := .none, ty := .none } b' := by
  obtain ⟨c, p, rfl, hc, hp⟩ := h
  obtain ⟨b1, e1, e2⟩ := applyEvents_split1 ha
  simp only [Node.sax]
  refine Goes.cons (x1 := { x with main := .response }) (b1 := b) (goes_start hx fun buf => ?_) (Goes.append (x1 := { x with main := .none, ty := .none }) (b1 := b') ?_ ?_)
  · unfold setValueType
    rw [show getValueType (asc "methodResponse") = .response by decide +kernel]
    rcases hreq with rfl | rfl <;> simp [wanted]
  · refine Goes.part (by exact hx) hc (x1 := { x with main := .none, ty := .none }) (b1 := b') ?_ (fun c' h' => goes_blank (by exact hx) _ c' h')
    simp only [Node.sax]
    refine Goes.cons (x1 := { x with main := .none, ty := .none }) (b1 := b1) (goes_start (by exact hx) fun buf => ?_) (Goes.append (x1 := { x with main := .none, ty := .none }) (b1 := b') ?_ ?_)
    · unfold setValueType
      rw [show getValueType (asc "params") = .none by decide +kernel]
      simp [beginResponse, call_ok e1]
    · exact goes_params [v] p hp ⟨hi, trivial⟩ { x with main := .none, ty := .none } b1 b' hx rfl rfl (by simpa [callsItems] using e2)
    · refine goes_stop (by exact hx) rfl fun buf => ?_
      rw [closeEntity_simple (by decide +kernel)]
  · refine goes_stop (by exact hx) rfl fun buf => ?_
    unfold closeEntity
    rw [show getValueType (asc "methodResponse") = .response by decide +kernel]
    simp

theorem goes_fault {req : Req} (hreq : req = .response ∨ req = .any) {code : Int} {msg : Bytes} {n : Node} (h : IsFault (understood env.strtod) code msg n)
    (hi : IsI32 code) {x : X} (hx : x.exc = none) (hty : x.ty = .none) {b b' : β}
    (ha : applyEvents B b [.fault code msg] = (b', none)) :
    Goes env B (some req) x b n.sax { x with main := .fault, faultCode := 0, faultString := [], ty := .none } b' := by
  obtain ⟨c, f, val, rfl, hc, hf, hval⟩ := h
  simp only [Stands, StandsMembers] at hval
  obtain ⟨vc, a, rfl, hvc, hmem⟩ := hval
  obtain ⟨c1, r1, t1, v1, k1, hp1, hd1, hk1, ht1, ⟨tag, htag, hv1⟩, c2, r2, t2, v2, k2, hp2, hd2, hk2, ht2, ⟨s, hs, hv2⟩, hr2⟩ := hmem
  cases hk1
  cases hk2
  cases hs
  have hb := build_of_one ha
  have hread : readable env.erange code := by
    unfold IsI32 at hi
    exact ⟨by unfold IsI64; omega, fun _ => by omega⟩
  have hval1 : (getValueType (asc "value")).simple = true := by decide +kernel
  have hmem1 : (getValueType (asc "member")).simple = true := by decide +kernel
  have hnam1 : (getValueType (asc "name")).simple = true := by decide +kernel
  have hg : getValueType tag = .int := by rcases htag with rfl | rfl | rfl <;> decide +kernel
  subst hp2
  simp only [Node.sax]
  refine Goes.cons (x1 := { x with main := .response }) (b1 := b) (goes_start hx fun buf => ?_)
    (Goes.append (x1 := { x with main := .fault, faultCode := 0, faultString := [], ty := .none }) (b1 := b') ?_ ?_)
  · unfold setValueType
    rw [show getValueType (asc "methodResponse") = .response by decide +kernel]
    rcases hreq with rfl | rfl <;> simp [wanted]
  · refine Goes.part (by exact hx) hc (x1 := { x with main := .fault, faultCode := 0, faultString := [], ty := .none }) (b1 := b') ?_ (fun c' h' => goes_blank (by exact hx) _ c' h')
    simp only [Node.sax]
    refine Goes.cons (x1 := { x with main := .fault }) (b1 := b) (goes_start (by exact hx) fun buf => ?_)
      (Goes.append (x1 := { x with main := .fault, faultCode := code, faultString := msg, ty := .none }) (b1 := b) ?_ ?_)
    · unfold setValueType
      rw [show getValueType (asc "fault") = .fault by decide +kernel]
      rcases hreq with rfl | rfl <;> simp [wanted]
    · refine Goes.part (by exact hx) hf (x1 := { x with main := .fault, faultCode := code, faultString := msg, ty := .none }) (b1 := b) ?_ (fun c' h' => goes_blank (by exact hx) _ c' h')
      refine goes_around (by exact hx) (by show Ty.fault ≠ _; decide) hval1 (by exact hx) rfl ?_
      refine Goes.part (by exact hx) hvc (x1 := { x with main := .fault, faultCode := code, faultString := msg, ty := .none }) (b1 := b) ?_ (fun c' h' => goes_blank (by exact hx) _ c' h')
      simp only [Node.sax]
      refine Goes.cons (x1 := { x with main := .fault, ty := getValueType (asc "value") }) (b1 := b) (goes_start (by exact hx) fun buf => ?_)
        (Goes.append (x1 := { x with main := .fault, faultCode := code, faultString := msg, ty := .none }) (b1 := b) ?_ ?_)
      · unfold setValueType
        rw [show getValueType (asc "struct") = .struct by decide +kernel]
        simp [beginResponse]
      · refine Goes.part (by exact hx) hp1 (x1 := { x with main := .fault, faultCode := code, ty := .none }) (b1 := b) ?_ (fun c' h' => ?_)
        · refine goes_around (by exact hx) (by show Ty.fault ≠ _; decide) hmem1 (by exact hx) rfl ?_
          refine Goes.part (by exact hx) hd1 (x1 := { x with main := .fault, ty := .none }) (b1 := b) ?_ (fun c' h' => ?_)
          · refine goes_simple (x := { x with main := .fault, ty := getValueType (asc "member") }) (x2 := { x with main := .fault }) (by exact hx) (by show Ty.fault ≠ _; decide) ht1 hnam1 ?_
            unfold setValueData
            rw [show getValueType (asc "name") = .memberName by decide +kernel]
            simp
          · refine Goes.part (by exact hx) h' (x1 := { x with main := .fault, faultCode := code, ty := .none }) (b1 := b) ?_ (fun c' h' => goes_blank (by exact hx) _ c' h')
            refine goes_typed (x := { x with main := .fault, ty := .none }) (x2 := { x with main := .fault, faultCode := code }) (by exact hx) (by show Ty.fault ≠ _; decide) hv1 (by rw [hg]; rfl) (by exact hx) ?_
            unfold setValueData
            rw [hg]
            simp only
            rw [setInt_ok hread]
            simp
        · refine Goes.part (by exact hx) h' (x1 := { x with main := .fault, faultCode := code, faultString := msg, ty := .none }) (b1 := b) ?_ (fun c' h' => goes_blank (by exact hx) _ c' (by rw [h']; exact hr2))
          refine goes_around (by exact hx) (by show Ty.fault ≠ _; decide) hmem1 (by exact hx) rfl ?_
          refine Goes.part (by exact hx) hd2 (x1 := { x with main := .fault, faultCode := code, ty := .none }) (b1 := b) ?_ (fun c' h' => ?_)
          · refine goes_simple (x := { x with main := .fault, faultCode := code, ty := getValueType (asc "member") }) (x2 := { x with main := .fault, faultCode := code }) (by exact hx) (by show Ty.fault ≠ _; decide) ht2 hnam1 ?_
            unfold setValueData
            rw [show getValueType (asc "name") = .memberName by decide +kernel]
            simp
          · refine Goes.part (by exact hx) h' (x1 := { x with main := .fault, faultCode := code, faultString := msg, ty := .none }) (b1 := b) ?_ (fun c' h' => goes_blank (by exact hx) _ c' h')
            rcases hv2 with hv2 | ⟨vc2, rfl, hv2⟩
            · refine goes_typed (x := { x with main := .fault, faultCode := code, ty := .none }) (x2 := { x with main := .fault, faultCode := code, faultString := msg }) (by exact hx) (by show Ty.fault ≠ _; decide) hv2 (by decide +kernel) (by exact hx) ?_
              unfold setValueData
              rw [show getValueType (asc "string") = .string by decide +kernel]
              simp
            · refine goes_simple (x := { x with main := .fault, faultCode := code, ty := .none }) (x2 := { x with main := .fault, faultCode := code, faultString := msg }) (by exact hx) (by show Ty.fault ≠ _; decide) hv2 (by decide +kernel) ?_
              rw [show getValueType (asc "value") = .string by decide +kernel]
              unfold setValueData
              simp
      · refine goes_stop (by exact hx) rfl fun buf => ?_
        unfold closeEntity
        rw [show getValueType (asc "struct") = .struct by decide +kernel]
        simp
    · refine goes_stop (by exact hx) rfl fun buf => ?_
      unfold closeEntity
      rw [show getValueType (asc "fault") = .fault by decide +kernel]
      simp only [if_true]
      rw [i32_u32 hi, call_ok hb]
  · refine goes_stop (by exact hx) rfl fun buf => ?_
    unfold closeEntity
    rw [show getValueType (asc "methodResponse") = .response by decide +kernel]
    simp

/-- What the events of a message do. -/
theorem sax_message {req : Req} {msg : Message} (hreq : asked req msg) {n : Node} (h : msg.Is (understood env.strtod) n) (hi : msg.IntsAll (readable env.erange))
    {x : X} (hx : x.exc = none) (hty : x.ty = .none) {b b' : β} (ha : applyEvents B b msg.calls = (b', none)) :
    ∃ x', saxAll env B (some req) x b n.sax = (x', b') ∧ x'.exc = none ∧ x'.ty = .none ∧ x'.ver = x.ver ∧ x'.check = x.check := by
  cases msg with
  | call name args =>
    obtain ⟨t, ht⟩ := goes_call hreq h hi hx hty ha x.buf
    exact ⟨_, ht, hx, rfl, rfl, rfl⟩
  | response v =>
    obtain ⟨t, ht⟩ := goes_response hreq h hi hx hty ha x.buf
    exact ⟨_, ht, hx, rfl, rfl, rfl⟩
  | fault code m =>
    obtain ⟨t, ht⟩ := goes_fault hreq h hi hx hty ha x.buf
    exact ⟨_, ht, hx, rfl, rfl, rfl⟩

end XmlUnMarshaller
end Frpc
