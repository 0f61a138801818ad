import Verif.Proofs.XmlChunks
/-! # What a successful run of the XML unmarshaller tells, for any parser -/
namespace Frpc
namespace XmlUnMarshaller
open Spec.Xml Spec.XmlRpc BinUnMarshaller

variable {β : Type} {env : Env} {B : Builder β} {want : Option Req}

/-- With another version and check. -/
def mark (v : Version) (c : Bool) (u : X) : X := { u with ver := v, check := c }

/-- The same on the result of a step. -/
def mark3 (v : Version) (c : Bool) (q : X × β × Option Err) : X × β × Option Err := (mark v c q.1, q.2)

theorem begin_mark (v : Version) (c : Bool) (u : X) (b : β) : beginResponse B (mark v c u) b = mark3 v c (beginResponse B u b) := by
  unfold beginResponse
  generalize call B b .methodResponse = q
  obtain ⟨b1, o⟩ := q
  by_cases h : u.main = .response
  · rw [if_pos h, if_pos (show (mark v c u).main = _ from h)]
    cases o <;> rfl
  · rw [if_neg h, if_neg (show ¬ (mark v c u).main = _ from h)]
    rfl

theorem type_mark (v : Version) (c : Bool) (n : Bytes) (u : X) (b : β) : setValueType B want n (mark v c u) b = mark3 v c (setValueType B want n u b) := by
  unfold setValueType
  rw [begin_mark]
  generalize beginResponse B u b = q
  obtain ⟨w, b1, o⟩ := q
  simp only [mark3]
  split
  · cases o with
    | some e => rfl
    | none =>
      simp only
      by_cases h : w.main = .fault
      · rw [if_pos h, if_pos (show (mark v c w).main = _ from h)]
      · rw [if_neg h, if_neg (show ¬ (mark v c w).main = _ from h)]
        generalize call B b1 (.openStruct 0) = r
        obtain ⟨b2, o2⟩ := r
        cases o2 <;> rfl
  · cases o with
    | some e => rfl
    | none =>
      simp only [mark]
      generalize call B b1 (.openArray 0) = r
      obtain ⟨b2, o2⟩ := r
      cases o2 <;> rfl
  · split <;> rfl
  · split <;> rfl
  · split <;> rfl
  · cases o <;> rfl

theorem callNone_mark (v : Version) (c : Bool) (u : X) (b : β) (e : Event) : callNone B (mark v c u) b e = mark3 v c (callNone B u b e) := by
  unfold callNone
  generalize call B b e = q
  obtain ⟨b1, o⟩ := q
  cases o <;> rfl

theorem int_mark (v : Version) (c : Bool) (u : X) (b : β) (s : Bytes) : setInt env B (mark v c u) b s = mark3 v c (setInt env B u b s) := by
  unfold setInt
  split
  · rfl
  · split
    · rfl
    · rw [show (mark v c u).main = u.main from rfl]
      split
      · rfl
      · exact callNone_mark _ _ _ _ _

theorem data_mark (v : Version) (c : Bool) (u : X) (b : β) (s : Bytes) : setValueData env B (mark v c u) b s = mark3 v c (setValueData env B u b s) := by
  unfold setValueData
  rw [show (mark v c u).ty = u.ty from rfl, show (mark v c u).main = u.main from rfl]
  split
  · split <;> rfl
  · split
    · rfl
    · exact callNone_mark _ _ _ _ _
  · simp only
    split
    · exact callNone_mark _ _ _ _ _
    · rfl
  · exact int_mark _ _ _ _ _
  · split
    · rfl
    · exact callNone_mark _ _ _ _ _
  · exact callNone_mark _ _ _ _ _
  · exact callNone_mark _ _ _ _ _
  · exact callNone_mark _ _ _ _ _
  · split
    · rfl
    · exact callNone_mark _ _ _ _ _
  · rfl

theorem close_mark (v : Version) (c : Bool) (n : Bytes) (u : X) (b : β) : closeEntity B n (mark v c u) b = mark3 v c (closeEntity B n u b) := by
  unfold closeEntity
  by_cases h : u.main = .fault
  · rw [if_pos (show u.main = _ from h), if_pos (show (mark v c u).main = _ from h)]
    by_cases hn : getValueType n = .fault
    · rw [if_pos hn, if_pos hn]
      simp only [show (mark v c u).faultCode = u.faultCode from rfl, show (mark v c u).faultString = u.faultString from rfl]
      generalize call B b (.fault (i32 (u32 u.faultCode)) u.faultString) = q
      obtain ⟨b1, o⟩ := q
      cases o <;> rfl
    · rw [if_neg hn, if_neg hn]
      rfl
  · rw [if_neg (show ¬ u.main = _ from h), if_neg (show ¬ (mark v c u).main = _ from h)]
    split <;> rfl

theorem sax_mark (v : Version) (c : Bool) (u : X) (b : β) (e : Sax) : sax env B want (mark v c u) b e = (mark v c (sax env B want u b e).1, (sax env B want u b e).2) := by
  unfold sax
  rw [show (mark v c u).exc = u.exc from rfl]
  split
  · rfl
  · cases e with
    | start n =>
      simp only [onStart, type_mark]
      generalize setValueType B want n u b = q
      obtain ⟨w, b1, o⟩ := q
      cases o <;> rfl
    | stop n =>
      simp only [onStop, data_mark, show (mark v c u).buf = u.buf from rfl]
      generalize setValueData env B u b u.buf = q
      obtain ⟨w, b1, o⟩ := q
      cases o with
      | some e => rfl
      | none =>
        simp only [mark3, close_mark]
        generalize closeEntity B n w b1 = q
        obtain ⟨w, b1, o⟩ := q
        cases o <;> rfl
    | text s => rfl

theorem saxAll_mark (v : Version) (c : Bool) : ∀ (evs : List Sax) (u : X) (b : β),
    saxAll env B want (mark v c u) b evs = (mark v c (saxAll env B want u b evs).1, (saxAll env B want u b evs).2)
  | [], _, _ => rfl
  | e :: evs, u, b => by
    simp only [saxAll, sax_mark]
    exact saxAll_mark v c evs _ _

theorem sniff_marks (d : Bytes) (u : X) : ∃ v c, (sniff d u).1 = mark v c u := by
  unfold sniff
  split
  · simp only
    split
    · exact ⟨_, _, rfl⟩
    · split
      · split
        · exact ⟨_, _, rfl⟩
        · exact ⟨_, u.check, rfl⟩
        · exact ⟨u.ver, u.check, rfl⟩
      · exact ⟨_, _, rfl⟩
  · exact ⟨u.ver, u.check, rfl⟩

theorem mark_mark (v v' : Version) (c c' : Bool) (u : X) : mark v c (mark v' c' u) = mark v c u := rfl

/-- One piece: the callbacks, the parser's error before the one of the callbacks. -/
theorem unMarshall_sax {P : Parser} {prev : List Bytes} {u : X} {b : β} {d : Bytes} :
    (∃ e, sniff d u = ((sniff d u).1, some e) ∧ unMarshall env P B want prev u b d = ((sniff d u).1, b, some e)) ∨
    ∃ v c, unMarshall env P B want prev u b d = (mark v c (saxAll env B want u b (P prev d).1).1, (saxAll env B want u b (P prev d).1).2,
      if (P prev d).2 then some .stream else (saxAll env B want u b (P prev d).1).1.exc) := by
  obtain ⟨v, c, hm⟩ := sniff_marks d u
  unfold unMarshall
  generalize hs : sniff d u = q at hm
  obtain ⟨w, o⟩ := q
  cases o with
  | some e => exact .inl ⟨e, rfl, rfl⟩
  | none =>
    simp only at hm
    subst hm
    refine .inr ⟨v, c, ?_⟩
    simp only [saxAll_mark]
    split <;> rfl

/-- What success of the pieces tells. -/
theorem unMarshallAll_ok {P : Parser} {req : Req} : ∀ (ds prev : List Bytes) (u u' : X) (b b' : β), u.exc = none →
    unMarshallAll env P B req prev u b ds = (u', b', none) →
    fine P prev ds ∧ (saxAll env B (some req) u b (events P prev ds)).1.exc = none ∧ (saxAll env B (some req) u b (events P prev ds)).2 = b' ∧
      ∃ v c, u' = mark v c (saxAll env B (some req) u b (events P prev ds)).1
  | [], prev, u, u', b, b', hu, h => by
    simp only [unMarshallAll, Prod.mk.injEq] at h
    obtain ⟨rfl, rfl, -⟩ := h
    exact ⟨trivial, hu, rfl, u.ver, u.check, rfl⟩
  | d :: ds, prev, u, u', b, b', hu, h => by
    unfold unMarshallAll at h
    rcases unMarshall_sax (env := env) (P := P) (B := B) (want := some req) (prev := prev) (u := u) (b := b) (d := d) with ⟨e, -, h1⟩ | ⟨v, c, h1⟩
    · rw [h1] at h
      cases h
    · rw [h1] at h
      simp only [events, fine, saxAll_append]
      generalize saxAll env B (some req) u b (P prev d).1 = q at h
      obtain ⟨w, b1⟩ := q
      cases hp : (P prev d).2 with
      | true => rw [hp] at h; cases h
      | false =>
        rw [hp] at h
        simp only at h
        cases he : w.exc with
        | some e => simp only [he] at h; cases h
        | none =>
          simp only [he] at h
          obtain ⟨h2, h3, h4, v2, c2, h5⟩ := unMarshallAll_ok ds (prev ++ [d]) _ _ _ _ (by exact he) h
          rw [saxAll_mark] at h3 h4 h5
          exact ⟨⟨rfl, h2⟩, h3, h4, v2, c2, h5⟩

/-- What success tells. -/
theorem run_ok {P : Parser} {req : Req} {ds : List Bytes} {u : X} {b b' : β} (h : run env P B req b ds = (u, b', none)) :
    fine P [] ds ∧ (P ds []).2 = false ∧ ∃ w b1 x, saxAll env B (some req) init b (events P [] ds) = (w, b1) ∧ w.exc = none ∧
      saxAll env B none w b1 (P ds []).1 = (x, b') ∧ x.exc = none ∧ x.ty = .none := by
  unfold run at h
  generalize hr : unMarshallAll env P B req [] init b ds = r at h
  obtain ⟨w, b1, o⟩ := r
  cases o with
  | some e => cases h
  | none =>
    obtain ⟨h1, h2, h3, v, c, h4⟩ := unMarshallAll_ok _ _ _ _ _ _ rfl hr
    simp only at h
    unfold finish unMarshall at h
    rw [sniff_nil] at h
    subst h4
    simp only [saxAll_mark] at h
    generalize hq : saxAll env B (some req) init b (events P [] ds) = q at *
    obtain ⟨w, b2⟩ := q
    simp only at h2 h3 h
    subst h3
    generalize hq2 : saxAll env B none w b2 (P ds []).1 = q at *
    obtain ⟨x, b3⟩ := q
    cases hp : (P ds []).2 with
    | true => rw [hp] at h; cases h
    | false =>
      rw [hp] at h
      simp only [Bool.false_eq_true, if_false] at h
      cases he : x.exc with
      | some e => simp only [mark, he] at h; cases h
      | none =>
        simp only [mark, he] at h
        by_cases ht : x.ty = .none
        · simp only [ht, ne_eq, not_true_eq_false, if_false, Prod.mk.injEq] at h
          exact ⟨h1, rfl, w, b2, x, rfl, h2, by rw [hq2]; simp [h.2.1], he, ht⟩
        · simp only [ne_eq, ht, not_false_eq_true, if_true] at h
          cases h

/-- Handlers that want no message find no fault only where all find none. -/
theorem saxAll_none : ∀ (evs : List Sax) (u : X) (b : β), (saxAll env B none u b evs).1.exc = none → saxAll env B want u b evs = saxAll env B none u b evs
  | [], _, _, _ => rfl
  | e :: evs, u, b, h => by
    have h0 : saxAll env B none u b (e :: evs) = saxAll env B none u b ([e] ++ evs) := rfl
    have h1 := exc_prefix (a := [e]) (h0 ▸ h)
    simp only [saxAll] at h h1 ⊢
    have : sax env B want u b e = sax env B none u b e := by
      cases e with
      | start n =>
        unfold sax at h1 ⊢
        cases he : u.exc with
        | some e => rfl
        | none =>
          simp only [he, onStart] at h1 ⊢
          unfold setValueType at h1 ⊢
          generalize getValueType n = t at *
          cases t <;> simp [wanted, caught] at h1 ⊢
      | stop n => rfl
      | text s => rfl
    rw [this]
    exact saxAll_none evs _ _ h

/-- All events the parser reports. -/
def reported (P : Parser) (ds : List Bytes) : List Sax := events P [] ds ++ (P ds []).1

/-- What success tells, all events together. -/
theorem run_all {P : Parser} {req : Req} {ds : List Bytes} {u : X} {b b' : β} (h : run env P B req b ds = (u, b', none)) :
    ∃ x, saxAll env B (some req) init b (reported P ds) = (x, b') ∧ x.exc = none ∧ x.ty = .none := by
  obtain ⟨-, -, w, b1, x, h1, h2, h3, h4, h5⟩ := run_ok h
  refine ⟨x, ?_, h4, h5⟩
  unfold reported
  rw [saxAll_append, h1]
  simp only
  rw [saxAll_none _ _ _ (by rw [h3]; exact h4), h3]

/-! ## Builder calls -/

theorem call_calls {b b1 : β} {e : Event} (h : call B b e = (b1, none)) : applyEvents B b [e] = (b1, none) := by
  unfold call at h
  unfold applyEvents
  split at h
  · rename_i hb
    cases h
    rw [hb]
    rfl
  · cases h

/-- The builder went from one state to another by calls that all succeeded. -/
def Built (B : Builder β) (b b' : β) : Prop := ∃ calls, applyEvents B b calls = (b', none)

theorem Built.refl (b : β) : Built B b b := ⟨[], rfl⟩

theorem Built.trans {b b1 b2 : β} (h1 : Built B b b1) (h2 : Built B b1 b2) : Built B b b2 := by
  obtain ⟨c1, h1⟩ := h1
  obtain ⟨c2, h2⟩ := h2
  exact ⟨c1 ++ c2, by rw [applyEvents_append, h1]; exact h2⟩

theorem Built.call {b b1 : β} {e : Event} {o : Option Err} (h : call B b e = (b1, o)) : Built B b b1 := by
  cases o with
  | none => exact ⟨[e], call_calls h⟩
  | some x =>
    unfold XmlUnMarshaller.call at h
    split at h
    · cases h
    · cases h
      exact .refl _

theorem built_begin (u : X) (b : β) : Built B b (beginResponse B u b).2.1 := by
  unfold beginResponse
  generalize hc : call B b .methodResponse = q
  obtain ⟨b1, o⟩ := q
  split
  · cases o <;> exact .call hc
  · exact .refl _

theorem built_callNone (u : X) (b : β) (e : Event) : Built B b (callNone B u b e).2.1 := by
  unfold callNone
  generalize hc : call B b e = q
  obtain ⟨b1, o⟩ := q
  cases o <;> exact .call hc

theorem built_type (n : Bytes) (u : X) (b : β) : Built B b (setValueType B want n u b).2.1 := by
  have hb := built_begin (B := B) u b
  unfold setValueType
  generalize beginResponse B u b = q at hb
  obtain ⟨u1, b1, o⟩ := q
  simp only at hb
  split
  · cases o with
    | some e => exact hb
    | none =>
      simp only
      split
      · exact hb
      · generalize hc : call B b1 (.openStruct 0) = r
        obtain ⟨b2, o2⟩ := r
        cases o2 <;> exact hb.trans (.call hc)
  · cases o with
    | some e => exact hb
    | none =>
      simp only
      generalize hc : call B b1 (.openArray 0) = r
      obtain ⟨b2, o2⟩ := r
      cases o2 <;> exact hb.trans (.call hc)
  · split <;> exact .refl _
  · split <;> exact .refl _
  · split <;> exact .refl _
  · cases o <;> exact hb

theorem built_data (u : X) (b : β) (s : Bytes) : Built B b (setValueData env B u b s).2.1 := by
  unfold setValueData
  split
  · generalize hc : call B b (.methodCall s) = q
    obtain ⟨b1, o⟩ := q
    cases o <;> exact .call hc
  · split
    · exact .refl _
    · exact built_callNone _ _ _
  · simp only
    split
    · exact built_callNone _ _ _
    · exact .refl _
  · unfold setInt
    split
    · exact .refl _
    · split
      · exact .refl _
      · split
        · exact .refl _
        · exact built_callNone _ _ _
  · split
    · exact .refl _
    · exact built_callNone _ _ _
  · exact built_callNone _ _ _
  · exact built_callNone _ _ _
  · exact built_callNone _ _ _
  · split
    · exact .refl _
    · exact built_callNone _ _ _
  · exact .refl _

theorem built_close (n : Bytes) (u : X) (b : β) : Built B b (closeEntity B n u b).2.1 := by
  unfold closeEntity
  simp only
  split
  · split
    · generalize hc : call B b (.fault (i32 (u32 u.faultCode)) u.faultString) = q
      obtain ⟨b1, o⟩ := q
      cases o <;> exact .call hc
    · exact .refl _
  · split
    · exact .call (o := (call B b .closeStruct).2) rfl
    · exact .call (o := (call B b .closeArray).2) rfl
    · exact .refl _

theorem caught_b (q : X × β × Option Err) : (caught q).2 = q.2.1 := by
  obtain ⟨v, b, o⟩ := q
  cases o <;> rfl

theorem built_sax (u : X) (b : β) (e : Sax) : Built B b (sax env B want u b e).2 := by
  unfold sax
  split
  · exact .refl _
  · cases e with
    | start n =>
      simp only [caught_b, onStart]
      have h := built_type (B := B) (want := want) n u b
      generalize setValueType B want n u b = q at h
      obtain ⟨v, b, o⟩ := q
      cases o <;> exact h
    | stop n =>
      simp only [caught_b, onStop]
      have h := built_data (env := env) (B := B) u b u.buf
      generalize setValueData env B u b u.buf = q at h
      obtain ⟨v, b, o⟩ := q
      cases o with
      | some e => exact h
      | none => exact h.trans (built_close n v b)
    | text s => exact .refl _

theorem built_all : ∀ (evs : List Sax) (u : X) (b : β), Built B b (saxAll env B want u b evs).2
  | [], _, _ => .refl _
  | e :: evs, u, b => by
    simp only [saxAll]
    exact (built_sax u b e).trans (built_all evs _ _)

/-! ## Start tags -/

/-- Where the handlers find no fault at the end they found none at a start tag. -/
theorem start_fine {u : X} {b : β} {a c : List Sax} {n : Bytes} (h : (saxAll env B want u b (a ++ .start n :: c)).1.exc = none) :
    ∃ w b1, saxAll env B want u b a = (w, b1) ∧ w.exc = none ∧ (setValueType B want n w b1).2.2 = none := by
  rw [show a ++ Sax.start n :: c = (a ++ [.start n]) ++ c by simp] at h
  have h1 := exc_prefix h
  have h2 := exc_prefix h1
  rw [saxAll_append] at h1
  generalize saxAll env B want u b a = q at h1 h2
  obtain ⟨w, b1⟩ := q
  refine ⟨w, b1, rfl, h2, ?_⟩
  simp only [saxAll, sax_start h2, onStart] at h1
  generalize setValueType B want n w b1 = r at h1
  obtain ⟨v, b2, o⟩ := r
  cases o with
  | none => rfl
  | some e => simp [caught] at h1

/-- Elements whose text the reader takes. -/
def Ty.leaf : Ty → Bool
  | .int | .bool | .double | .string | .dateTime | .binary | .null | .methodName | .memberName => true
  | _ => false

theorem type_leaf {n : Bytes} {u w : X} {b b1 : β} (hl : (getValueType n).leaf = true) (h : setValueType B want n u b = (w, b1, none)) : w.ty = getValueType n := by
  unfold setValueType at h
  generalize beginResponse B u b = q at h
  obtain ⟨v, b2, o⟩ := q
  generalize getValueType n = t at *
  cases t <;> simp [Ty.leaf] at hl <;> cases o <;> simp at h <;> obtain ⟨rfl, -⟩ := h <;> rfl

theorem saxAll_texts {u : X} {b : β} (h : u.exc = none) : ∀ (ts : List Bytes), ∀ buf,
    saxAll env B want { u with buf := buf } b (ts.map .text) = ({ u with buf := buf ++ ts.flatten }, b)
  | [], buf => by simp [saxAll]
  | t :: ts, buf => by
    simp only [List.map_cons, saxAll]
    rw [sax_text (u := { u with buf := buf }) h]
    have := saxAll_texts (b := b) h ts (buf ++ t)
    simp only at this ⊢
    rw [this]
    simp

/-- After the start tag of such an element and texts. -/
theorem leaf_open {u : X} {b : β} {a : List Sax} {n : Bytes} {ts : List Bytes} (hl : (getValueType n).leaf = true)
    (h : (saxAll env B want u b (a ++ .start n :: ts.map .text)).1.exc = none) :
    ∃ w b1, saxAll env B want u b (a ++ .start n :: ts.map .text) = (w, b1) ∧ w.exc = none ∧ w.ty = getValueType n ∧ w.buf = ts.flatten := by
  obtain ⟨w, b1, h1, h2, h3⟩ := start_fine h
  rw [saxAll_append, h1] at h ⊢
  simp only [saxAll, sax_start h2, onStart] at h ⊢
  generalize hr : setValueType B want n w b1 = r at h h3
  obtain ⟨v, b2, o⟩ := r
  simp only at h3
  subst h3
  have hty := type_leaf hl hr
  simp only [caught] at h ⊢
  have hv : v.exc = none := exc_prefix (a := []) (c := ts.map .text) (u := { v with buf := [] }) (b := b2) (by simpa using h)
  rw [saxAll_texts hv ts []] at h ⊢
  exact ⟨_, _, rfl, h, hty, by simp⟩

/-- The text of such an element was taken without fault. -/
theorem leaf_fine {u : X} {b : β} {evs : List Sax} {n m : Bytes} {ts : List Bytes} (hl : (getValueType n).leaf = true)
    (h : (saxAll env B want u b evs).1.exc = none) (hi : .start n :: (ts.map .text ++ [.stop m]) <:+: evs) :
    ∃ w b1, w.ty = getValueType n ∧ (setValueData env B w b1 ts.flatten).2.2 = none := by
  obtain ⟨a, c, rfl⟩ := hi
  have h1 := exc_prefix h
  rw [show a ++ Sax.start n :: (ts.map .text ++ [.stop m]) = (a ++ .start n :: ts.map .text) ++ [.stop m] by simp] at h1
  have h2 := exc_prefix h1
  obtain ⟨w, b1, h3, h4, h5, h6⟩ := leaf_open hl h2
  rw [saxAll_append, h3] at h1
  simp only [saxAll, sax_stop h4, onStop, h6] at h1
  refine ⟨w, b1, h5, ?_⟩
  generalize setValueData env B w b1 ts.flatten = r at h1
  obtain ⟨v, b2, o⟩ := r
  cases o with
  | none => rfl
  | some e => simp [caught] at h1

/-! ## Pieces that fail -/

theorem unMarshallAll_prefix {P : Parser} {req : Req} : ∀ (ds prev : List Bytes) (u : X) (b : β), ∃ k,
    (unMarshallAll env P B req prev u b ds).2.1 = (saxAll env B (some req) u b ((events P prev ds).take k)).2
  | [], prev, u, b => ⟨0, rfl⟩
  | d :: ds, prev, u, b => by
    unfold unMarshallAll
    simp only [events]
    rcases unMarshall_sax (env := env) (P := P) (B := B) (want := some req) (prev := prev) (u := u) (b := b) (d := d) with ⟨e, -, h1⟩ | ⟨v, c, h1⟩
    · rw [h1]
      exact ⟨0, rfl⟩
    · rw [h1]
      generalize ho : (if (P prev d).2 then some Err.stream else (saxAll env B (some req) u b (P prev d).1).1.exc) = o
      cases o with
      | some e => exact ⟨(P prev d).1.length, by simp⟩
      | none =>
        simp only
        obtain ⟨k, hk⟩ := unMarshallAll_prefix ds (prev ++ [d]) (mark v c (saxAll env B (some req) u b (P prev d).1).1) (saxAll env B (some req) u b (P prev d).1).2
        refine ⟨(P prev d).1.length + k, ?_⟩
        rw [hk, List.take_length_add_append, saxAll_append, saxAll_mark]

/-! ## A builder that fails late -/

/-- The builder that never fails: after the first error it remembers the error and does nothing. -/
def patient (B : Builder β) : Builder (β × Option Err) where
  build q e := match q with
    | (b, some x) => .ok (b, some x)
    | (b, none) => match B.build b e with
      | .ok b' => .ok (b', none)
      | .error x => .ok (b, some x)

theorem patient_none {b : β} {e : Event} : call (patient B) (b, none) e = (call B b e, none) := by
  unfold call
  simp only [patient]
  split
  · split at * <;> simp_all
  · split at * <;> simp_all

theorem patient_some {b : β} {x : Err} {e : Event} : call (patient B) (b, some x) e = ((b, some x), none) := rfl

theorem patient_apply : ∀ (es : List Event) (b : β), applyEvents (patient B) (b, none) es = (applyEvents B b es, none)
  | [], b => rfl
  | e :: es, b => by
    unfold applyEvents
    cases h : B.build b e with
    | ok b' =>
      have : (patient B).build (b, none) e = .ok (b', none) := by simp [patient, h]
      rw [this]
      exact patient_apply es b'
    | error x =>
      have : (patient B).build (b, none) e = .ok (b, some x) := by simp [patient, h]
      rw [this]
      simp only
      exact patient_stuck es b x
where
  patient_stuck : ∀ (es : List Event) (b : β) (x : Err), applyEvents (patient B) (b, some x) es = ((b, some x), none)
    | [], _, _ => rfl
    | _ :: es, b, x => by
      unfold applyEvents
      exact patient_stuck es b x

/-- A step with the builder and with the patient one: the same, or the error the patient one remembers. -/
def Alike (q : X × β × Option Err) (p : X × (β × Option Err) × Option Err) : Prop :=
  q.2.1 = p.2.1.1 ∧ (p.2.1.2 = none → q.1 = p.1 ∧ q.2.2 = p.2.2) ∧ (∀ x, p.2.1.2 = some x → q.2.2 = some x)

theorem stuck_begin (u : X) (b : β) (x : Err) : (beginResponse (patient B) u (b, some x)).2.1 = (b, some x) := by
  unfold beginResponse
  rw [patient_some]
  split <;> rfl

theorem stuck_callNone (u : X) (b : β) (x : Err) (e : Event) : (callNone (patient B) u (b, some x) e).2.1 = (b, some x) := by
  unfold callNone
  rw [patient_some]

theorem stuck_type (n : Bytes) (u : X) (b : β) (x : Err) : (setValueType (patient B) want n u (b, some x)).2.1 = (b, some x) := by
  have h := stuck_begin (B := B) u b x
  unfold setValueType
  generalize beginResponse (patient B) u (b, some x) = q at h
  obtain ⟨u1, b1, o⟩ := q
  simp only at h
  subst h
  split
  · cases o with
    | some e => rfl
    | none => simp only [patient_some]; split <;> rfl
  · cases o <;> rfl
  · split <;> rfl
  · split <;> rfl
  · split <;> rfl
  · cases o <;> rfl

theorem stuck_data (u : X) (b : β) (x : Err) (s : Bytes) : (setValueData env (patient B) u (b, some x) s).2.1 = (b, some x) := by
  unfold setValueData
  split
  · rw [patient_some]
  · split
    · rfl
    · exact stuck_callNone _ _ _ _
  · simp only
    split
    · exact stuck_callNone _ _ _ _
    · rfl
  · unfold setInt
    split
    · rfl
    · split
      · rfl
      · split
        · rfl
        · exact stuck_callNone _ _ _ _
  · split
    · rfl
    · exact stuck_callNone _ _ _ _
  · exact stuck_callNone _ _ _ _
  · exact stuck_callNone _ _ _ _
  · exact stuck_callNone _ _ _ _
  · split
    · rfl
    · exact stuck_callNone _ _ _ _
  · rfl

theorem stuck_close (n : Bytes) (u : X) (b : β) (x : Err) : (closeEntity (patient B) n u (b, some x)).2.1 = (b, some x) := by
  unfold closeEntity
  simp only [patient_some]
  split
  · split <;> rfl
  · split <;> rfl

theorem stuck_sax (u : X) (b : β) (x : Err) (e : Sax) : (sax env (patient B) want u (b, some x) e).2 = (b, some x) := by
  unfold sax
  split
  · rfl
  · cases e with
    | start n =>
      simp only [caught_b, onStart]
      have h := stuck_type (B := B) (want := want) n u b x
      generalize setValueType (patient B) want n u (b, some x) = q at h
      obtain ⟨v, b, o⟩ := q
      cases o <;> exact h
    | stop n =>
      simp only [caught_b, onStop]
      have h := stuck_data (env := env) (B := B) u b x u.buf
      generalize setValueData env (patient B) u (b, some x) u.buf = q at h
      obtain ⟨v, b1, o⟩ := q
      simp only at h
      subst h
      cases o with
      | some e => rfl
      | none => exact stuck_close n v b x
    | text s => rfl

theorem stuck_all : ∀ (evs : List Sax) (u : X) (b : β) (x : Err), (saxAll env (patient B) want u (b, some x) evs).2 = (b, some x)
  | [], _, _, _ => rfl
  | e :: evs, u, b, x => by
    simp only [saxAll]
    have h := stuck_sax (env := env) (B := B) (want := want) u b x e
    generalize sax env (patient B) want u (b, some x) e = q at h
    obtain ⟨v, c⟩ := q
    simp only at h
    subst h
    exact stuck_all evs v b x

theorem alike_refl (u : X) (b : β) (o : Option Err) : Alike (u, b, o) (u, (b, none), o) := ⟨rfl, fun _ => ⟨rfl, rfl⟩, fun x h => by cases h⟩

theorem alike_begin (u : X) (b : β) : Alike (beginResponse B u b) (beginResponse (patient B) u (b, none)) := by
  unfold beginResponse
  rw [patient_none]
  generalize call B b .methodResponse = q
  obtain ⟨b1, o⟩ := q
  split
  · cases o <;> simp [Alike]
  · exact alike_refl _ _ _

theorem alike_callNone (u : X) (b : β) (e : Event) : Alike (callNone B u b e) (callNone (patient B) u (b, none) e) := by
  unfold callNone
  rw [patient_none]
  generalize call B b e = q
  obtain ⟨b1, o⟩ := q
  cases o <;> simp [Alike]

theorem alike_type (n : Bytes) (u : X) (b : β) : Alike (setValueType B want n u b) (setValueType (patient B) want n u (b, none)) := by
  have hb := alike_begin (B := B) u b
  unfold setValueType
  generalize beginResponse B u b = q at hb
  generalize beginResponse (patient B) u (b, none) = p at hb
  obtain ⟨u1, b1, o⟩ := q
  obtain ⟨u2, ⟨b2, x⟩, o2⟩ := p
  obtain ⟨h1, h2, h3⟩ := hb
  simp only at h1 h2 h3
  subst h1
  cases x with
  | none =>
    obtain ⟨rfl, rfl⟩ := h2 rfl
    clear h2 h3
    split
    · cases o with
      | some e => exact alike_refl _ _ _
      | none =>
        simp only [patient_none]
        split
        · exact alike_refl _ _ _
        · generalize call B b1 (.openStruct 0) = r
          obtain ⟨b2, o2⟩ := r
          cases o2 <;> simp [Alike]
    · cases o with
      | some e => exact alike_refl _ _ _
      | none =>
        simp only [patient_none]
        generalize call B b1 (.openArray 0) = r
        obtain ⟨b2, o2⟩ := r
        cases o2 <;> simp [Alike]
    · split <;> exact alike_refl _ _ _
    · split <;> exact alike_refl _ _ _
    · split <;> exact alike_refl _ _ _
    · cases o <;> exact alike_refl _ _ _
  | some x =>
    have h4 := h3 x rfl
    subst h4
    clear h2 h3
    split
    · cases o2 with
      | some e => simp [Alike]
      | none => simp only [patient_some]; split <;> simp [Alike]
    · cases o2 <;> simp [Alike, patient_some]
    · split <;> exact alike_refl _ _ _
    · split <;> exact alike_refl _ _ _
    · split <;> exact alike_refl _ _ _
    · cases o2 <;> simp [Alike]

theorem alike_data (u : X) (b : β) (s : Bytes) : Alike (setValueData env B u b s) (setValueData env (patient B) u (b, none) s) := by
  unfold setValueData
  split
  · rw [patient_none]
    generalize call B b (.methodCall s) = q
    obtain ⟨b1, o⟩ := q
    cases o <;> simp [Alike]
  · split
    · exact alike_refl _ _ _
    · exact alike_callNone _ _ _
  · simp only
    split
    · exact alike_callNone _ _ _
    · exact alike_refl _ _ _
  · unfold setInt
    split
    · exact alike_refl _ _ _
    · split
      · exact alike_refl _ _ _
      · split
        · exact alike_refl _ _ _
        · exact alike_callNone _ _ _
  · split
    · exact alike_refl _ _ _
    · exact alike_callNone _ _ _
  · exact alike_callNone _ _ _
  · exact alike_callNone _ _ _
  · exact alike_callNone _ _ _
  · split
    · exact alike_refl _ _ _
    · exact alike_callNone _ _ _
  · exact alike_refl _ _ _

theorem alike_close (n : Bytes) (u : X) (b : β) : Alike (closeEntity B n u b) (closeEntity (patient B) n u (b, none)) := by
  unfold closeEntity
  simp only [patient_none]
  split
  · split
    · generalize call B b (.fault (i32 (u32 u.faultCode)) u.faultString) = q
      obtain ⟨b1, o⟩ := q
      cases o <;> simp [Alike]
    · exact alike_refl _ _ _
  · split
    · generalize call B b .closeStruct = q
      obtain ⟨b1, o⟩ := q
      cases o <;> simp [Alike]
    · generalize call B b .closeArray = q
      obtain ⟨b1, o⟩ := q
      cases o <;> simp [Alike]
    · exact alike_refl _ _ _

/-- The handlers with the builder and with the patient one. -/
def AlikeAll (q : X × β) (p : X × (β × Option Err)) : Prop :=
  q.2 = p.2.1 ∧ (p.2.2 = none → q.1 = p.1) ∧ (∀ x, p.2.2 = some x → q.1.exc = some (remember x))

theorem alike_caught {q : X × β × Option Err} {p : X × (β × Option Err) × Option Err} (h : Alike q p) : AlikeAll (caught q) (caught p) := by
  obtain ⟨u, b, o⟩ := q
  obtain ⟨v, ⟨c, x⟩, o2⟩ := p
  obtain ⟨h1, h2, h3⟩ := h
  simp only at h1 h2 h3
  subst h1
  cases x with
  | none =>
    obtain ⟨rfl, rfl⟩ := h2 rfl
    cases o <;> simp [AlikeAll, caught]
  | some x =>
    have h4 := h3 x rfl
    subst h4
    cases o2 <;> simp [AlikeAll, caught]

theorem alike_sax (u : X) (b : β) (e : Sax) : AlikeAll (sax env B want u b e) (sax env (patient B) want u (b, none) e) := by
  unfold sax
  split
  · simp [AlikeAll]
  · cases e with
    | start n =>
      apply alike_caught
      unfold onStart
      have h := alike_type (B := B) (want := want) n u b
      generalize setValueType B want n u b = q at h
      generalize setValueType (patient B) want n u (b, none) = p at h
      obtain ⟨u1, b1, o⟩ := q
      obtain ⟨u2, ⟨b2, x⟩, o2⟩ := p
      obtain ⟨h1, h2, h3⟩ := h
      simp only at h1 h2 h3
      subst h1
      cases x with
      | none =>
        obtain ⟨rfl, rfl⟩ := h2 rfl
        cases o <;> exact alike_refl _ _ _
      | some x =>
        have h4 := h3 x rfl
        subst h4
        cases o2 <;> simp [Alike]
    | stop n =>
      apply alike_caught
      unfold onStop
      have h := alike_data (env := env) (B := B) u b u.buf
      generalize setValueData env B u b u.buf = q at h
      generalize setValueData env (patient B) u (b, none) u.buf = p at h
      obtain ⟨u1, b1, o⟩ := q
      obtain ⟨u2, ⟨b2, x⟩, o2⟩ := p
      obtain ⟨h1, h2, h3⟩ := h
      simp only at h1 h2 h3
      subst h1
      cases x with
      | none =>
        obtain ⟨rfl, rfl⟩ := h2 rfl
        cases o with
        | some e => exact alike_refl _ _ _
        | none => exact alike_close _ _ _
      | some x =>
        have h4 := h3 x rfl
        subst h4
        cases o2 with
        | some e => simp [Alike]
        | none =>
          simp only
          have h5 := stuck_close (B := B) n u2 b1 x
          generalize closeEntity (patient B) n u2 (b1, some x) = r at h5
          obtain ⟨v, c, o⟩ := r
          simp only at h5
          subst h5
          simp [Alike]
    | text s => simp [AlikeAll]

theorem alike_all : ∀ (evs : List Sax) (u : X) (b : β), AlikeAll (saxAll env B want u b evs) (saxAll env (patient B) want u (b, none) evs)
  | [], u, b => ⟨rfl, fun _ => rfl, fun x h => by cases h⟩
  | e :: evs, u, b => by
    simp only [saxAll]
    have h := alike_sax (env := env) (B := B) (want := want) u b e
    generalize sax env B want u b e = q at h
    generalize sax env (patient B) want u (b, none) e = p at h
    obtain ⟨u1, b1⟩ := q
    obtain ⟨u2, b2, x⟩ := p
    obtain ⟨h1, h2, h3⟩ := h
    simp only at h1 h2 h3
    subst h1
    cases x with
    | none =>
      have := h2 rfl
      subst this
      exact alike_all evs _ _
    | some x =>
      have h4 := h3 x rfl
      simp only [saxAll_sticky evs u1 b1 h4]
      have h5 := stuck_all (env := env) (B := B) (want := want) evs u2 b1 x
      generalize saxAll env (patient B) want u2 (b1, some x) evs = r at h5
      obtain ⟨v, c⟩ := r
      simp only at h5
      subst h5
      refine ⟨rfl, fun h => ?_, fun y hy => ?_⟩
      · cases h
      · cases hy; exact h4

/-- The pieces, when the parser finds no error: what the handlers find. -/
theorem unMarshallAll_exc {P : Parser} {req : Req} : ∀ (ds prev : List Bytes) (u : X) (b : β), fine P prev ds → u.check = false → u.exc = none →
    unMarshallAll env P B req prev u b ds =
      ((saxAll env B (some req) u b (events P prev ds)).1, (saxAll env B (some req) u b (events P prev ds)).2, (saxAll env B (some req) u b (events P prev ds)).1.exc)
  | [], prev, u, b, _, _, hu => by simp only [events, saxAll, hu]; rfl
  | d :: ds, prev, u, b, hf, hc, hu => by
    simp only [events]
    rw [saxAll_append]
    unfold unMarshallAll unMarshall
    rw [sniff_off hc]
    simp only [hf.1]
    cases he : (saxAll env B (some req) u b (P prev d).1).1.exc with
    | none => exact unMarshallAll_exc ds (prev ++ [d]) _ _ hf.2 ((saxAll_same _ _ _).2.trans hc) he
    | some e =>
      rw [saxAll_sticky _ _ _ he]
      simp [he]

/-- The whole run, when the parser finds no error but the handlers do. -/
theorem run_exc {P : Parser} {req : Req} {d : Bytes} {ds : List Bytes} {u0 x : X} {b b' : β} {e : Err} (hf : fine P [] (d :: ds)) (hl : (P (d :: ds) []).2 = false)
    (hn : ∀ n, Sax.start n ∉ (P (d :: ds) []).1) (hs : sniff d init = (u0, none)) (hc : u0.check = false) (h0 : u0.exc = none)
    (h : saxAll env B (some req) u0 b (events P [] (d :: ds) ++ (P (d :: ds) []).1) = (x, b')) (hx : x.exc = some e) :
    run env P B req b (d :: ds) = (x, b', some e) := by
  have h1 : unMarshallAll env P B req [] init b (d :: ds) = unMarshallAll env P B req [] u0 b (d :: ds) := by
    unfold unMarshallAll unMarshall
    rw [hs, sniff_off hc]
  unfold run
  rw [h1, unMarshallAll_exc _ _ _ _ hf hc h0]
  rw [saxAll_append] at h
  generalize saxAll env B (some req) u0 b (events P [] (d :: ds)) = q at h
  obtain ⟨w, b1⟩ := q
  cases he : w.exc with
  | some e' =>
    simp only [he]
    rw [saxAll_sticky _ _ _ he] at h
    cases h
    rw [he] at hx
    cases hx
    rfl
  | none =>
    simp only [he, finish, unMarshall, sniff_nil]
    rw [saxAll_want (want := some req) _ _ _ hn, h]
    simp [hl, hx]

/-- A document given to a conforming parser in pieces, for a builder that fails. -/
theorem run_failing {P : Parser} (hP : Conforms P) {req : Req} {msg : Message} (hreq : asked req msg) {doc : Bytes} {root : Node} (hdoc : IsDocument xmlChar doc root)
    (his : msg.Is (understood env.strtod) root) (hi : msg.IntsAll (readable env.erange)) {d : Bytes} {ds : List Bytes} (hds : (d :: ds).flatten = doc)
    (hne : ∀ p ∈ d :: ds, p ≠ []) {v : Version} (hs : sniff d init = ({ init with ver := v, check := false }, none)) {b b' : β} {e : Err}
    (ha : applyEvents B b msg.calls = (b', some e)) :
    ∃ x, run env P B req b (d :: ds) = (x, b', some (remember e)) := by
  obtain ⟨evs, h1, h2⟩ := hdoc
  obtain ⟨h3, h4, h5, h6⟩ := hP doc evs h1 (d :: ds) hds hne
  have hp : applyEvents (patient B) (b, none) msg.calls = ((b', some e), none) := by rw [patient_apply, ha]
  obtain ⟨x, h7, h8, h9, h10, h11⟩ := sax_message (x := { init with ver := v, check := false }) hreq his hi rfl rfl hp
  rw [← saxAll_canon, ← h2, ← h5, saxAll_canon] at h7
  obtain ⟨h12, -, h13⟩ := alike_all (env := env) (B := B) (want := some req) (events P [] (d :: ds) ++ (P (d :: ds) []).1) { init with ver := v, check := false } b
  rw [h7] at h12 h13
  refine ⟨_, run_exc h3 h4 h6 hs rfl rfl (Prod.ext rfl h12) (h13 e rfl)⟩

end XmlUnMarshaller
end Frpc
