import Verif.Proofs.StringValid
import Verif.Spec.Xml
import Verif.Spec.Received
import Verif.Model.Clone
import Verif.Model.TreeFeeder
import Verif.Model.BinMarshaller
import Verif.Proofs.Trace
/-!
# Strings are validated: C60, and late faults: C03

`StringValid.validateBytes on mb fuel s`: validation with the policy `on`, `mbrtowc` of the C library `mb`, at most `fuel` rounds of the StringValid.loop
(`Err.fuel`: not finished by then).
-/
namespace Frpc
open Spec Spec.Xml StringValid TreeBuilder BinUnMarshaller

/-- **C60 (off).** With validation off every string is accepted. -/
theorem C60_off (mb : Mbrtowc) (fuel : Nat) (s : Bytes) : validateBytes false mb fuel s = .ok () := rfl

/-- **C60 (accepted).** With validation on, in a UTF-8 locale, a string of characters of XML is accepted. -/
theorem C60_accepted (mb : Mbrtowc) (hmb : Utf8Mb mb) (s : Bytes) (h : IsXmlText s) (fuel : Nat) (hf : s.length < fuel) : validateBytes true mb fuel s = .ok () := by
  obtain ⟨cs, rfl, hc⟩ := h
  have h1 := chars_length cs hc
  obtain ⟨f, rfl⟩ : ∃ f, fuel = (f + 1) + cs.length := ⟨fuel - 1 - cs.length, by omega⟩
  obtain ⟨w, h2⟩ := loop_chars hmb cs hc [] [] (f + 1) none
  simp only [List.nil_append, List.append_nil, List.length_nil, Nat.zero_add] at h2
  unfold validateBytes
  rw [if_pos rfl, h2]
  unfold StringValid.loop
  rw [if_pos rfl]

/-- **C60 (only they).** Nothing else is ever accepted. -/
theorem C60_only (mb : Mbrtowc) (hmb : Utf8Mb mb) (s : Bytes) (fuel : Nat) (h : validateBytes true mb fuel s = .ok ()) : IsXmlText s := by
  obtain ⟨cs, bad, rfl, hc, hb⟩ := split_text s.length s (Nat.le_refl _)
  by_cases hb0 : bad = []
  · subst hb0
    exact ⟨cs, by simp, hc⟩
  · exfalso
    by_cases hch : ∃ n k, CharAt bad n k
    · obtain ⟨n, k, h1⟩ := hch
      have h2 := hb n k h1
      by_cases hf : fuel ≤ cs.length
      · obtain ⟨f, hf⟩ : ∃ f, cs.length = fuel + f := ⟨cs.length - fuel, by omega⟩
        have hstop : ∀ (cs : List Bytes), Chars cs → ∀ (pre rest : Bytes), rest ≠ [] → ∀ (fuel : Nat) (w : Option Nat), fuel ≤ cs.length →
            StringValid.loop mb (pre ++ (cs.flatten ++ rest)) fuel [] pre.length w ≠ .ok () := by
          intro cs
          induction cs with
          | nil =>
            intro _ pre rest _ fuel w hf
            have : fuel = 0 := by simpa using hf
            subst this
            simp [StringValid.loop]
          | cons p cs ih =>
            intro hc pre rest hr fuel w hf
            cases fuel with
            | zero => simp [StringValid.loop]
            | succ fuel =>
              obtain ⟨n, h1, h2⟩ := hc p (by simp)
              have h3 : CharAt ((pre ++ ((p :: cs).flatten ++ rest)).drop pre.length) n p.length := by
                rw [List.drop_left]
                simp only [List.flatten_cons, List.append_assoc]
                exact charAt_append ⟨h1, scalar_of h2⟩
              rw [loop_char hmb h3 h2]
              have := ih (fun q hq => hc q (List.mem_cons_of_mem _ hq)) (pre ++ p) rest hr fuel (some n) (by simpa using hf)
              simpa using this
        exact hstop cs hc [] bad hb0 fuel none (by omega) h
      · obtain ⟨f, rfl⟩ : ∃ f, fuel = (f + 1) + cs.length := ⟨fuel - 1 - cs.length, by omega⟩
        obtain ⟨w, h3⟩ := loop_chars hmb cs hc [] bad (f + 1) none
        simp only [List.nil_append, List.length_nil, Nat.zero_add] at h3
        unfold validateBytes at h
        rw [if_pos rfl, h3] at h
        unfold StringValid.loop at h
        have hl : 0 < bad.length := List.length_pos_iff.2 hb0
        rw [if_neg (by simp only [List.length_append]; omega), List.drop_left] at h
        have hk : 0 < k := Spec.Xml.codePoint_pos h1.1
        by_cases h0 : n = 0
        · subst h0
          have h4 := hmb.nul [] (bad.take 4) k (by simpa using charAt_take.2 h1) hk
          generalize mb [] (bad.take 4) = q at h h4
          obtain ⟨q1, q2⟩ := q
          simp only at h4
          subst h4
          cases h
        · rw [hmb.char [] _ n k (by simpa using charAt_take.2 h1) hk h0] at h
          simp only [legal_iff, h2] at h
          cases h
    · exact (loop_bad hmb hc hb0 (fun n k h => hch ⟨n, k, h⟩) fuel [] 0 none (by omega) (.inl rfl) (by simp) (by simp)).1 h

/-- **C60 (illegal characters).** A text with a character that XML does not allow is refused with a type error. -/
theorem C60_illegal (mb : Mbrtowc) (hmb : Utf8Mb mb) (t bad : Bytes) (ht : IsXmlText t) (n k : Nat) (hb : CharAt bad n k) (hn : isXmlChar n = false) (fuel : Nat) (hf : t.length < fuel) :
    validateBytes true mb fuel (t ++ bad) = .error .type := by
  obtain ⟨cs, rfl, hc⟩ := ht
  have h1 := chars_length cs hc
  obtain ⟨f, rfl⟩ : ∃ f, fuel = (f + 1) + cs.length := ⟨fuel - 1 - cs.length, by omega⟩
  obtain ⟨w, h3⟩ := loop_chars hmb cs hc [] bad (f + 1) none
  simp only [List.nil_append, List.length_nil, Nat.zero_add] at h3
  have hb0 : bad ≠ [] := by rintro rfl; cases hb.1
  unfold validateBytes
  rw [if_pos rfl, h3]
  unfold StringValid.loop
  have hl : 0 < bad.length := List.length_pos_iff.2 hb0
  rw [if_neg (by simp only [List.length_append]; omega), List.drop_left]
  have hk : 0 < k := Spec.Xml.codePoint_pos hb.1
  by_cases h0 : n = 0
  · subst h0
    have h4 := hmb.nul [] (bad.take 4) k (by simpa using charAt_take.2 hb) hk
    generalize mb [] (bad.take 4) = q at h4
    obtain ⟨q1, q2⟩ := q
    simp only at h4
    subst h4
    rfl
  · rw [hmb.char [] _ n k (by simpa using charAt_take.2 hb) hk h0]
    simp [legal_iff, hn]

/-- **C60 is violated** by bytes that are not UTF-8: validation neither accepts nor refuses them, however long it runs. It does not end, or reads
an uninitialized variable or memory before the string. -/
theorem C60_invalid_violated (mb : Mbrtowc) (hmb : Utf8Mb mb) (t bad : Bytes) (ht : IsXmlText t) (hb0 : bad ≠ []) (hb : ∀ n k, ¬ CharAt bad n k) (hu : ¬ Unfinished bad) (fuel : Nat) :
    validateBytes true mb fuel (t ++ bad) ≠ .ok () ∧ validateBytes true mb fuel (t ++ bad) ≠ .error .type := by
  obtain ⟨cs, rfl, hc⟩ := ht
  have h := loop_bad hmb hc hb0 hb fuel [] 0 none (by omega) (.inl rfl) (by simp) (by simp)
  exact ⟨h.1, h.2 hu⟩

/-- The byte 255, alone or behind a letter, is such a case. -/
theorem C60_ff_violated (mb : Mbrtowc) (hmb : Utf8Mb mb) (fuel : Nat) :
    validateBytes true mb (fuel + 1) [255] = .error .ub ∧ validateBytes true mb fuel [97, 255] = .error .fuel := by
  have hc : ∀ n k, ¬ CharAt [255] n k := fun n k h => by
    have := h.1
    revert this
    simp [codePoint]
  have hu : ¬ Unfinished [255] := by
    rintro ⟨-, r, n, k, h, -⟩
    have := h.1
    revert this
    simp [codePoint]
  obtain ⟨st, h1, h2⟩ := hmb.invalid [] [255] (fun n k h => hc n k h.1) hu
  have hst : st = [] := by simpa using h2
  subst hst
  have ha : CharAt [97, 255] 97 1 := ⟨by simp [codePoint], .inl (by omega)⟩
  have h3 := hmb.char [] [97, 255] 97 1 ha (by simp) (by omega)
  simp only [List.length_nil, Nat.sub_zero] at h3
  constructor
  · simp [validateBytes, StringValid.loop, h1]
  · have key : ∀ fuel w, StringValid.loop mb [97, 255] fuel [] 0 w = .error .fuel ∧ StringValid.loop mb [97, 255] fuel [] 1 (some 97) = .error .fuel := by
      intro fuel
      induction fuel with
      | zero => intro w; simp [StringValid.loop]
      | succ fuel ih =>
        intro w
        refine ⟨?_, ?_⟩
        · unfold StringValid.loop
          simp only [List.length_cons, List.length_nil, List.drop_zero, List.take, h3]
          exact (ih none).2
        · unfold StringValid.loop
          simp only [List.length_cons, List.length_nil, List.drop, List.take, h1]
          exact (ih (some 97)).1
    exact (key fuel none).1

/-! ## A UTF-8 locale -/

open Classical in
/-- `mbrtowc` by its specification. -/
noncomputable def utf8 : Mbrtowc := fun p s =>
  if h : ∃ q : Nat × Nat, CharAt (p ++ s) q.1 q.2 ∧ p.length < q.2 then (if h.choose.1 = 0 then (.nul, []) else (.char h.choose.1 (h.choose.2 - p.length), []))
  else if Unfinished (p ++ s) then (.incomplete, p ++ s) else (.invalid, [])

theorem utf8_conforms : Utf8Mb utf8 where
  char p s n k h hk h0 := by
    have hex : ∃ q : Nat × Nat, CharAt (p ++ s) q.1 q.2 ∧ p.length < q.2 := ⟨(n, k), h, hk⟩
    obtain ⟨h1, h2⟩ := charAt_unique hex.choose_spec.1 h
    unfold utf8
    rw [dif_pos hex, h1, h2, if_neg h0]
  nul p s k h hk := by
    have hex : ∃ q : Nat × Nat, CharAt (p ++ s) q.1 q.2 ∧ p.length < q.2 := ⟨(0, k), h, hk⟩
    obtain ⟨h1, h2⟩ := charAt_unique hex.choose_spec.1 h
    unfold utf8
    rw [dif_pos hex, h1, if_pos rfl]
  unfinished p s h := by
    have hex : ¬ ∃ q : Nat × Nat, CharAt (p ++ s) q.1 q.2 ∧ p.length < q.2 := by
      rintro ⟨⟨n, k⟩, h1, -⟩
      obtain ⟨h0, r, n', k', h2, h3⟩ := h
      obtain ⟨-, h4⟩ := charAt_unique (charAt_append h1) h2
      simp only at h4
      obtain ⟨c, a, b, h5, h6, -⟩ := charAt_shape h1
      have := congrArg List.length h5
      simp only [List.length_cons, List.length_append] at this h6 h3
      omega
    unfold utf8
    rw [dif_neg hex, if_pos h]
  invalid p s h hu := by
    have hex : ¬ ∃ q : Nat × Nat, CharAt (p ++ s) q.1 q.2 ∧ p.length < q.2 := fun ⟨q, hq⟩ => h q.1 q.2 hq
    refine ⟨[], ?_, .inl rfl⟩
    unfold utf8
    rw [dif_neg hex, if_neg hu]

/-- `aé€`. -/
def someText : Bytes := [97, 0xC3, 0xA9, 0xE2, 0x82, 0xAC]

theorem someText_is : IsXmlText someText :=
  ⟨[[97], [0xC3, 0xA9], [0xE2, 0x82, 0xAC]], rfl, by
    intro p hp
    simp only [List.mem_cons, List.not_mem_nil, or_false] at hp
    rcases hp with rfl | rfl | rfl
    · exact ⟨97, by decide, by decide⟩
    · exact ⟨0xE9, by decide, by decide⟩
    · exact ⟨0x20AC, by decide, by decide⟩⟩

example : validateBytes true utf8 7 someText = .ok () := C60_accepted utf8 utf8_conforms _ someText_is 7 (by decide)
/-- U+FFFF after it. -/
example : validateBytes true utf8 7 (someText ++ [0xEF, 0xBF, 0xBF]) = .error .type :=
  C60_illegal utf8 utf8_conforms someText _ someText_is 0xFFFF 3 ⟨by decide, .inr (by omega)⟩ (by decide) 7 (by decide)
example : validateBytes true utf8 1 [0] = .error .type :=
  C60_illegal utf8 utf8_conforms [] _ ⟨[], rfl, by simp⟩ 0 1 ⟨by decide, .inl (by omega)⟩ (by decide) 1 (by decide)

/-! ## Where strings are made -/

/-- The strings of a container. -/
def contOk (P : Bytes → Prop) : TreeBuilder.Cont → Prop
  | .arr vs => StringsAllItems P vs
  | .str ms => StringsAllMembers P ms

/-- The strings the builder holds. -/
def builderOk (P : Bytes → Prop) (tb : TB) : Prop := (∀ v, tb.ret = some v → StringsAll P v) ∧ ∀ f ∈ tb.frames, contOk P f.2

theorem items_append {P : Bytes → Prop} {v : Value} (hv : StringsAll P v) : ∀ {vs : List Value}, StringsAllItems P vs → StringsAllItems P (vs ++ [v])
  | [], _ => by simp [StringsAllItems, hv]
  | _ :: _, h => by simp only [StringsAllItems, List.cons_append] at h ⊢; exact ⟨h.1, items_append hv h.2⟩

theorem members_insert {P : Bytes → Prop} {v : Value} (hv : StringsAll P v) (k : Bytes) : ∀ {ms : List (Bytes × Value)}, StringsAllMembers P ms →
    StringsAllMembers P (SMap.insert k v ms).1
  | [], _ => by simp [SMap.insert, StringsAllMembers, hv]
  | (k', v') :: ms, h => by
    simp only [StringsAllMembers] at h
    unfold SMap.insert
    split
    · simp only [StringsAllMembers]; exact ⟨hv, h⟩
    · split
      · simp only [StringsAllMembers]; exact h
      · simp only [StringsAllMembers]; exact ⟨h.1, members_insert hv k h.2⟩

theorem members_assign {P : Bytes → Prop} {v : Value} (hv : StringsAll P v) (k : Bytes) : ∀ {ms : List (Bytes × Value)}, StringsAllMembers P ms →
    StringsAllMembers P (SMap.assign k v ms)
  | [], _ => by simp [SMap.assign, StringsAllMembers]
  | (k', v') :: ms, h => by
    simp only [StringsAllMembers] at h
    unfold SMap.assign
    split
    · simp only [StringsAllMembers]; exact ⟨hv, h.2⟩
    · simp only [StringsAllMembers]; exact ⟨h.1, members_assign hv k h.2⟩

theorem members_append {P : Bytes → Prop} {v : Value} (hv : StringsAll P v) (k : Bytes) {ms : List (Bytes × Value)} (h : StringsAllMembers P ms) :
    StringsAllMembers P (SMap.append k v ms) := by
  unfold SMap.append
  simp only
  split
  · exact members_insert hv k h
  · exact members_assign hv k (members_insert hv k h)

theorem cont_val {P : Bytes → Prop} {c : TreeBuilder.Cont} (h : contOk P c) : StringsAll P c.val := by
  cases c with
  | arr vs => simpa only [TreeBuilder.Cont.val, StringsAll, contOk] using h
  | str ms => simpa only [TreeBuilder.Cont.val, StringsAll, contOk] using h

theorem attach_ok {P : Bytes → Prop} {v : Value} (hv : StringsAll P v) (s : Slot) {r : Option Value} {fs : List (Slot × TreeBuilder.Cont)} (hr : ∀ v, r = some v → StringsAll P v)
    (hf : ∀ f ∈ fs, contOk P f.2) : (∀ w, (attach v s r fs).1 = some w → StringsAll P w) ∧ ∀ f ∈ (attach v s r fs).2, contOk P f.2 := by
  unfold attach
  split
  · exact ⟨fun w hw => by cases hw; exact hv, hf⟩
  · exact ⟨hr, hf⟩
  · next vs fs =>
    refine ⟨hr, fun f h => ?_⟩
    rcases List.mem_cons.1 h with rfl | h
    · exact items_append hv (hf _ List.mem_cons_self)
    · exact hf f (List.mem_cons_of_mem _ h)
  · next k _ _ ms fs =>
    refine ⟨hr, fun f h => ?_⟩
    rcases List.mem_cons.1 h with rfl | h
    · exact members_append hv _ (hf _ List.mem_cons_self)
    · exact hf f (List.mem_cons_of_mem _ h)
  · exact ⟨hr, hf⟩

theorem place_ok {P : Bytes → Prop} {tb tb' : TB} (h : builderOk P tb) {v : Value} (hv : StringsAll P v) (hp : place tb v = .ok tb') : builderOk P tb' := by
  unfold place at hp
  split at hp
  · next s c fs hfs =>
    have hc := h.2 (s, c) (by rw [hfs]; simp)
    have hrest : ∀ f ∈ fs, contOk P f.2 := fun f hf => h.2 f (by rw [hfs]; simp [hf])
    cases c with
    | arr vs =>
      simp only [addTo, bind, Except.bind, pure, Except.pure, Except.ok.injEq] at hp
      subst hp
      refine ⟨h.1, fun f hf => ?_⟩
      rcases List.mem_cons.1 hf with rfl | hf
      · exact items_append hv hc
      · exact hrest f hf
    | str ms =>
      simp only [addTo, SMap.appendChecked] at hp
      split at hp
      · cases hp
      · simp only [bind, Except.bind, pure, Except.pure, Except.ok.injEq] at hp
        subst hp
        refine ⟨h.1, fun f hf => ?_⟩
        rcases List.mem_cons.1 hf with rfl | hf
        · exact members_append hv _ hc
        · exact hrest f hf
  · split at hp
    · cases hp
      exact ⟨fun w hw => by cases hw; exact hv, by simpa using h.2⟩
    · cases hp

theorem openC_ok {P : Bytes → Prop} {tb tb' : TB} (h : builderOk P tb) {c : TreeBuilder.Cont} (hc : contOk P c) (hp : openC tb c = .ok tb') : builderOk P tb' := by
  unfold openC at hp
  split at hp
  · cases hp
    refine ⟨h.1, fun f hf => ?_⟩
    rcases List.mem_cons.1 hf with rfl | hf
    · exact hc
    · exact h.2 f hf
  · split at hp
    · cases hp
    · cases hp
      refine ⟨h.1, fun f hf => ?_⟩
      rcases List.mem_cons.1 hf with rfl | hf
      · exact hc
      · exact h.2 f hf
  · split at hp
    · cases hp
      refine ⟨h.1, fun f hf => ?_⟩
      simp only [List.mem_cons, List.not_mem_nil, or_false] at hf
      subst hf
      exact hc
    · cases hp

theorem close_ok {P : Bytes → Prop} {tb tb' : TB} (h : builderOk P tb) (hp : close tb = .ok tb') : builderOk P tb' := by
  unfold close at hp
  split at hp
  · cases hp
  · next s c fs hfs =>
    cases hp
    exact attach_ok (cont_val (h.2 (s, c) (by rw [hfs]; simp))) s h.1 (fun f hf => h.2 f (by rw [hfs]; simp [hf]))

theorem build_ok {cfg : Cfg} {tb tb' : TB} (h : builderOk (fun s => cfg.strOk s = true) tb) (e : Event) (hp : build cfg tb e = .ok tb') : builderOk (fun s => cfg.strOk s = true) tb' := by
  cases e with
  | string s =>
    simp only [build] at hp
    split at hp
    · next hs => exact place_ok h (by simpa only [StringsAll] using hs) hp
    · cases hp
  | int | bool | double | null | binary | dateTime => exact place_ok h (by simp only [StringsAll]) hp
  | member k => cases hp; exact h
  | openArray n => exact openC_ok h (by simp only [contOk, StringsAllItems]) hp
  | openStruct n => exact openC_ok h (by simp only [contOk, StringsAllMembers]) hp
  | closeArray => exact close_ok h hp
  | closeStruct => exact close_ok h hp
  | methodCall name =>
    cases hp
    refine ⟨by simp, fun f hf => ?_⟩
    rcases List.mem_cons.1 hf with rfl | hf
    · simp only [contOk, StringsAllItems]
    · obtain ⟨g, hg, rfl⟩ := List.mem_map.1 hf
      exact h.2 g hg
  | methodResponse => cases hp; exact h
  | fault code msg =>
    cases hp
    refine ⟨by simp, fun f hf => ?_⟩
    simp only [List.mem_map] at hf
    obtain ⟨g, hg, rfl⟩ := hf
    exact h.2 g hg

theorem applyEvents_builderOk {cfg : Cfg} : ∀ (evs : List Event) (tb : TB), builderOk (fun s => cfg.strOk s = true) tb →
    builderOk (fun s => cfg.strOk s = true) (applyEvents (builder cfg) tb evs).1
  | [], _, h => h
  | e :: evs, tb, h => by
    unfold applyEvents
    cases hb : (builder cfg).build tb e with
    | error x => exact h
    | ok tb' => exact applyEvents_builderOk evs tb' (build_ok h e hb)

theorem collapse_ok {P : Bytes → Prop} : ∀ (n : Nat) (r : Option Value) (fs : List (Slot × TreeBuilder.Cont)), (∀ v, r = some v → StringsAll P v) → (∀ f ∈ fs, contOk P f.2) →
    ∀ v, collapse n r fs = some v → StringsAll P v
  | 0, r, _, hr, _ => by simpa [collapse] using hr
  | n + 1, r, [], hr, _ => by simpa [collapse] using hr
  | n + 1, r, (s, c) :: fs, hr, hf => by
    obtain ⟨h1, h2⟩ := attach_ok (cont_val (hf (s, c) (by simp))) s hr (fun f h => hf f (List.mem_cons_of_mem _ h))
    simp only [collapse]
    exact collapse_ok n _ _ h1 h2

/-- **C60 (received trees).** Whatever is received, in whatever order and however it ends: all strings of the tree were accepted. -/
theorem C60_received (cfg : Cfg) (evs : List Event) (v : Value) (h : getData (applyEvents (builder cfg) TreeBuilder.init evs).1 = .ok v) :
    StringsAll (fun s => cfg.strOk s = true) v := by
  have hok := applyEvents_builderOk (cfg := cfg) evs TreeBuilder.init ⟨by simp [TreeBuilder.init], by simp [TreeBuilder.init]⟩
  unfold getData at h
  split at h
  · next w hw =>
    cases h
    exact collapse_ok _ _ _ hok.1 hok.2 _ hw
  · cases h

/-- **C60 (received, refused).** A string that is not accepted raises a type error. -/
theorem C60_received_refused (cfg : Cfg) (tb : TB) (s : Bytes) (hs : cfg.strOk s = false) (evs : List Event) : (applyEvents (builder cfg) tb (.string s :: evs)).2 = some .type := by
  simp [applyEvents, builder, build, hs]

/-- **C60 (sent).** What the binary marshaller wrote without error has accepted strings only, -/
theorem C60_sent (strOk : Bytes → Bool) (ver : Version) : ∀ (ops : List PackOp) (ws : List Bytes), BinMarshaller.run strOk ver ops = (ws, none) → ∀ s, .packString s ∈ ops → strOk s = true
  | [], _, _, s, h => by cases h
  | op :: ops, ws, hr, s, h => by
    unfold BinMarshaller.run at hr
    generalize hp : BinMarshaller.pack strOk ver op = q at hr
    obtain ⟨w, o⟩ := q
    cases o with
    | some e => cases hr
    | none =>
      rcases List.mem_cons.1 h with rfl | h
      · simp only [BinMarshaller.pack, BinMarshaller.packString] at hp
        cases hs : strOk s with
        | true => rfl
        | false => simp [hs] at hp
      · simp only [Prod.mk.injEq] at hr
        exact C60_sent strOk ver ops _ (Prod.ext rfl hr.2) s h

mutual
theorem clone_refused {cfg : Cfg} : ∀ (v : Value), (StringsAll (fun s => cfg.strOk s = true) v → ∃ v', Clone.clone cfg v = .ok v') ∧
    (¬ StringsAll (fun s => cfg.strOk s = true) v → Clone.clone cfg v = .error .type)
  | .int _ | .bool _ | .double _ | .null | .binary _ | .binaryRef _ | .dateTime _ => by simp [StringsAll, Clone.clone]
  | .string s | .stringView s => by simp only [StringsAll, Clone.clone]; cases cfg.strOk s <;> simp
  | .secret v => by
    obtain ⟨h1, h2⟩ := clone_refused (cfg := cfg) v
    simp only [StringsAll, Clone.clone]
    refine ⟨fun h => ?_, fun h => by rw [h2 h]; rfl⟩
    obtain ⟨v', h3⟩ := h1 h
    exact ⟨_, by rw [h3]; rfl⟩
  | .array vs => by
    obtain ⟨h1, h2⟩ := cloneItems_refused (cfg := cfg) vs []
    simp only [StringsAll, Clone.clone]
    refine ⟨fun h => ?_, fun h => by rw [h2 h]; rfl⟩
    obtain ⟨v', h3⟩ := h1 h
    exact ⟨_, by rw [h3]; rfl⟩
  | .struct ms => by
    obtain ⟨h1, h2⟩ := cloneMembers_refused (cfg := cfg) ms []
    simp only [StringsAll, Clone.clone]
    refine ⟨fun h => ?_, fun h => by rw [h2 h]; rfl⟩
    obtain ⟨v', h3⟩ := h1 h
    exact ⟨_, by rw [h3]; rfl⟩
theorem cloneItems_refused {cfg : Cfg} : ∀ (vs : List Value) (acc : List Value), (StringsAllItems (fun s => cfg.strOk s = true) vs → ∃ v', Clone.cloneItems cfg acc vs = .ok v') ∧
    (¬ StringsAllItems (fun s => cfg.strOk s = true) vs → Clone.cloneItems cfg acc vs = .error .type)
  | [], acc => by simp [StringsAllItems, Clone.cloneItems]
  | v :: vs, acc => by
    obtain ⟨h1, h2⟩ := clone_refused (cfg := cfg) v
    simp only [StringsAllItems, Clone.cloneItems]
    by_cases hv : StringsAll (fun s => cfg.strOk s = true) v
    · obtain ⟨v', h3⟩ := h1 hv
      obtain ⟨h4, h5⟩ := cloneItems_refused (cfg := cfg) vs (acc ++ [v'])
      rw [h3]
      exact ⟨fun h => h4 h.2, fun h => h5 (fun h' => h ⟨hv, h'⟩)⟩
    · rw [h2 hv]
      exact ⟨fun h => absurd h.1 hv, fun _ => rfl⟩
theorem cloneMembers_refused {cfg : Cfg} : ∀ (ms : List (Bytes × Value)) (acc : List (Bytes × Value)),
    (StringsAllMembers (fun s => cfg.strOk s = true) ms → ∃ v', Clone.cloneMembers cfg acc ms = .ok v') ∧
    (¬ StringsAllMembers (fun s => cfg.strOk s = true) ms → Clone.cloneMembers cfg acc ms = .error .type)
  | [], acc => by simp [StringsAllMembers, Clone.cloneMembers]
  | (k, v) :: ms, acc => by
    obtain ⟨h1, h2⟩ := clone_refused (cfg := cfg) v
    simp only [StringsAllMembers, Clone.cloneMembers]
    by_cases hv : StringsAll (fun s => cfg.strOk s = true) v
    · obtain ⟨v', h3⟩ := h1 hv
      obtain ⟨h4, h5⟩ := cloneMembers_refused (cfg := cfg) ms (SMap.insert k v' acc).1
      rw [h3]
      exact ⟨fun h => h4 h.2, fun h => h5 (fun h' => h ⟨hv, h'⟩)⟩
    · rw [h2 hv]
      exact ⟨fun h => absurd h.1 hv, fun _ => rfl⟩
end

/-- **C60 (copied).** Copying a tree succeeds when all its strings are accepted, else it raises a type error. -/
theorem C60_copied (cfg : Cfg) (v : Value) : (StringsAll (fun s => cfg.strOk s = true) v → ∃ v', Clone.clone cfg v = .ok v') ∧
    (¬ StringsAll (fun s => cfg.strOk s = true) v → Clone.clone cfg v = .error .type) := clone_refused v

example : getData (applyEvents (builder ⟨fun s => decide (s ≠ [0]), none⟩) TreeBuilder.init [.openArray 2, .string [65], .string [0]]).1 = .ok (.array [.string [65]]) := by rfl

/-! ## Late faults -/

theorem collapse_lost : ∀ (n : Nat) (r : Option Value) (fs : List (Slot × TreeBuilder.Cont)), (∀ f ∈ fs, f.1 ≠ .root) → collapse n r fs = r
  | 0, _, _, _ => rfl
  | _ + 1, _, [], _ => rfl
  | n + 1, r, (s, c) :: fs, h => by
    have hs := h (s, c) (by simp)
    have hfs : ∀ f ∈ fs, f.1 ≠ .root := fun f hf => h f (List.mem_cons_of_mem _ hf)
    simp only [collapse]
    have key : (attach c.val s r fs).1 = r ∧ ∀ f ∈ (attach c.val s r fs).2, f.1 ≠ .root := by
      unfold attach
      split
      · exact absurd rfl hs
      · exact ⟨rfl, hfs⟩
      · refine ⟨rfl, fun f hf => ?_⟩
        rcases List.mem_cons.1 hf with rfl | hf
        · next s' vs fs' => exact hfs (s', .arr vs) (by simp)
        · exact hfs f (List.mem_cons_of_mem _ hf)
      · refine ⟨rfl, fun f hf => ?_⟩
        rcases List.mem_cons.1 hf with rfl | hf
        · next s' ms fs' => exact hfs (s', .str ms) (by simp)
        · exact hfs f (List.mem_cons_of_mem _ hf)
      · exact ⟨rfl, hfs⟩
    rw [collapse_lost n _ _ key.2, key.1]

/-- **C03 (late).** A fault that comes after a value, or in the middle of one, is raised all the same. -/
theorem C03_late_fault (cfg : Cfg) (evs : List Event) (tb : TB) (code : Int) (msg : Bytes) (h : applyEvents (builder cfg) TreeBuilder.init (evs ++ [.fault code msg]) = (tb, none)) :
    getData tb = .error (.fault code (if msg = [] then asc "No data unmarshalled" else msg)) := by
  rw [applyEvents_append] at h
  generalize applyEvents (builder cfg) TreeBuilder.init evs = q at h
  obtain ⟨t0, o⟩ := q
  cases o with
  | some e => cases h
  | none =>
    simp only [applyEvents, builder, build, Prod.mk.injEq, and_true] at h
    subst h
    unfold getData data
    simp only
    rw [collapse_lost _ _ _ (by
      intro f hf
      simp only [List.mem_map] at hf
      obtain ⟨g, -, rfl⟩ := hf
      simp only [loseRoot]
      split <;> simp_all)]
    simp only
    split
    · next h => simp_all
    · next h => simp_all

example : getData (applyEvents (builder ⟨fun _ => true, none⟩) TreeBuilder.init [.methodResponse, .openArray 2, .string [65], .fault 7 [66]]).1 = .error (.fault 7 [66]) := by rfl

end Frpc
