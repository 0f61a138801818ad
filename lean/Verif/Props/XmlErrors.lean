import Verif.Model.XmlErrors
/-! # C138: what the XML parser complains of -/
namespace Frpc
open BinUnMarshaller (Req Builder)
open XmlUnMarshaller

/-! ## Specification -/

/-- The numbers of the errors the unmarshaller has a text for: those of libxml2 up to `XML_ERR_MISSING_ENCODING`. -/
def Spec.XmlErrors.Listed (code : Int) : Prop := 0 ≤ code ∧ code ≤ 101

/-- The numbers behind the table that the bound lets through, `ptr` being the size of a pointer. -/
def Spec.XmlErrors.Behind (ptr : Nat) (code : Int) : Prop := 101 < code ∧ code < 102 * ptr

/-- A parser seen without the numbers. -/
def Spec.XmlErrors.flat (P : CodeParser) : Parser := fun prev d => ((P prev d).1, (P prev d).2.isSome)

open Spec.XmlErrors

namespace XmlUnMarshaller

theorem errorMapping_length : errorMapping.length = 102 := by decide

theorem errorText_ok {ptr : Nat} {code : Int} (h : ¬ Behind ptr code) : ∃ t, errorText ptr code = .ok t ∧ (t ∈ errorMapping ∨ t = asc "Unknown") := by
  unfold errorText
  by_cases c : code < 0 ∨ code ≥ ((ptr * errorMapping.length : Nat) : Int)
  · rw [if_pos c]; exact ⟨_, rfl, .inr rfl⟩
  · rw [if_neg c]
    have hl : code.toNat < errorMapping.length := by
      rw [errorMapping_length] at c ⊢
      unfold Behind at h
      have : ((ptr * 102 : Nat) : Int) = 102 * ptr := by omega
      omega
    rw [List.getElem?_eq_getElem hl]
    exact ⟨_, rfl, .inl (List.getElem_mem hl)⟩

theorem errorText_listed {ptr : Nat} {code : Int} (h : Listed code) (hp : 0 < ptr) : ∃ (hl : code.toNat < errorMapping.length), errorText ptr code = .ok (errorMapping[code.toNat]) := by
  obtain ⟨h1, h2⟩ := h
  have hl : code.toNat < errorMapping.length := by rw [errorMapping_length]; omega
  refine ⟨hl, ?_⟩
  unfold errorText
  rw [if_neg (by rw [errorMapping_length]; have : ((ptr * 102 : Nat) : Int) = 102 * ptr := by omega
                 omega), List.getElem?_eq_getElem hl]

theorem errorMapping_nodup : errorMapping.Nodup := by decide +kernel

end XmlUnMarshaller

/-! ## C138 -/

/-- **C138 (an error is an exception).** As long as the parser reports no error whose number is just behind the table, whatever it reports ends `unMarshall` with a stream error with a text, and everything else is as if the
parser had only said that there was an error. Missing: the numbers of `C138_violated`. -/
theorem C138_refused_partial {β} (env : Env) (ptr : Nat) (P : CodeParser) (B : Builder β) (want : Option Req) (prev : List Bytes) (u : X) (b : β) (data : Bytes)
    (h : ∀ code, (P prev data).2 = some code → ¬ Behind ptr code) :
    let r := unMarshallCode env ptr P B want prev u b data
    (r.1, r.2.1, r.2.2.map (·.1)) = unMarshall env (flat P) B want prev u b data ∧
      (∀ code, (P prev data).2 = some code → (sniff data u).2 = none → ∃ t, r.2.2 = some (.stream, some (asc "Parser error: < " ++ t ++ asc " >")) ∧ (t ∈ errorMapping ∨ t = asc "Unknown")) := by
  intro r
  have hr : r = unMarshallCode env ptr P B want prev u b data := rfl
  clear_value r
  subst hr
  unfold unMarshallCode unMarshall flat
  cases hs : sniff data u with
  | mk u' o =>
    cases o with
    | some e => exact ⟨rfl, fun code _ hn => by cases hn⟩
    | none =>
      simp only
      cases hc : (P prev data).2 with
      | none =>
        refine ⟨?_, fun code hcode => by cases hcode⟩
        simp only [Option.isSome_none, Bool.false_eq_true, if_false, Option.map_map]
        cases (saxAll env B want u' b (P prev data).1).1.exc <;> rfl
      | some code =>
        obtain ⟨t, ht, hm⟩ := errorText_ok (h code hc)
        have hcm : complaint ptr code = .ok (asc "Parser error: < " ++ t ++ asc " >") := by unfold complaint; rw [ht]
        simp only [hcm, Option.isSome_some, if_true, Option.map_some]
        exact ⟨trivial, fun code' hcode _ => ⟨t, rfl, hm⟩⟩

/-- **C138 (which error).** The message tells the errors in the table apart. -/
theorem C138_distinct (ptr : Nat) (hp : 0 < ptr) (a b : Int) (ha : Listed a) (hb : Listed b) (h : complaint ptr a = complaint ptr b) : a = b := by
  obtain ⟨la, ea⟩ := errorText_listed ha hp
  obtain ⟨lb, eb⟩ := errorText_listed hb hp
  unfold complaint at h
  rw [ea, eb] at h
  simp only [Except.ok.injEq, List.append_cancel_right_eq, List.append_cancel_left_eq] at h
  have hn := List.pairwise_iff_getElem.1 errorMapping_nodup
  have : a.toNat = b.toNat := by
    rcases Nat.lt_trichotomy a.toNat b.toNat with hlt | heq | hgt
    · exact absurd h (hn _ _ la lb hlt)
    · exact heq
    · exact absurd h.symm (hn _ _ lb la hgt)
  unfold Listed at ha hb
  omega

/-- Every number behind the table reads memory that is not the table's. -/
theorem C138_behind (ptr : Nat) (code : Int) (h : Behind ptr code) : complaint ptr code = .error .ub := by
  obtain ⟨h1, h2⟩ := h
  unfold complaint errorText
  rw [if_neg (by rw [errorMapping_length]; have : ((ptr * 102 : Nat) : Int) = 102 * ptr := by omega
                 omega), List.getElem?_eq_none (by rw [errorMapping_length]; omega)]

/-- A parser that complains of a prefix without a declaration, which is the error 201 of libxml2 (`XML_NS_ERR_UNDEFINED_NAMESPACE`), and makes no callbacks. -/
def prefixParser : CodeParser := fun _ d => ([], if d = asc "<x:methodCall/>" then some 201 else none)

/-- C138 is false as stated: for an element with a prefix that was not declared the memory behind the table is read, with pointers of four bytes and of eight. -/
theorem C138_violated : ¬ ∀ (ptr : Nat) (env : Env) (P : CodeParser) (B : Builder Unit) (u : X) (data : Bytes) (e : Err) (t : Option Bytes),
    ptr = 4 ∨ ptr = 8 → (unMarshallCode env ptr P B none [] u () data).2.2 = some (e, t) → e ≠ .ub := by
  intro h
  refine h 8 ⟨fun _ => (0, 0), false⟩ prefixParser ⟨fun b _ => .ok b⟩ XmlUnMarshaller.init (asc "<x:methodCall/>") .ub none (.inr rfl) ?_ rfl
  have hb : complaint 8 201 = .error .ub := C138_behind 8 201 ⟨by decide, by decide⟩
  have hs : sniff (asc "<x:methodCall/>") XmlUnMarshaller.init = ({ XmlUnMarshaller.init with check := false }, none) := by decide +kernel
  unfold unMarshallCode
  rw [hs]
  simp only [prefixParser, if_true, hb]

/-- The errors of the table and the one with a text of its own in C. -/
example : complaint 8 4 = .ok (asc "Parser error: < Empty document >") ∧ complaint 8 76 = .ok (asc "Parser error: < XML_ERR_TAG_NAME_MISMATCH >") ∧ complaint 8 1000 = .ok (asc "Parser error: < Unknown >") ∧ ¬ Behind 8 76 := by
  refine ⟨by decide +kernel, by decide +kernel, by decide +kernel, ?_⟩
  unfold Behind
  omega

end Frpc
