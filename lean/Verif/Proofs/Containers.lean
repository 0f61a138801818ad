import Verif.Spec.Containers
import Verif.Proofs.StructMap
import Verif.Model.Clone
import Verif.Spec.Wire
/-! # Structs, arrays, parameter checks, clones -/
namespace Frpc
open SMap hiding insert
open Spec

theorem step_spec {α} (ms : List (Bytes × α)) (hs : Sorted ms) (op : SMap.Op α) (m : Bytes → Option α)
    (hm : ∀ k, find? k ms = m k) :
    (∀ k, find? k (SMap.step ms op).1 = (mapStep m op).1 k) ∧ Sorted (SMap.step ms op).1 ∧
    (SMap.step ms op).2 = (mapStep m op).2 := by
  cases op with
  | append k v =>
    obtain ⟨h1, h2, _⟩ := append_spec k v ms hs
    unfold SMap.step mapStep appendChecked
    by_cases hk : k.length > 255
    · simp [hk, hm, hs]
    · simp only [hk, if_false]
      exact ⟨fun k' => by rw [h1, upd, hm], h2, trivial⟩
  | insert k v =>
    obtain ⟨h1, h2, h3, _⟩ := insert_spec k v ms hs
    unfold SMap.step mapStep
    simp only
    cases hk : m k with
    | none =>
      have hf : find? k ms = none := by rw [hm, hk]
      refine ⟨fun k' => ?_, h2, ?_⟩
      · rw [h1, hf]; simp [upd, hm]
      · have := h3.2 hf; simp [this]
    | some w =>
      have hf : find? k ms ≠ none := by rw [hm, hk]; simp
      refine ⟨fun k' => ?_, h2, ?_⟩
      · rw [h1, if_neg (fun h => hf h.2), hm]
      · have : (SMap.insert k v ms).2 = false := by
          cases hh : (SMap.insert k v ms).2
          · rfl
          · exact absurd (h3.1 hh) hf
        simp [this]
  | erase k =>
    obtain ⟨h1, h2, _, h4, _⟩ := erase_spec k ms hs
    unfold SMap.step mapStep
    simp only
    cases hk : m k with
    | none =>
      have hf : find? k ms = none := by rw [hm, hk]
      refine ⟨fun k' => ?_, h2, ?_⟩
      · rw [h1]; by_cases hkk : k' = k
        · simp [hkk, hk]
        · simp [hkk, hm]
      · simp [h4, hf]
    | some w =>
      have hf : find? k ms ≠ none := by rw [hm, hk]; simp
      refine ⟨fun k' => ?_, h2, ?_⟩
      · rw [h1]; simp [upd, hm]
      · simp [h4, hf]
  | clear => simp [SMap.step, mapStep, find?, Sorted]

theorem history_spec {α} (ops : List (SMap.Op α)) : ∀ (ms : List (Bytes × α)) (m : Bytes → Option α), Sorted ms →
    (∀ k, find? k ms = m k) →
    (∀ k, find? k (SMap.history ms ops).1 = (mapHistory m ops).1 k) ∧ Sorted (SMap.history ms ops).1 ∧
    (SMap.history ms ops).2 = (mapHistory m ops).2 := by
  induction ops with
  | nil => intro ms m hs hm; exact ⟨hm, hs, rfl⟩
  | cons op ops ih =>
    intro ms m hs hm
    obtain ⟨a, b, c⟩ := step_spec ms hs op m hm
    obtain ⟨d, e, f⟩ := ih _ _ b a
    refine ⟨d, e, ?_⟩
    simp only [SMap.history, mapHistory, f, c]

theorem nodup_length_eq {l l' : List Bytes} (h : l.Nodup) (h' : l'.Nodup) (hh : ∀ k, k ∈ l ↔ k ∈ l') : l.length = l'.length :=
  ((List.perm_ext_iff_of_nodup h h').2 hh).length_eq

/-- Representation of a `Seq` by a list. -/
def Rep {α} (vs : List α) (s : Seq α) : Prop := vs.length = s.size ∧ ∀ i, vs[i]? = s.at' i

theorem arr_step {α} (vs : List α) (s : Seq α) (h : Rep vs s) (op : Arr.Op α) :
    Rep (Arr.step vs op).1 (seqStep s op).1 ∧ (Arr.step vs op).2 = (seqStep s op).2 := by
  obtain ⟨h1, h2⟩ := h
  cases op with
  | append v =>
    refine ⟨⟨by simp [Arr.step, Arr.append, seqStep, h1], fun i => ?_⟩, rfl⟩
    simp only [Arr.step, Arr.append, seqStep]
    by_cases hi : i = s.size
    · subst hi; simp [← h1]
    · rw [if_neg hi, ← h2]
      by_cases hlt : i < vs.length
      · rw [List.getElem?_append_left hlt]
      · rw [List.getElem?_eq_none (by simp; omega), List.getElem?_eq_none (by omega)]
  | replace i v =>
    unfold Arr.step seqStep Arr.replace
    simp only
    by_cases hi : i < s.size
    · rw [if_neg (by omega), if_pos hi]
      refine ⟨⟨by simp [h1], fun j => ?_⟩, rfl⟩
      simp only [List.getElem?_set, ← h2]
      by_cases hj : j = i
      · subst hj; simp [h1, hi]
      · simp [hj, Ne.symm hj]
    · rw [if_pos (by omega), if_neg hi]
      exact ⟨⟨h1, h2⟩, rfl⟩
  | clear => simp [Arr.step, Arr.clear, seqStep, Rep]

theorem arr_history {α} (ops : List (Arr.Op α)) : ∀ (vs : List α) (s : Seq α), Rep vs s →
    Rep (Arr.history vs ops).1 (seqHistory s ops).1 ∧ (Arr.history vs ops).2 = (seqHistory s ops).2 := by
  induction ops with
  | nil => intro vs s h; exact ⟨h, rfl⟩
  | cons op ops ih =>
    intro vs s h
    obtain ⟨a, b⟩ := arr_step vs s h op
    obtain ⟨c, d⟩ := ih _ _ a
    exact ⟨c, by simp only [Arr.history, seqHistory, b, d]⟩

/-! ## Parameter formats -/

/-- Bytes of the format. -/
def fmtBytes (ps : List Param) : Bytes := asc (formatText ps)

def kindByte (k : Spec.Kind) : UInt8 := UInt8.ofNat k.letter.toNat

theorem asc_append (a b : String) : asc (a ++ b) = asc a ++ asc b := by simp [asc]

theorem fmtBytes_nil : fmtBytes [] = [] := rfl

theorem fmtBytes_cons (p : Param) (ps : List Param) :
    fmtBytes (p :: ps) = (if p.nullable then [kindByte p.kind, 63] else [kindByte p.kind]) ++ fmtBytes ps := by
  unfold fmtBytes
  rw [formatText, asc_append]
  cases p.nullable <;> simp [asc, kindByte]

theorem byte_ne (k : Spec.Kind) : kindByte k ≠ 63 := by cases k <;> decide

theorem count_letters : ∀ ps : List Param, ((fmtBytes ps).filter (· ≠ 63)).length = ps.length
  | [] => rfl
  | p :: ps => by
    rw [fmtBytes_cons, List.filter_append, List.length_append, count_letters ps]
    cases p.nullable <;> simp [byte_ne] <;> omega

/-- Tag wanted by a kind. -/
def kindTag : Spec.Kind → Nat
  | .int => 1 | .string => 4 | .double => 3 | .bool => 2 | .dateTime => 5 | .binary => 6 | .struct => 0xA | .array => 0xB

theorem wanted_byte (k : Spec.Kind) : Arr.wanted (kindByte k) = some (kindTag k) := by cases k <;> decide

theorem ofKind_iff (k : Spec.Kind) (v : Value) : OfKind k v ↔ Compare.typeTag v = kindTag k := by
  cases k <;> cases v <;> simp [OfKind, Compare.typeTag, kindTag]

theorem null_iff (v : Value) : Compare.typeTag v = 0xC ↔ v = .null := by
  cases v <;> simp [Compare.typeTag]

theorem fmt_head_ne (ps : List Param) : (fmtBytes ps)[0]? ≠ some 63 := by
  cases ps with
  | nil => simp [fmtBytes_nil]
  | cons p ps => rw [fmtBytes_cons]; cases p.nullable <;> simp [byte_ne]

theorem check_loop (ps : List Param) : ∀ (pre : Bytes) (vs : List Value), vs.length = ps.length →
    (FitsAll ps vs → Arr.checkLoop (pre ++ fmtBytes ps) pre.length vs = .ok ()) ∧
    (¬ FitsAll ps vs → Arr.checkLoop (pre ++ fmtBytes ps) pre.length vs = .error .type) := by
  induction ps with
  | nil =>
    intro pre vs hl
    cases vs with
    | nil => exact ⟨fun _ => rfl, fun h => absurd .nil h⟩
    | cons => simp at hl
  | cons p ps ih =>
    intro pre vs hl
    cases vs with
    | nil => simp at hl
    | cons v vs =>
      have hl' : vs.length = ps.length := by simpa using hl
      have hlen : (pre ++ fmtBytes (p :: ps)).length = pre.length + (if p.nullable then 2 else 1) + (fmtBytes ps).length := by
        rw [fmtBytes_cons]; cases p.nullable <;> simp <;> omega
      have hcan : (decide (pre.length < (pre ++ fmtBytes (p :: ps)).length - 1) &&
          ((pre ++ fmtBytes (p :: ps))[pre.length + 1]? == some 63)) = p.nullable := by
        have h1 : (pre ++ fmtBytes (p :: ps))[pre.length + 1]? = (fmtBytes (p :: ps))[1]? := by
          rw [List.getElem?_append_right (by omega)]; congr 1; omega
        rw [h1, hlen, fmtBytes_cons]
        cases hn : p.nullable with
        | true => simp; omega
        | false =>
          simp only [Bool.false_eq_true, if_false]
          rw [List.getElem?_append_right (by simp)]
          have := fmt_head_ne ps
          simp only [List.length_cons, List.length_nil, Nat.zero_add, Nat.sub_self]
          cases hh : (fmtBytes ps)[0]? with
          | none => simp
          | some c => rw [hh] at this; simp; intro _; simpa using this
      have hch : (pre ++ fmtBytes (p :: ps))[pre.length]? = some (kindByte p.kind) := by
        rw [List.getElem?_append_right (by omega), fmtBytes_cons]
        cases p.nullable <;> simp
      have hne : pre.length ≠ (pre ++ fmtBytes (p :: ps)).length := by rw [hlen]; split <;> omega
      have hstep : ∀ n', n' = pre.length + (if p.nullable then 2 else 1) →
          (FitsAll ps vs → Arr.checkLoop (pre ++ fmtBytes (p :: ps)) n' vs = .ok ()) ∧
          (¬ FitsAll ps vs → Arr.checkLoop (pre ++ fmtBytes (p :: ps)) n' vs = .error .type) := by
        rintro n' rfl
        have := ih (pre ++ (if p.nullable then [kindByte p.kind, 63] else [kindByte p.kind])) vs hl'
        rw [List.append_assoc, ← fmtBytes_cons] at this
        cases hn : p.nullable <;> simpa [hn] using this
      rw [Arr.checkLoop]
      simp only [hcan]
      by_cases hnull : (p.nullable && Compare.typeTag v == 12) = true
      · rw [if_pos hnull]
        simp only [Bool.and_eq_true, beq_iff_eq, null_iff] at hnull
        have hf : Fits p v := Or.inr hnull
        obtain ⟨s1, s2⟩ := hstep (pre.length + 2) (by simp [hnull.1])
        refine ⟨fun h => ?_, fun h => ?_⟩
        · cases h with | cons _ h => exact s1 h
        · exact s2 (fun hh => h (.cons hf hh))
      · rw [if_neg hnull, if_neg hne, hch]
        simp only [wanted_byte]
        have hfit : Fits p v ↔ Compare.typeTag v = kindTag p.kind := by
          unfold Fits
          rw [ofKind_iff]
          constructor
          · rintro (h | ⟨h1, h2⟩)
            · exact h
            · subst h2; simp [h1, Compare.typeTag] at hnull
          · exact Or.inl
        by_cases ht : Compare.typeTag v = kindTag p.kind
        · simp only [ht, ne_eq, not_true, if_false]
          obtain ⟨s1, s2⟩ := hstep _ rfl
          refine ⟨fun h => ?_, fun h => ?_⟩
          · cases h with | cons _ h => exact s1 h
          · exact s2 (fun hh => h (.cons (hfit.2 ht) hh))
        · simp only [ne_eq, ht, not_false_eq_true, if_true]
          refine ⟨fun h => ?_, fun _ => trivial⟩
          cases h with | cons h' _ => exact absurd (hfit.1 h') ht

theorem Spec.FitsAll.length {ps vs} (h : FitsAll ps vs) : vs.length = ps.length := by
  induction h with
  | nil => rfl
  | cons _ _ ih => simp [ih]

/-! ## Clones -/

mutual
/-- The tree with every date-time passed through `f`. -/
def mapDates (f : DateTime → DateTime) : Value → Value
  | .dateTime d => .dateTime (f d)
  | .secret v => .secret (mapDates f v)
  | .array vs => .array (mapDatesItems f vs)
  | .struct ms => .struct (mapDatesMembers f ms)
  | v => v
def mapDatesItems (f : DateTime → DateTime) : List Value → List Value
  | [] => []
  | v :: vs => mapDates f v :: mapDatesItems f vs
def mapDatesMembers (f : DateTime → DateTime) : List (Bytes × Value) → List (Bytes × Value)
  | [] => []
  | (k, v) :: ms => (k, mapDates f v) :: mapDatesMembers f ms
end

theorem insert_last {α} (k : Bytes) (v : α) : ∀ ms : List (Bytes × α), (∀ m ∈ ms, keyLt m.1 k = true) →
    (SMap.insert k v ms).1 = ms ++ [(k, v)]
  | [], _ => rfl
  | (k0, v0) :: ms, h => by
    have h0 := h (k0, v0) (by simp)
    have h1 : keyLt k k0 ≠ true := by
      intro hh
      have := keyLt_trans _ _ _ hh h0
      rw [keyLt_irrefl] at this; cases this
    have h2 : k ≠ k0 := by
      rintro rfl; exact h1 h0
    unfold SMap.insert
    rw [if_neg h1, if_neg h2]
    simp only [insert_last k v ms (fun m hm => h m (by simp [hm])), List.cons_append]

open Clone TreeBuilder in
mutual
theorem clone_value (cfg : Cfg) : ∀ v, Held v → StringsAll (fun s => cfg.strOk s = true) v →
    clone cfg v = .ok (mapDates cfg.date v)
  | .int _, _, _ | .bool _, _, _ | .double _, _, _ | .null, _, _ | .binary _, _, _ | .binaryRef _, _, _
  | .dateTime _, _, _ => by simp [clone, mapDates]
  | .string s, _, h => by simp only [StringsAll] at h; simp [clone, mapDates, h]
  | .stringView s, _, h => by simp only [StringsAll] at h; simp [clone, mapDates, h]
  | .secret v, hh, h => by
    simp only [StringsAll] at h; simp only [Held] at hh
    simp [clone, mapDates, clone_value cfg v hh h, bind, Except.bind, pure, Except.pure]
  | .array vs, hh, h => by
    simp only [StringsAll] at h; simp only [Held] at hh
    simp [clone, mapDates, clone_items cfg vs [] hh h, bind, Except.bind, pure, Except.pure]
  | .struct ms, hh, h => by
    simp only [StringsAll] at h; simp only [Held] at hh
    simp [clone, mapDates, clone_members cfg ms [] hh.1 hh.2 (by simp) h, bind, Except.bind, pure, Except.pure]
theorem clone_items (cfg : Cfg) : ∀ vs acc, HeldItems vs → StringsAllItems (fun s => cfg.strOk s = true) vs →
    cloneItems cfg acc vs = .ok (acc ++ mapDatesItems cfg.date vs)
  | [], acc, _, _ => by simp [cloneItems, mapDatesItems]
  | v :: vs, acc, hh, h => by
    simp only [StringsAllItems] at h; simp only [HeldItems] at hh
    rw [cloneItems, clone_value cfg v hh.1 h.1]
    simp only [bind, Except.bind]
    rw [clone_items cfg vs _ hh.2 h.2]
    simp [mapDatesItems]
theorem clone_members (cfg : Cfg) : ∀ (ms acc : List (Bytes × Value)), ms.Pairwise (fun a b => keyLt a.1 b.1 = true) → HeldMembers ms →
    (∀ a ∈ acc, ∀ b ∈ ms, keyLt a.1 b.1 = true) → StringsAllMembers (fun s => cfg.strOk s = true) ms →
    cloneMembers cfg acc ms = .ok (acc ++ mapDatesMembers cfg.date ms)
  | [], acc, _, _, _, _ => by simp [cloneMembers, mapDatesMembers]
  | (k, v) :: ms, acc, hp, hh, hacc, h => by
    simp only [StringsAllMembers] at h; simp only [HeldMembers] at hh
    rw [List.pairwise_cons] at hp
    rw [cloneMembers, clone_value cfg v hh.1 h.1]
    simp only [bind, Except.bind]
    rw [insert_last _ _ _ (fun m hm => hacc m hm (k, v) (by simp)), clone_members cfg ms _ hp.2 hh.2 ?_ h.2]
    · simp [mapDatesMembers]
    · intro a ha b hb
      rcases List.mem_append.1 ha with ha | ha
      · exact hacc a ha b (by simp [hb])
      · simp only [List.mem_singleton] at ha; subst ha; exact hp.1 b hb
end

mutual
theorem mapDates_id (f : DateTime → DateTime) : ∀ v, DatesAll (fun d => f d = d) v → mapDates f v = v
  | .int _, _ | .bool _, _ | .double _, _ | .null, _ | .binary _, _ | .binaryRef _, _ | .string _, _ | .stringView _, _ => by simp [mapDates]
  | .dateTime d, h => by simp only [DatesAll] at h; simp [mapDates, h]
  | .secret v, h => by simp only [DatesAll] at h; simp [mapDates, mapDates_id f v h]
  | .array v, h => by simp only [DatesAll] at h; simp [mapDates, mapDatesItems_id f v h]
  | .struct v, h => by simp only [DatesAll] at h; simp [mapDates, mapDatesMembers_id f v h]
theorem mapDatesItems_id (f : DateTime → DateTime) : ∀ v, DatesAllItems (fun d => f d = d) v → mapDatesItems f v = v
  | [], _ => rfl
  | v :: vs, h => by simp only [DatesAllItems] at h; simp [mapDatesItems, mapDates_id f v h.1, mapDatesItems_id f vs h.2]
theorem mapDatesMembers_id (f : DateTime → DateTime) : ∀ v, DatesAllMembers (fun d => f d = d) v → mapDatesMembers f v = v
  | [], _ => rfl
  | (k, v) :: vs, h => by simp only [DatesAllMembers] at h; simp [mapDatesMembers, mapDates_id f v h.1, mapDatesMembers_id f vs h.2]
end

mutual
theorem datesAll_true : ∀ v, DatesAll (fun _ => True) v
  | .int _ | .bool _ | .double _ | .null | .binary _ | .binaryRef _ | .string _ | .stringView _ | .dateTime _ => by simp [DatesAll]
  | .secret v => by simpa [DatesAll] using datesAll_true v
  | .array v => by simpa [DatesAll] using datesAllItems_true v
  | .struct v => by simpa [DatesAll] using datesAllMembers_true v
theorem datesAllItems_true : ∀ v, DatesAllItems (fun _ => True) v
  | [] => trivial
  | v :: vs => ⟨datesAll_true v, datesAllItems_true vs⟩
theorem datesAllMembers_true : ∀ v, DatesAllMembers (fun _ => True) v
  | [] => trivial
  | (_, v) :: vs => ⟨datesAll_true v, datesAllMembers_true vs⟩
end

end Frpc
