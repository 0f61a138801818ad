import Verif.Proofs.Compare
import Verif.Proofs.Containers
/-!
# Values: comparison (C35), structs (C36), arrays (C37), parameter checks (C38), clones (C39)
-/
namespace Frpc
open Spec Compare

/-! ## C35 -/

/-- C35 fails as stated: a NaN compares equal to every double, so `compare` is not transitive
(`1.0 ≤ NaN`, `NaN ≤ 0.0`, but not `1.0 ≤ 0.0`). -/
theorem C35_violated : ¬ (∀ a b c : Value, Comparable (fun _ => True) a → Comparable (fun _ => True) b →
    Comparable (fun _ => True) c → opLe a b = .ok true → opLe b c = .ok true → opLe a c = .ok true) := by
  intro h
  have := h (.double 0x3FF0000000000000#64) (.double 0x7FF8000000000000#64) (.double 0#64)
    trivial trivial trivial (by decide +kernel) (by decide +kernel)
  exact absurd this (by decide +kernel)

/-- C35 on trees without NaN: `compare` always answers, is a total order (reflexive,
antisymmetric, transitive, total), answers 0 exactly on trees equal up to what comparison looks
at, and the six operators are its readings. -/
theorem C35_compare_partial (a b c : Value) (ha : Comparable (fun x => ¬ NaN x) a) (hb : Comparable (fun x => ¬ NaN x) b)
    (hc : Comparable (fun x => ¬ NaN x) c) :
    (∃ r, compare a b = .ok r ∧ compare b a = .ok (-r) ∧
      (r = 0 ↔ essence a = essence b) ∧
      opEq a b = .ok (decide (r = 0)) ∧ opNe a b = .ok (decide (r ≠ 0)) ∧
      opLt a b = .ok (decide (r < 0)) ∧ opGt a b = .ok (decide (0 < r)) ∧
      opLe a b = .ok (decide (r ≤ 0)) ∧ opGe a b = .ok (decide (0 ≤ r))) ∧
    opLe a a = .ok true ∧
    (opLe a b = .ok true ∨ opLe b a = .ok true) ∧
    (opLe a b = .ok true → opLe b a = .ok true → essence a = essence b) ∧
    (opLe a b = .ok true → opLe b c = .ok true → opLe a c = .ok true) ∧
    (opLt a b = .ok true → opLt b c = .ok true → opLt a c = .ok true) := by
  have hab := compare_lex ha hb
  have hba := compare_lex hb ha
  have hbc := compare_lex hb hc
  have hac := compare_lex ha hc
  have haa := compare_lex ha ha
  have hz := zero_value a b ha hb
  have n1 := lex_neg (tok a) (tok b)
  have n2 := lex_neg (tok b) (tok c)
  have n3 := lex_neg (tok a) (tok c)
  have t1 := lex_trans (tok a) (tok b) (tok c)
  have t2 := lex_trans (tok c) (tok a) (tok b)
  rw [hab, Except.ok.injEq] at hz
  have pure_ok : ∀ x : Bool, (pure x : Except Err Bool) = .ok x := fun _ => rfl
  refine ⟨⟨_, hab, ?_, hz, ?_, ?_, ?_, ?_, ?_, ?_⟩, ?_, ?_, ?_, ?_, ?_⟩
  · rw [hba, n1]
  · simp only [opEq, hab, bind, Except.bind, pure_ok]; rfl
  · simp only [opNe, hab, bind, Except.bind, pure_ok]
    by_cases h : lex (tok a) (tok b) = 0 <;> simp [h]
  · simp only [opLt, hab, bind, Except.bind, pure_ok]
  · simp only [opGt, hab, bind, Except.bind, pure_ok, gt_iff_lt]
  · simp only [opLe, hab, bind, Except.bind, pure_ok]
  · simp only [opGe, hab, bind, Except.bind, pure_ok, ge_iff_le]
  · simp [opLe, haa, bind, Except.bind, pure_ok, lex_self]
  · simp only [opLe, hab, hba, bind, Except.bind, pure_ok, Except.ok.injEq, decide_eq_true_eq]; omega
  · simp only [opLe, hab, hba, bind, Except.bind, pure_ok, Except.ok.injEq, decide_eq_true_eq]
    intro h1 h2
    exact hz.1 (by omega)
  · simp only [opLe, hab, hbc, hac, bind, Except.bind, pure_ok, Except.ok.injEq, decide_eq_true_eq]
    exact t1
  · simp only [opLt, hab, hbc, hac, bind, Except.bind, pure_ok, Except.ok.injEq, decide_eq_true_eq]
    intro h1 h2
    have h3 := t1 (by omega) (by omega)
    have := lex_trans (tok b) (tok c) (tok a)
    omega

/-- C35: scalars compare in their natural order, different types by their type tag. -/
theorem C35_scalars_partial :
    (∀ x y : Int, opLt (.int x) (.int y) = .ok (decide (x < y))) ∧
    (∀ x y : Bool, opLt (.bool x) (.bool y) = .ok (!x && y)) ∧
    (∀ x y : Bytes, opLt (.string x) (.string y) = .ok (keyLt x y)) ∧
    (∀ x y : Bytes, opLt (.binary x) (.binary y) = .ok (keyLt x y)) ∧
    (∀ x y : DateTime, opLt (.dateTime x) (.dateTime y) = .ok (decide (x.unixTime < y.unixTime))) ∧
    (∀ x y : BitVec 64, ¬ NaN x → ¬ NaN y → opLt (.double x) (.double y) = .ok (decide (dblKey x < dblKey y))) ∧
    (∀ a b : Value, typeTag a ≠ typeTag b → opLt a b = .ok (decide (typeTag a < typeTag b))) := by
  have kk : ∀ x y : Bytes, decide (byLess keyLt x y < 0) = keyLt x y := by
    intro x y; unfold byLess; cases keyLt x y <;> cases keyLt y x <;> simp
  have kint : ∀ x y : Int, decide (byLess (fun a b : Int => decide (a < b)) x y < 0) = decide (x < y) := by
    intro x y; unfold byLess
    by_cases h : x < y
    · simp [h]
    · by_cases h2 : y < x <;> simp [h, h2]
  refine ⟨fun x y => ?_, fun x y => ?_, fun x y => ?_, fun x y => ?_, fun x y => ?_, fun x y hx hy => ?_, fun a b h => ?_⟩
  · simp only [opLt, compare_eq (.int x) (.int y) rfl, bind, Except.bind, pure, Except.pure, kint]
  · cases x <;> cases y <;> rfl
  · simp only [opLt, compare_eq (.string x) (.string y) rfl, bind, Except.bind, pure, Except.pure, kk]
  · simp only [opLt, compare_eq (.binary x) (.binary y) rfl, bind, Except.bind, pure, Except.pure, kk]
  · simp only [opLt, compare_eq (.dateTime x) (.dateTime y) rfl, bind, Except.bind, pure, Except.pure, kint]
  · simp only [opLt, compare_eq (.double x) (.double y) rfl, bind, Except.bind, pure, Except.pure, dbl_byLess hx hy, kint]
  · rw [opLt, compare_ne _ _ h]
    by_cases hh : typeTag a < typeTag b <;> simp [bind, Except.bind, pure, Except.pure, hh]

/-- `C35` hypotheses hold on non-trivial trees. -/
example : Comparable (fun x => ¬ NaN x) (.struct [([97], .array [.int 1, .double 0x3FF0000000000000#64]), ([98], .null)]) := by
  refine ⟨⟨trivial, ?_, trivial⟩, trivial, trivial⟩
  show ¬ NaN _
  decide +kernel
example : opLt (.array [.int 1, .string [1]]) (.array [.int 1, .string [1, 2]]) = .ok true := by decide +kernel
example : opEq (.double 0#64) (.double 0x8000000000000000#64) = .ok true := by decide +kernel
/-- Values of the remaining types cannot be compared. -/
example : Compare.compare (.secret .null) (.secret .null) = .error .other := by decide +kernel

/-! ## C36 -/

/-- C36: after any history of append / insert / erase / clear from an empty struct, every call
answered as on a finite map, every look-up (`get`, `has_key`, `get` with default, `[]`) answers as
the finite map, iteration is in strictly ascending order of name, and `size` is the number of
names. -/
theorem C36_struct_is_map {α : Type} (ops : List (SMap.Op α)) :
    let ms := (SMap.history [] ops).1
    let m := (mapHistory (fun _ => none) ops).1
    (SMap.history [] ops).2 = (mapHistory (fun _ => none) ops).2 ∧
    (∀ k, SMap.find? k ms = m k) ∧
    (∀ k, SMap.hasKey k ms = true ↔ m k ≠ none) ∧
    (∀ k d, SMap.getD k d ms = (m k).getD d) ∧
    (∀ k v, SMap.index k ms = .ok v ↔ m k = some v) ∧
    (∀ k, m k = none → SMap.index k ms = .error .key) ∧
    ms.Pairwise (fun a b => keyLt a.1 b.1 = true) ∧
    (∀ k v, (k, v) ∈ ms ↔ m k = some v) ∧
    (∀ names : List Bytes, names.Nodup → (∀ k, k ∈ names ↔ m k ≠ none) → ms.length = names.length) := by
  obtain ⟨h1, h2, h3⟩ := history_spec ops [] (fun _ => none) (by simp [Sorted]) (by simp [SMap.find?])
  simp only
  refine ⟨h3, ?_⟩
  clear h3
  generalize (SMap.history [] ops).1 = ms at *
  generalize (mapHistory (fun _ => none) ops).1 = m at *
  refine ⟨h1, fun k => ?_, fun k d => ?_, fun k v => ?_, fun k hk => ?_, h2, fun k v => ?_, fun names hn hk => ?_⟩
  · rw [SMap.hasKey, h1]
    cases m k <;> simp
  · rw [SMap.getD, h1]
    cases m k <;> rfl
  · rw [SMap.index, h1]
    cases m k <;> simp
  · rw [SMap.index, h1, hk]
  · constructor
    · intro hmem
      rw [← h1]
      clear h1
      induction ms with
      | nil => simp at hmem
      | cons p ps ih =>
        unfold Sorted at h2
        rw [List.pairwise_cons] at h2
        obtain ⟨k0, v0⟩ := p
        unfold SMap.find?
        rcases List.mem_cons.1 hmem with h | h
        · cases h; simp
        · have hlt := h2.1 (k, v) h
          rw [if_neg]
          · exact ih h2.2 h
          · rintro rfl; simp [keyLt_irrefl] at hlt
    · intro hk
      exact find?_mem ((h1 k).trans hk)
  · have hnd := Sorted.nodup h2
    have := nodup_length_eq hnd hn (fun k => by
      rw [hk, ← h1, ne_eq, find?_eq_none, Decidable.not_not])
    simpa using this

/-- A non-trivial history. -/
example : (SMap.history ([] : List (Bytes × Nat)) [.append [98] 1, .insert [97] 2, .insert [98] 3, .append [97] 4, .erase [99], .erase [98]])
    = ([([97], 4)], [.done, .inserted true, .inserted false, .done, .erased 0, .erased 1]) := by decide +kernel

/-! ## C37 -/

/-- C37: after any history of append / replace / clear from an empty array, the calls raised index
errors exactly as on a sequence, the size and the elements are those of the sequence, indexing
below the size gives the element and at or beyond it raises an index error. -/
theorem C37_array_is_sequence {α : Type} (ops : List (Arr.Op α)) :
    let vs := (Arr.history [] ops).1
    let s := (seqHistory ⟨0, fun _ => none⟩ ops).1
    (Arr.history [] ops).2 = (seqHistory ⟨0, fun _ => none⟩ ops).2 ∧
    vs.length = s.size ∧
    (∀ i, i < s.size → ∃ v, s.at' i = some v ∧ Arr.index vs i = .ok v) ∧
    (∀ i, s.size ≤ i → Arr.index vs i = .error .index) := by
  intro vs s
  obtain ⟨⟨h1, h2⟩, h3⟩ := arr_history ops [] ⟨0, fun _ => none⟩ ⟨rfl, by simp⟩
  refine ⟨h3, h1, fun i hi => ?_, fun i hi => ?_⟩
  · have hl : i < vs.length := by rw [show vs.length = s.size from h1]; exact hi
    refine ⟨vs[i], ?_, ?_⟩
    · rw [← show vs[i]? = s.at' i from h2 i]; simp [hl]
    · rw [Arr.index, if_neg (by omega)]; simp [hl]
  · rw [Arr.index, if_pos (by rw [show vs.length = s.size from h1]; exact hi)]

example : Arr.history ([] : List Nat) [.replace 0 7, .append 1, .append 2, .replace 1 5] = ([1, 5], [true, false, false, false]) := by
  decide +kernel

/-! ## C38 -/

/-- C38: for a format written from the documented letters, each optionally followed by `?`, the
parameter check passes exactly the arrays with one acceptable value per letter, reports a length
error exactly when the number of values is wrong, and otherwise a type error. -/
theorem C38_checkItems (ps : List Param) (vs : List Value) :
    (Arr.checkItems (asc (formatText ps)) vs = .ok () ↔ FitsAll ps vs) ∧
    (Arr.checkItems (asc (formatText ps)) vs = .error .len ↔ vs.length ≠ ps.length) ∧
    (vs.length = ps.length → ¬ FitsAll ps vs → Arr.checkItems (asc (formatText ps)) vs = .error .type) := by
  have hlen : ((asc (formatText ps)).filter (· ≠ 63)).length = ps.length := count_letters ps
  unfold Arr.checkItems
  rw [hlen]
  by_cases h : vs.length = ps.length
  · obtain ⟨l1, l2⟩ := check_loop ps [] vs h
    simp only [List.nil_append, List.length_nil] at l1 l2
    simp only [ne_eq, h, not_true, if_false, iff_false]
    by_cases hf : FitsAll ps vs
    · have e : Arr.checkLoop (asc (formatText ps)) 0 vs = .ok () := l1 hf
      rw [e]; simp [hf]
    · have e : Arr.checkLoop (asc (formatText ps)) 0 vs = .error .type := l2 hf
      rw [e]; simp [hf]
  · simp only [ne_eq, h, not_false_eq_true, if_true]
    refine ⟨⟨fun hh => by simp at hh, fun hh => absurd (FitsAll.length hh) h⟩, trivial, fun hh => absurd hh (by simp)⟩

example : formatText [⟨.int, false⟩, ⟨.string, true⟩, ⟨.array, true⟩] = "is?A?" := by decide +kernel
example : FitsAll [⟨.int, false⟩, ⟨.string, true⟩, ⟨.array, true⟩] [.int 1, .null, .array []] :=
  .cons (Or.inl trivial) (.cons (Or.inr ⟨rfl, rfl⟩) (.cons (Or.inl trivial) .nil))
example : Arr.checkItems (asc "is?A?") [.int 1, .null, .array []] = .ok () := by decide +kernel

/-! ## C39 -/

/-- C39 fails as stated under the default date-time validation: cloning recomputes the unix time
and week day of a date-time from its calendar fields, so a date-time made with another unix time
(`ForceUTCTime`, a received one, `UTCTime` in a zone away from UTC) is cloned to a different one. -/
theorem C39_violated : ∃ (cfg : TreeBuilder.Cfg) (v : Value), (∀ s, cfg.strOk s = true) ∧ Held v ∧
    ∃ w, Clone.clone cfg v = .ok w ∧ opEq v w = .ok false := by
  refine ⟨⟨fun _ => true, some fun _ _ _ _ _ _ => (1000, 4)⟩, .dateTime ⟨1970, 1, 1, 0, 0, 0, 4, 0, 0⟩, fun _ => rfl, ?_, _, rfl, ?_⟩
  · simp [Held, IsI64]
  · decide +kernel

/-- C39 where the constructors' validation leaves the tree's own strings and date-times alone (in
particular with both validations off): the clone is the same tree. -/
theorem C39_clone_partial (cfg : TreeBuilder.Cfg) (v : Value) (hv : Held v)
    (hs : StringsAll (fun s => cfg.strOk s = true) v)
    (hd : cfg.mktime = none ∨ DatesAll (fun d => cfg.date d = d) v) :
    Clone.clone cfg v = .ok v := by
  rw [clone_value cfg v hv hs, mapDates_id]
  rcases hd with h | h
  · have e : (fun d => cfg.date d = d) = fun _ => True := by
      funext d; simp [TreeBuilder.Cfg.date, h]
    rw [e]
    exact datesAll_true v
  · exact h

example : Held (.struct [([97], .array [.int 1, .secret (.string [200])]), ([98], .dateTime ⟨2020, 1, 2, 3, 4, 5, 6, 7, 0⟩)]) ∧
    Clone.clone ⟨fun _ => true, none⟩ (.struct [([97], .array [.int 1, .secret (.string [200])])])
      = .ok (.struct [([97], .array [.int 1, .secret (.string [200])])]) := by
  refine ⟨?_, ?_⟩
  · simp [Held, HeldItems, HeldMembers, IsI64, keyLt]
  · rfl

end Frpc
