import Verif.Spec.FormTree
import Verif.Props.UrlForm
import Verif.Proofs.Build
/-!
# The tree that a URL-encoded form makes
-/
namespace Frpc
namespace FormTree
open Spec BinUnMarshaller TreeBuilder SMap
variable {cfg : TreeBuilder.Cfg}

/-- A call that gives a scalar. -/
def Scalar : Event → Prop
  | .int _ | .bool _ | .double _ | .string _ | .dateTime _ | .null => True
  | _ => False

theorem denotes_scalar {dbl : Bytes → BitVec 64 → Prop} {t : Bytes} {evs : List Event} (h : Denotes dbl t evs) : evs = [] ∨ ∃ e, evs = [e] ∧ Scalar e := by
  cases h <;> first | exact .inl rfl | exact .inr ⟨_, rfl, trivial⟩

theorem build_leaf {e : Event} (he : Scalar e) (hs : ∀ s, e = .string s → cfg.strOk s = true) (tb : TB) : build cfg tb e = place tb (leaf cfg e) := by
  cases e <;> first | rfl | exact he.elim | skip
  next s => simp only [build, hs s rfl, if_true, leaf]

/-- The values of the pieces are empty or scalars that the builder takes. -/
def Good (cfg : TreeBuilder.Cfg) (evs : List Event) : Prop := (evs = [] ∨ ∃ e, evs = [e] ∧ Scalar e) ∧ ∀ s, Event.string s ∈ evs → cfg.strOk s = true

theorem good_values {dbl : Bytes → BitVec 64 → Prop} : ∀ (ps : List Piece), (∀ p ∈ ps, p.Ok dbl) → (∀ p ∈ ps, FormOk cfg p) → ∀ k, ∀ evs ∈ valuesOf k ps, Good cfg evs ∧ k.length ≤ 255
  | [], _, _, _, _, h => absurd h (by simp [valuesOf])
  | .junk s :: ps, h1, h2, k, evs, h => good_values ps (fun p hp => h1 p (by simp [hp])) (fun p hp => h2 p (by simp [hp])) k evs (by simpa [valuesOf] using h)
  | .field n e ev :: ps, h1, h2, k, evs, h => by
    have ih := good_values ps (fun p hp => h1 p (by simp [hp])) (fun p hp => h2 p (by simp [hp])) k
    simp only [valuesOf] at h
    split at h
    · next hk =>
      rcases List.mem_cons.1 h with rfl | h
      · obtain ⟨-, -, -, t, -, ht⟩ := h1 (.field n e evs) (by simp)
        obtain ⟨g1, g2⟩ := h2 (.field n e evs) (by simp)
        exact ⟨⟨denotes_scalar ht, g2⟩, by rw [← hk]; exact g1⟩
      · exact ih evs h
    · exact ih evs h

/-- Scalars into an array. -/
theorem build_array : ∀ (vs : List (List Event)), (∀ evs ∈ vs, Good cfg evs) → ∀ (tb : TB) s acc fs, tb.frames = (s, .arr acc) :: fs →
    applyEvents (builder cfg) tb vs.flatten = ({ tb with frames := (s, .arr (acc ++ vs.flatten.map (leaf cfg))) :: fs }, none)
  | [], _, tb, s, acc, fs, hf => by simp [applyEvents, ← hf]
  | evs :: vs, h, tb, s, acc, fs, hf => by
    obtain ⟨h1, h2⟩ := h evs (by simp)
    rcases h1 with rfl | ⟨e, rfl, he⟩
    · simpa using build_array vs (fun x hx => h x (by simp [hx])) tb s acc fs hf
    · have hb : (builder cfg).build tb e = .ok { tb with frames := (s, .arr (acc ++ [leaf cfg e])) :: fs } := by
        show build cfg tb e = _
        rw [build_leaf he (fun s hs => h2 s (by rw [hs]; simp))]
        unfold place; rw [hf]; rfl
      rw [List.flatten_cons, List.singleton_append, applyEvents_cons hb, build_array vs (fun x hx => h x (by simp [hx])) _ s _ fs rfl]
      simp

/-- What is known of the struct after the members of `done`. -/
structure Inv (cfg : TreeBuilder.Cfg) (ps : List Piece) (done : List Bytes) (acc : List (Bytes × Value)) : Prop where
  sorted : Sorted acc
  find : ∀ k, find? k acc = if (k ++ asc "[]") ∈ done then some (.array ((valuesOf (k ++ asc "[]") ps).flatten.map (leaf cfg)))
    else if k ∈ done ∧ ¬ (∃ m, k = m ++ [91, 93]) then ((valuesOf k ps).head?.bind (·.head?)).map (leaf cfg) else none

theorem keyLt_append : ∀ (a b : Bytes), keyLt (a ++ b) a = false
  | [], b => by cases b <;> rfl
  | c :: a, b => by simp [keyLt, keyLt_append a b]

theorem brackets : asc "[]" = [91, 93] := by decide +kernel

/-- The calls of one member. -/
theorem build_member (ps : List Piece) {done : List Bytes} {acc : List (Bytes × Value)} (hi : Inv cfg ps done acc) (n : Bytes) (hn : ∀ d ∈ done, keyLt d n = true)
    (hne : valuesOf n ps ≠ []) (hg : ∀ evs ∈ valuesOf n ps, Good cfg evs ∧ n.length ≤ 255) (tb : TB) (s : Slot) (fs) (hf : tb.frames = (s, .str acc) :: fs) :
    ∃ acc' m, applyEvents (builder cfg) tb (memberCalls ps n) = ({ tb with frames := (s, .str acc') :: fs, memberName := m }, none) ∧ Inv cfg ps (done ++ [n]) acc' := by
  have hlen : n.length ≤ 255 := by
    cases hv : valuesOf n ps with
    | nil => exact absurd hv hne
    | cons a l => exact (hg a (by rw [hv]; simp)).2
  have hnot : n ∉ done := fun h => by have := hn n h; rw [keyLt_irrefl] at this; cases this
  unfold memberCalls block
  by_cases hm : ∃ m, n = m ++ [91, 93]
  · rw [if_pos hm]
    obtain ⟨m, rfl⟩ := hm
    have ht : (m ++ [91, 93]).take ((m ++ [91, 93]).length - 2) = m := by simp
    rw [ht]
    refine ⟨SMap.append m (.array ((valuesOf (m ++ [91, 93]) ps).flatten.map (leaf cfg))) acc, m, ?_, ?_⟩
    · have h1 : (builder cfg).build tb (.member m) = .ok { tb with memberName := m } := rfl
      have h2 : ∀ c, (builder cfg).build { tb with memberName := m } (.openArray c) = .ok { tb with memberName := m, frames := (.key m, .arr []) :: tb.frames } := by
        intro c
        show openC _ _ = _
        unfold openC
        simp only [hf]
        rw [if_neg (by simp at hlen; omega)]
      rw [List.append_assoc, List.cons_append, applyEvents_cons h1, List.cons_append, applyEvents_cons (h2 _), List.nil_append, applyEvents_append,
        build_array _ (fun e he => (hg e he).1) _ (.key m) [] tb.frames rfl]
      simp only [List.nil_append]
      rw [applyEvents_one (b' := { tb with frames := (s, .str (SMap.append m (.array ((valuesOf (m ++ [91, 93]) ps).flatten.map (leaf cfg))) acc)) :: fs, memberName := m }) ?_]
      simp only [builder, build, TreeBuilder.close, hf, attach, Cont.val]
    · obtain ⟨a1, a2, -⟩ := append_spec m (.array ((valuesOf (m ++ [91, 93]) ps).flatten.map (leaf cfg))) acc hi.sorted
      refine ⟨a2, fun k => ?_⟩
      rw [a1, hi.find k, brackets]
      by_cases hk : k = m
      · subst hk; simp
      · rw [if_neg hk]
        have e1 : (k ++ [91, 93] ∈ done ++ [m ++ [91, 93]]) ↔ k ++ [91, 93] ∈ done := by
          simp [hk]
        have e2 : (k ∈ done ++ [m ++ [91, 93]] ∧ ¬ ∃ m, k = m ++ [91, 93]) ↔ (k ∈ done ∧ ¬ ∃ m, k = m ++ [91, 93]) := by
          simp only [List.mem_append, List.mem_singleton]
          constructor
          · rintro ⟨h | h, h2⟩
            · exact ⟨h, h2⟩
            · exact absurd ⟨m, h⟩ h2
          · rintro ⟨h, h2⟩; exact ⟨.inl h, h2⟩
        simp only [e1, e2]
  · rw [if_neg hm]
    have h1 : (builder cfg).build tb (.member n) = .ok { tb with memberName := n } := rfl
    have hlate : n ++ [91, 93] ∉ done := fun h => by have := hn _ h; rw [keyLt_append] at this; cases this
    have hother : ∀ k, k ≠ n → (find? k acc = if (k ++ asc "[]") ∈ done ++ [n] then some (.array ((valuesOf (k ++ asc "[]") ps).flatten.map (leaf cfg)))
        else if k ∈ done ++ [n] ∧ ¬ (∃ m, k = m ++ [91, 93]) then ((valuesOf k ps).head?.bind (·.head?)).map (leaf cfg) else none) := by
      intro k hk
      rw [hi.find k, brackets]
      have e1 : (k ++ [91, 93] ∈ done ++ [n]) ↔ k ++ [91, 93] ∈ done := by
        simp only [List.mem_append, List.mem_singleton]
        constructor
        · rintro (h | h)
          · exact h
          · exact absurd ⟨k, h.symm⟩ hm
        · exact .inl
      have e2 : (k ∈ done ++ [n]) ↔ k ∈ done := by simp [hk]
      simp only [e1, e2]
    have hself : ∀ x, (if (n ++ asc "[]") ∈ done ++ [n] then some (.array ((valuesOf (n ++ asc "[]") ps).flatten.map (leaf cfg)))
        else if n ∈ done ++ [n] ∧ ¬ (∃ m, n = m ++ [91, 93]) then x else (none : Option Value)) = x := by
      intro x
      rw [brackets, if_neg (by
        simp only [List.mem_append, List.mem_singleton]
        rintro (h | h)
        · exact hlate h
        · exact hm ⟨n, h.symm⟩), if_pos ⟨by simp, hm⟩]
    cases hv : valuesOf n ps with
    | nil => exact absurd hv hne
    | cons evs l =>
      obtain ⟨⟨hgood, hstr⟩, -⟩ := hg evs (by rw [hv]; simp)
      rcases hgood with rfl | ⟨e, rfl, he⟩
      · refine ⟨acc, n, ?_, hi.sorted, fun k => ?_⟩
        · simp only [List.head?_cons, Option.getD_some, List.append_nil]
          rw [applyEvents_one h1, ← hf]
        · by_cases hk : k = n
          · subst hk
            rw [hself, hi.find, brackets, if_neg hlate, if_neg (by simp [hnot]), hv]
            rfl
          · exact hother k hk
      · obtain ⟨a1, a2, -⟩ := append_spec n (leaf cfg e) acc hi.sorted
        refine ⟨SMap.append n (leaf cfg e) acc, n, ?_, a2, fun k => ?_⟩
        · simp only [List.head?_cons, Option.getD_some]
          rw [List.singleton_append, applyEvents_cons h1]
          refine applyEvents_one ?_
          show build cfg _ e = _
          rw [build_leaf he (fun s hs => hstr s (by rw [hs]; simp))]
          unfold place
          simp only [hf, addTo, appendChecked]
          rw [if_neg (by omega)]
          rfl
        · rw [a1]
          by_cases hk : k = n
          · subst hk
            rw [if_pos rfl, hself, hv]
            rfl
          · rw [if_neg hk]; exact hother k hk

/-- The calls of all members. -/
theorem build_members (ps : List Piece) : ∀ (ns done : List Bytes) (acc : List (Bytes × Value)), Inv cfg ps done acc → (done ++ ns).Pairwise (fun x y => keyLt x y = true) →
    (∀ n ∈ ns, valuesOf n ps ≠ [] ∧ ∀ evs ∈ valuesOf n ps, Good cfg evs ∧ n.length ≤ 255) → ∀ (tb : TB) (s : Slot) (fs), tb.frames = (s, .str acc) :: fs →
    ∃ acc' m, applyEvents (builder cfg) tb (ns.flatMap (memberCalls ps)) = ({ tb with frames := (s, .str acc') :: fs, memberName := m }, none) ∧ Inv cfg ps (done ++ ns) acc'
  | [], done, acc, hi, _, _, tb, s, fs, hf => ⟨acc, tb.memberName, by simp [applyEvents, ← hf], by simpa using hi⟩
  | n :: ns, done, acc, hi, hs, hg, tb, s, fs, hf => by
    have hlt : ∀ d ∈ done, keyLt d n = true := fun d hd => (List.pairwise_append.1 hs).2.2 d hd n (by simp)
    obtain ⟨acc1, m1, h1, h2⟩ := build_member ps hi n hlt (hg n (by simp)).1 (hg n (by simp)).2 tb s fs hf
    obtain ⟨acc2, m2, h3, h4⟩ := build_members ps ns (done ++ [n]) acc1 h2 (by simpa using hs) (fun x hx => hg x (by simp [hx]))
      { tb with frames := (s, .str acc1) :: fs, memberName := m1 } s fs rfl
    refine ⟨acc2, m2, ?_, by simpa using h4⟩
    rw [List.flatMap_cons, applyEvents_append, h1]
    exact h3

/-- Every form has a list of its names in order. -/
theorem names (ps : List Piece) : ∃ ns : List Bytes, ns.Pairwise (fun x y => keyLt x y = true) ∧ ∀ k, k ∈ ns ↔ valuesOf k ps ≠ [] := by
  let fold : List Piece → List (Bytes × Unit) := fun ps => ps.foldr (fun p acc => match p with | .field n _ _ => SMap.append n () acc | .junk _ => acc) []
  have key : ∀ ps, Sorted (fold ps) ∧ ∀ k, k ∈ (fold ps).map (·.1) ↔ valuesOf k ps ≠ [] := by
    intro ps
    induction ps with
    | nil => exact ⟨List.Pairwise.nil, fun k => by simp [fold, valuesOf]⟩
    | cons p ps ih =>
      cases p with
      | junk s => exact ⟨ih.1, fun k => by simpa [fold, valuesOf] using ih.2 k⟩
      | field n e evs =>
        obtain ⟨-, a2, a3⟩ := append_spec n () (fold ps) ih.1
        refine ⟨a2, fun k => ?_⟩
        refine (a3 k).trans ?_
        rw [ih.2 k]
        simp only [valuesOf]
        split
        · next h => simp [h]
        · next h => simp [Ne.symm h]
  obtain ⟨h1, h2⟩ := key ps
  refine ⟨(fold ps).map (·.1), ?_, h2⟩
  rw [List.pairwise_map]
  exact h1

/-- Sorted structs with the same members are the same. -/
theorem sorted_ext : ∀ {a b : List (Bytes × Value)}, Sorted a → Sorted b → (∀ k, find? k a = find? k b) → a = b
  | [], [], _, _, _ => rfl
  | [], (k, v) :: b, _, _, h => by have := h k; simp [find?] at this
  | (k, v) :: a, [], _, _, h => by have := h k; simp [find?] at this
  | (k, v) :: a, (k', v') :: b, ha, hb, h => by
    have ha' := List.pairwise_cons.1 ha
    have hb' := List.pairwise_cons.1 hb
    have hk : k = k' := by
      rcases keyLt_total k k' with hlt | heq | hlt
      · have := h k
        simp only [find?, if_true] at this
        rw [if_neg (by rintro rfl; rw [keyLt_irrefl] at hlt; cases hlt), find?_none_of_lt (fun m hm => keyLt_trans _ _ _ hlt (hb'.1 m hm))] at this
        cases this
      · exact heq
      · have := h k'
        simp only [find?, if_true] at this
        rw [if_neg (by rintro rfl; rw [keyLt_irrefl] at hlt; cases hlt), find?_none_of_lt (fun m hm => keyLt_trans _ _ _ hlt (ha'.1 m hm))] at this
        cases this
    subst hk
    have hv := h k
    simp only [find?, if_true, Option.some.injEq] at hv
    subst hv
    rw [sorted_ext ha'.2 hb'.2 (fun k2 => ?_)]
    by_cases he : k2 = k
    · subst he
      rw [find?_none_of_lt ha'.1, find?_none_of_lt hb'.1]
    · have := h k2
      simpa only [find?, if_neg he] using this

/-- A form gives one list of members. -/
theorem isForm_unique {ps : List Piece} {a b : List (Bytes × Value)} (ha : IsForm cfg ps a) (hb : IsForm cfg ps b) : a = b := by
  refine sorted_ext ha.1 hb.1 (fun k => ?_)
  have key : ∀ {ms : List (Bytes × Value)}, IsForm cfg ps ms → ∀ v, find? k ms = some v ↔ FormMember cfg ps k v :=
    fun h v => ⟨fun hf => (h.2 k v).1 (find?_mem hf), fun hf => UrlForm.find?_of_mem h.1 ((h.2 k v).2 hf)⟩
  cases hf : find? k a with
  | some v => rw [(key hb v).2 ((key ha v).1 hf)]
  | none =>
    cases hg : find? k b with
    | none => rfl
    | some v => rw [(key ha v).2 ((key hb v).1 hg)] at hf; cases hf

/-- The tree of a form. -/
theorem form_built {dbl : Bytes → BitVec 64 → Prop} (name : Bytes) (ps : List Piece) (hok : ∀ p ∈ ps, p.Ok dbl) (hform : ∀ p ∈ ps, FormOk cfg p) (ns : List Bytes)
    (hsort : ns.Pairwise (fun x y => keyLt x y = true)) (hns : ∀ k, k ∈ ns ↔ valuesOf k ps ≠ []) (c : Nat) :
    ∃ tb ms, applyEvents (builder cfg) TreeBuilder.init ([.methodCall name, .openStruct c] ++ ns.flatMap (memberCalls ps) ++ [.closeStruct]) = (tb, none) ∧
      tb.methodName = name ∧ IsForm cfg ps ms ∧ getData tb = .ok (.array [.struct ms]) := by
  let tb0 : TB := { TreeBuilder.init with methodName := name, first := true, frames := [(.item, .str []), (.root, .arr [])] }
  obtain ⟨acc, m, h1, h2⟩ := build_members (cfg := cfg) ps ns [] [] ⟨List.Pairwise.nil, fun k => by simp [find?]⟩ (by simpa using hsort)
    (fun n hn => ⟨(hns n).1 hn, fun evs he => good_values ps hok hform n evs he⟩) tb0 .item [(.root, .arr [])] rfl
  rw [List.nil_append] at h2
  refine ⟨{ tb0 with frames := [(.root, .arr [.struct acc])], memberName := m }, acc, ?_, rfl, ⟨h2.sorted, fun k v => ?_⟩, rfl⟩
  · have g1 : (builder cfg).build TreeBuilder.init (.methodCall name) = .ok { TreeBuilder.init with methodName := name, first := true, frames := [(.root, .arr [])] } := rfl
    have g2 : (builder cfg).build { TreeBuilder.init with methodName := name, first := true, frames := [(.root, .arr [])] } (.openStruct c) = .ok tb0 := rfl
    rw [List.append_assoc, List.cons_append, applyEvents_cons g1, List.cons_append, applyEvents_cons g2, List.nil_append, applyEvents_append, h1]
    exact applyEvents_one rfl
  · have hmem : (k, v) ∈ acc ↔ find? k acc = some v := ⟨UrlForm.find?_of_mem h2.sorted, find?_mem⟩
    rw [hmem, h2.find k]
    unfold FormMember
    rw [brackets]
    by_cases ha : valuesOf (k ++ [91, 93]) ps = []
    · rw [if_neg (fun h => (hns _).1 h ha)]
      simp only [ha, ne_eq, not_true, false_and, false_or, true_and]
      by_cases hm : ∃ m, k = m ++ [91, 93]
      · rw [if_neg (fun h => h.2 hm)]
        simp [hm]
      · cases hv : valuesOf k ps with
        | nil => rw [if_neg (fun h => (hns k).1 h.1 hv)]; simp
        | cons evs l =>
          rw [if_pos ⟨(hns k).2 (by rw [hv]; simp), hm⟩]
          rcases (good_values ps hok hform k evs (by rw [hv]; simp)).1.1 with rfl | ⟨e, rfl, -⟩
          · simp
          · simp [hm, eq_comm]
    · rw [if_pos ((hns _).2 ha)]
      simp [ha, eq_comm]

end FormTree
end Frpc
