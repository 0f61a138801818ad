import Verif.Spec.Registry
import Verif.Proofs.StructMap
/-!
# Proofs about the method registry
-/
namespace Frpc
namespace Registry
open Spec.Registry
variable {σ : Type}

theorem depth_mem {v : Value} : ∀ {vs : List Value}, v ∈ vs → depth v ≤ depthItems vs
  | w :: vs, h => by
    simp only [depthItems]
    rcases List.mem_cons.1 h with rfl | h
    · omega
    · have := depth_mem h; omega

theorem depth_find {k : Bytes} {v : Value} : ∀ {ms : List (Bytes × Value)}, SMap.find? k ms = some v → depth v ≤ depthMembers ms
  | [], h => by simp [SMap.find?] at h
  | (k', w) :: ms, h => by
    simp only [depthMembers]
    simp only [SMap.find?] at h
    split at h
    · cases h; omega
    · have := depth_find h; omega

theorem member_ok {k : Bytes} {ms : List (Bytes × Value)} {v : Value} (h : member k ms = .ok v) : SMap.find? k ms = some v := by
  unfold member at h
  split at h <;> simp_all

theorem asArray_ok {v : Value} {ps : List Value} (h : asArray v = .ok ps) : v = .array ps := by
  cases v <;> simp [asArray] at h
  subst h; rfl

theorem asString_ok {v : Value} {s : Bytes} (h : asString v = .ok s) : v = .string s := by
  cases v <;> simp [asString] at h
  subst h; rfl

theorem multicallOne_congr (r : Reg σ) {c1 c2 : Handler σ → σ → List Value → Res σ} (st : σ) (ms : List (Bytes × Value))
    (h : ∀ h st ps, depthItems ps < depthMembers ms → c1 h st ps = c2 h st ps) : multicallOne r c1 st ms = multicallOne r c2 st ms := by
  unfold multicallOne
  split
  · rfl
  · split
    · rfl
    · split
      · rfl
      · rfl
      · split
        · rfl
        · next hm =>
          split
          · rfl
          · next ha =>
            refine h _ _ _ ?_
            have := depth_find (member_ok hm)
            rw [asArray_ok ha] at this
            simp only [depth] at this
            omega

theorem multicallLoop_congr (r : Reg σ) {c1 c2 : Handler σ → σ → List Value → Res σ} :
    ∀ (vs : List Value) (st : σ) (acc : List Value), (∀ h st ps, depthItems ps < depthItems vs → c1 h st ps = c2 h st ps) →
      multicallLoop r c1 st acc vs = multicallLoop r c2 st acc vs
  | [], st, acc, _ => by simp [multicallLoop]
  | v :: vs, st, acc, h => by
    have ih := fun st acc => multicallLoop_congr r vs st acc (fun hd s ps hp => h hd s ps (by simp only [depthItems]; omega))
    cases v <;> simp only [multicallLoop, ih]
    next ms =>
      rw [multicallOne_congr r st ms (fun hd s ps hp => h hd s ps (by simp only [depthItems, depth]; omega))]

/-- The bound on nested multicalls does not matter once it exceeds the depth of the parameters. -/
theorem callHandler_fuel (r : Reg σ) : ∀ (f f' : Nat) (h : Handler σ) (st : σ) (ps : List Value), depthItems ps < f → depthItems ps < f' →
    callHandler r f h st ps = callHandler r f' h st ps
  | 0, _, _, _, _, h1, _ => by omega
  | f + 1, 0, _, _, _, _, h1 => by omega
  | f + 1, f' + 1, h, st, ps, h1, h2 => by
    cases h <;> simp only [callHandler]
    unfold multicall
    split
    · next v =>
      split
      · rfl
      · split
        · rfl
        · next ha =>
          refine multicallLoop_congr r _ _ _ (fun hd s qs hq => callHandler_fuel r f f' hd s qs ?_ ?_)
          all_goals
            rw [asArray_ok ha] at h1 h2
            simp only [depthItems, depth] at h1 h2
            omega
    · rfl

theorem registerMethod_eq (r : Reg σ) (name : Bytes) (e : Entry σ) : registerMethod r name e = { r with methods := SMap.append name e r.methods } := rfl


/-- Registrations made one after another. -/
def fill (m : List (Bytes × Entry σ)) (l : List (Bytes × Entry σ)) : List (Bytes × Entry σ) := l.foldl (fun m x => SMap.append x.1 x.2 m) m

theorem fill_spec (l : List (Bytes × Entry σ)) : ∀ m : List (Bytes × Entry σ), Frpc.Sorted m →
    Frpc.Sorted (fill m l) ∧ (∀ k, k ∈ (fill m l).map (·.1) ↔ k ∈ m.map (·.1) ∨ k ∈ l.map (·.1)) ∧
    (∀ k, k ∉ l.map (·.1) → SMap.find? k (fill m l) = SMap.find? k m) ∧
    (∀ k e pre post, l = pre ++ (k, e) :: post → k ∉ post.map (·.1) → SMap.find? k (fill m l) = some e) := by
  induction l with
  | nil => intro m hm; refine ⟨hm, by simp [fill], by simp [fill], ?_⟩; intro k e pre post h; simp at h
  | cons x l ih =>
    intro m hm
    obtain ⟨a1, a2, a3⟩ := Frpc.append_spec x.1 x.2 m hm
    obtain ⟨i1, i2, i3, i4⟩ := ih _ a2
    have hf : fill m (x :: l) = fill (SMap.append x.1 x.2 m) l := rfl
    rw [hf]
    refine ⟨i1, fun k => ?_, fun k hk => ?_, fun k e pre post hl hk => ?_⟩
    · rw [i2, a3]; simp only [List.map_cons, List.mem_cons]; grind
    · simp only [List.map_cons, List.mem_cons, not_or] at hk
      rw [i3 k hk.2, a1, if_neg hk.1]
    · cases pre with
      | nil =>
        simp only [List.nil_append, List.cons.injEq] at hl
        obtain ⟨rfl, rfl⟩ := hl
        rw [i3 k hk, a1, if_pos rfl]
      | cons y pre =>
        simp only [List.cons_append, List.cons.injEq] at hl
        exact i4 k e pre post hl.2 hk

theorem foldl_step (ops : List (Op σ)) : ∀ r : Reg σ,
    (ops.foldl step r).methods = fill r.methods (ops.filterMap (fun op => match op with
      | .method n e => some (n, e)
      | .default _ => none)) ∧
    (ops.foldl step r).callbacks = r.callbacks ∧
    (ops.foldl step r).default = (ops.filterMap (fun op => match op with
      | .default d => some d
      | .method _ _ => none)).getLast?.getD r.default := by
  induction ops with
  | nil => intro r; simp [fill]
  | cons op ops ih =>
    intro r
    simp only [List.foldl_cons]
    obtain ⟨h1, h2, h3⟩ := ih (step r op)
    cases op with
    | method n e =>
      refine ⟨?_, by rw [h2]; rfl, by rw [h3]; rfl⟩
      rw [h1]; rfl
    | default d =>
      refine ⟨by rw [h1]; rfl, by rw [h2]; rfl, ?_⟩
      rw [h3]
      simp only [List.filterMap_cons, step, registerDefault]
      generalize ops.filterMap _ = l
      cases l with
      | nil => simp
      | cons a l => simp [List.getLast?_cons]

theorem new_methods (cb i : Bool) : (new σ cb i).methods = fill [] (if i then system else []) := by
  cases i <;> rfl

theorem after_methods (cb i : Bool) (ops : List (Op σ)) : (built cb i ops).methods = fill [] (registrations i ops) := by
  unfold built
  rw [(foldl_step ops _).1, new_methods]
  unfold registrations fill
  rw [List.foldl_append]
  rfl

theorem after_callbacks (cb i : Bool) (ops : List (Op σ)) : (built cb i ops).callbacks = cb := by
  unfold built
  rw [(foldl_step ops _).2.1]
  unfold new; split <;> rfl

theorem after_default (cb i : Bool) (ops : List (Op σ)) : (built cb i ops).default = lastDefault ops := by
  unfold built
  rw [(foldl_step ops _).2.2]
  have : (new σ cb i).default = none := by unfold new; split <;> rfl
  rw [this]
  cases ops <;> rfl

theorem sorted_nil : Frpc.Sorted ([] : List (Bytes × Entry σ)) := by simp [Frpc.Sorted]

theorem after_find_latest {cb i : Bool} {ops : List (Op σ)} {name : Bytes} {e : Entry σ} (h : Latest i ops name e) :
    SMap.find? name (built cb i ops).methods = some e := by
  obtain ⟨pre, post, h1, h2⟩ := h
  rw [after_methods]
  exact (fill_spec _ _ sorted_nil).2.2.2 name e pre post h1 h2

theorem after_find_none {cb i : Bool} {ops : List (Op σ)} {name : Bytes} (h : Unregistered i ops name) :
    SMap.find? name (built cb i ops).methods = none := by
  rw [after_methods, (fill_spec _ _ sorted_nil).2.2.1 name h]; rfl

/-- Every name was registered last with something, or not at all. -/
theorem latest_or (i : Bool) (ops : List (Op σ)) (name : Bytes) : (∃ e, Latest i ops name e) ∨ Unregistered i ops name := by
  unfold Latest Unregistered
  generalize registrations i ops = l
  induction l with
  | nil => right; simp
  | cons x l ih =>
    rcases ih with ⟨e, pre, post, h1, h2⟩ | h
    · left; exact ⟨e, x :: pre, post, by rw [h1]; rfl, h2⟩
    · by_cases hx : name = x.1
      · left; exact ⟨x.2, [], l, by rw [hx]; rfl, h⟩
      · right; simp only [List.map_cons, List.mem_cons, not_or]; exact ⟨hx, h⟩

theorem after_find {cb i : Bool} {ops : List (Op σ)} {name : Bytes} {e : Entry σ} :
    SMap.find? name (built cb i ops).methods = some e ↔ Latest i ops name e := by
  constructor
  · intro h
    rcases latest_or i ops name with ⟨e', h'⟩ | h'
    · have := after_find_latest (cb := cb) h'
      rw [h] at this; cases this; exact h'
    · rw [after_find_none h'] at h; cases h
  · exact after_find_latest

/-! ## Multicall -/

/-- Is the exception one that `multicall` does not catch? -/
theorem multicallCatch_some {e : Exn} {v : Value} : multicallCatch e = some v ↔ ∃ c m, Isolated e c m ∧ v = faultValue c m := by
  cases e <;> simp only [multicallCatch, Option.some.injEq, reduceCtorEq, false_iff]
  all_goals first
    | (constructor
       · rintro rfl
         exact ⟨_, _, by constructor, rfl⟩
       · rintro ⟨c, m, h, rfl⟩
         cases h; rfl)
    | (rintro ⟨c, m, h, _⟩; cases h)

theorem multicallCatch_none {e : Exn} : multicallCatch e = none ↔ ¬ ∃ c m, Isolated e c m := by
  cases e <;> simp only [multicallCatch, reduceCtorEq, false_iff, true_iff, Classical.not_not]
  all_goals first
    | exact ⟨_, _, by constructor⟩
    | (rintro ⟨c, m, h⟩; cases h)

/-- One element that is a call: as `dispatch`. -/
theorem multicallOne_call (r : Reg σ) (f : Nat) (st : σ) {ms : List (Bytes × Value)} {name : Bytes} {ps : List Value}
    (h : IsCall (.struct ms) name ps) (hf : depthItems ps < f) : multicallOne r (callHandler r f) st ms = dispatch r st name ps := by
  obtain ⟨ms', h1, h2, h3⟩ := h
  cases h1
  unfold multicallOne dispatch
  simp only [member, h2, asString]
  generalize SMap.find? name r.methods = x
  generalize r.default = d
  cases x <;> cases d <;> simp only [h3, asArray]
  all_goals exact callHandler_fuel r _ _ _ _ _ hf (by omega)

/-- One element that is not: a fault, and nothing is called. -/
theorem multicallOne_malformed (r : Reg σ) (c : Handler σ → σ → List Value → Res σ) (st : σ) {ms : List (Bytes × Value)}
    (h : ¬ ∃ name ps, IsCall (.struct ms) name ps) :
    ∃ e code m, multicallOne r c st ms = (.error e, st) ∧ Isolated e code m ∧ code ∈ ([-501, -502, -506] : List Int) := by
  unfold multicallOne
  have hm : ∀ k, SMap.find? k ms = none → ∃ m, member k ms = .error (.key m) := by
    intro k hk; unfold member; rw [hk]; exact ⟨_, rfl⟩
  have hs : ∀ v, (∀ s, v ≠ .string s) → ∃ m, asString v = .error (.type m) := by
    intro v hv; cases v <;> simp only [asString] <;> first | exact ⟨_, rfl⟩ | exact absurd rfl (hv _)
  have ha : ∀ v, (∀ s, v ≠ .array s) → ∃ m, asArray v = .error (.type m) := by
    intro v hv; cases v <;> simp only [asArray] <;> first | exact ⟨_, rfl⟩ | exact absurd rfl (hv _)
  cases hn : SMap.find? (asc "methodName") ms with
  | none =>
    obtain ⟨m, hm⟩ := hm _ hn
    rw [hm]
    exact ⟨_, _, m, rfl, .key m, by simp⟩
  | some nv =>
    have : member (asc "methodName") ms = .ok nv := by unfold member; rw [hn]
    rw [this]
    simp only
    by_cases hstr : ∃ s, nv = .string s
    · obtain ⟨name, rfl⟩ := hstr
      simp only [asString]
      have hp : (∃ e code m, member (asc "params") ms = .error e ∧ Isolated e code m ∧ code ∈ ([-501, -502, -506] : List Int)) ∨
          ∃ pv e code m, member (asc "params") ms = .ok pv ∧ asArray pv = .error e ∧ Isolated e code m ∧ code ∈ ([-501, -502, -506] : List Int) := by
        cases hq : SMap.find? (asc "params") ms with
        | none =>
          obtain ⟨m, hm⟩ := hm _ hq
          exact .inl ⟨_, _, m, hm, .key m, by simp⟩
        | some pv =>
          right
          have : member (asc "params") ms = .ok pv := by unfold member; rw [hq]
          by_cases hv : ∃ s, pv = .array s
          · obtain ⟨s, rfl⟩ := hv
            exact absurd ⟨name, s, ms, rfl, hn, hq⟩ h
          · obtain ⟨m, hm⟩ := ha pv (fun s hs => hv ⟨s, hs⟩)
            exact ⟨pv, _, _, m, this, hm, .type m, by simp⟩
      split
      · exact ⟨_, _, _, rfl, .fault _ _, by simp [NO_SUCH_METHOD]⟩
      all_goals
        rcases hp with ⟨e, code, m, h1, h2, h3⟩ | ⟨pv, e, code, m, h1, h2, h3, h4⟩
        · rw [h1]; exact ⟨e, code, m, rfl, h2, h3⟩
        · rw [h1]; simp only [h2]; exact ⟨e, code, m, rfl, h3, h4⟩
    · obtain ⟨m, hm⟩ := hs nv (fun s hs => hstr ⟨s, hs⟩)
      rw [hm]
      exact ⟨_, _, m, rfl, .type m, by simp⟩

/-- The loop of `multicall`: all elements answered, or it is left at one whose exception it does not catch. -/
theorem multicallLoop_spec (r : Reg σ) (f : Nat) : ∀ (vs : List Value) (st : σ) (acc : List Value), depthItems vs < f →
    (∃ rs st', multicallLoop r (callHandler r f) st acc vs = (.ok (.array (acc ++ rs)), st') ∧ Each (dispatch r) st vs rs st') ∨
    (∃ pre v post rs st1 name ps e st2, vs = pre ++ v :: post ∧ Each (dispatch r) st pre rs st1 ∧ IsCall v name ps ∧
      dispatch r st1 name ps = (.error e, st2) ∧ (¬ ∃ c m, Isolated e c m) ∧ multicallLoop r (callHandler r f) st acc vs = (.error e, st2))
  | [], st, acc, _ => by
    left; exact ⟨[], st, by simp [multicallLoop], .nil⟩
  | v :: vs, st, acc, hf => by
    simp only [depthItems] at hf
    have step : ∀ (x : Value) (st1 : σ), One (dispatch r) st v x st1 →
        multicallLoop r (callHandler r f) st acc (v :: vs) = multicallLoop r (callHandler r f) st1 (acc ++ [x]) vs →
        (∃ rs st', multicallLoop r (callHandler r f) st acc (v :: vs) = (.ok (.array (acc ++ rs)), st') ∧ Each (dispatch r) st (v :: vs) rs st') ∨
        (∃ pre v' post rs st1 name ps e st2, v :: vs = pre ++ v' :: post ∧ Each (dispatch r) st pre rs st1 ∧ IsCall v' name ps ∧
          dispatch r st1 name ps = (.error e, st2) ∧ (¬ ∃ c m, Isolated e c m) ∧ multicallLoop r (callHandler r f) st acc (v :: vs) = (.error e, st2)) := by
      intro x st1 h1 h2
      rcases multicallLoop_spec r f vs st1 (acc ++ [x]) (by omega) with ⟨rs, st', h3, h4⟩ | ⟨pre, v', post, rs, s1, name, ps, e, s2, h3, h4, h5, h6, h7, h8⟩
      · left
        exact ⟨x :: rs, st', by rw [h2, h3]; simp, .cons h1 h4⟩
      · right
        exact ⟨v :: pre, v', post, x :: rs, s1, name, ps, e, s2, by rw [h3]; rfl, .cons h1 h4, h5, h6, h7, by rw [h2, h8]⟩
    have notStruct : (∀ ms, v ≠ .struct ms) → One (dispatch r) st v (faultValue (-501) (asc "Parameter must be struct")) st := by
      intro h
      refine .malformed ?_ (by simp)
      rintro ⟨name, ps, ms, h1, _⟩
      exact h ms h1
    by_cases hs : ∃ ms, v = .struct ms
    · obtain ⟨ms, rfl⟩ := hs
      simp only [depth] at hf
      by_cases hc : ∃ name ps, IsCall (.struct ms) name ps
      · obtain ⟨name, ps, hc⟩ := hc
        have hd : depthItems ps < f := by
          obtain ⟨ms', h1, _, h3⟩ := hc
          cases h1
          have := depth_find h3
          simp only [depth] at this
          omega
        have h1 := multicallOne_call r f st hc hd
        generalize hr : dispatch r st name ps = q at h1
        obtain ⟨q, st1⟩ := q
        cases q with
        | ok x => exact step x st1 (.value hc hr) (by simp only [multicallLoop, h1])
        | error e =>
          cases hm : multicallCatch e with
          | some x =>
            obtain ⟨c, m, h2, rfl⟩ := multicallCatch_some.1 hm
            exact step _ st1 (.fault hc hr h2) (by simp only [multicallLoop, h1, hm])
          | none =>
            right
            exact ⟨[], _, vs, [], st, name, ps, e, st1, rfl, .nil, hc, hr, multicallCatch_none.1 hm, by simp only [multicallLoop, h1, hm]⟩
      · obtain ⟨e, code, m, h1, h2, h3⟩ := multicallOne_malformed r (callHandler r f) st hc
        have h4 := multicallCatch_some.2 ⟨code, m, h2, rfl⟩
        exact step (faultValue code m) st (.malformed hc h3) (by simp only [multicallLoop, h1, h4])
    · have hs' : ∀ ms, v ≠ .struct ms := fun ms h => hs ⟨ms, h⟩
      refine step _ st (notStruct hs') ?_
      cases v <;> first | rfl | exact absurd rfl (hs' _)

theorem Each.length {call : σ → Bytes → List Value → Res σ} : ∀ {st vs rs st'}, Each call st vs rs st' → rs.length = vs.length
  | _, _, _, _, .nil => rfl
  | _, _, _, _, .cons _ h => by simp [Each.length h]

theorem check1_array (vs : List Value) : check1 65 (asc "array") (.array vs) = .ok () := by
  simp [check1, Arr.checkItems, Arr.checkLoop, Arr.wanted, Compare.typeTag]

theorem check1_string (s : Bytes) : check1 115 (asc "string") (.string s) = .ok () := by
  simp [check1, Arr.checkItems, Arr.checkLoop, Arr.wanted, Compare.typeTag]

theorem dispatch_multicall {r : Reg σ} {e : Entry σ} (he : SMap.find? (asc "system.multicall") r.methods = some e) (hh : e.handler = .multicall)
    (st : σ) (vs : List Value) : dispatch r st (asc "system.multicall") [.array vs] = multicallLoop r (callHandler r (depthItems vs + 1)) st [] vs := by
  unfold dispatch
  rw [he]
  simp only [hh]
  have : depthItems [.array vs] = depthItems vs + 1 := by simp [depthItems, depth]
  rw [this]
  simp only [callHandler, multicall, check1_array, asArray]

end Registry
end Frpc
