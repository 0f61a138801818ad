import Verif.Props.PyServer
/-!
# C112, C113: the `system` methods of the Python server
-/
namespace Frpc
open Spec.PyServer
open PyServer (Reg Op Fn Exc Env World Ret Method Callback Dispatch built step put register dispatchCall dispatchWith callStep callMethod postStep
  preStep faultOf faultText listMethods methodSignature methodHelp multicall multicallLoop multicallOne getItem cstr depth depthItems depthMembers)
open Python (Py Key Exn decodes)

variable {σ : Type}

/-! ## C112: introspection -/

namespace PyServer

/-- The names of the methods that were always there. -/
theorem new_names (pre : Option (Fn σ)) (post) (preRead : Option (Fn σ)) (i : Bool) (k : Bytes) :
    k ∈ (PyServer.new σ pre post preRead i).lookup.map (·.1) ↔
      k = asc "system.listMethods" ∨ k = asc "system.methodHelp" ∨ k = asc "system.methodSignature" ∨ k = asc "system.multicall" := by
  rw [(C110_new pre post preRead i).2.1]
  simp only [List.mem_cons, List.not_mem_nil, or_false]

/-- The names of a registry after a history. -/
theorem built_names : ∀ (ops : List (Op σ)) (r : Reg σ), Frpc.Sorted r.lookup → ∀ k,
    (k ∈ (built r ops).lookup.map (·.1) ↔ k ∈ r.lookup.map (·.1) ∨ ∃ a m, Op.method a ∈ ops ∧ Accepted a k m)
  | [], r, _, k => by simp [built]
  | op :: ops, r, hr, k => by
    show k ∈ (built (step r op) ops).lookup.map (·.1) ↔ _
    rcases PyServer.step_lookup r op with ⟨a, n, m, rfl, h1, h2⟩ | ⟨h1, h2⟩
    · have hp := PyServer.put_spec n m r.lookup hr
      rw [built_names ops _ (by rw [h2]; exact hp.1) k]
      have hk : k ∈ (step r (.method a)).lookup.map (·.1) ↔ k = n ∨ k ∈ r.lookup.map (·.1) := by
        have e1 := find?_eq_none (k := k) (ms := (step r (.method a)).lookup)
        have e2 := find?_eq_none (k := k) (ms := r.lookup)
        rw [h2, hp.2] at e1
        rw [h2]
        by_cases hkn : k = n
        · simp only [hkn, if_true] at e1 ⊢
          simp at e1 ⊢
          exact e1
        · rw [if_neg hkn] at e1
          constructor
          · intro h; right; exact Classical.byContradiction (fun hc => (e1.1 (e2.2 hc)) h)
          · rintro (h | h)
            · exact absurd h hkn
            · exact Classical.byContradiction (fun hc => (e2.1 (e1.2 hc)) h)
      rw [hk]
      constructor
      · rintro ((rfl | h) | ⟨a', m', h, h'⟩)
        · exact .inr ⟨a, m, List.mem_cons_self, h1⟩
        · exact .inl h
        · exact .inr ⟨a', m', List.mem_cons_of_mem _ h, h'⟩
      · rintro (h | ⟨a', m', h, h'⟩)
        · exact .inl (.inr h)
        · rcases List.mem_cons.1 h with h | h
          · cases h
            exact .inl (.inl (PyServer.accepted_unique h' h1).1)
          · exact .inr ⟨a', m', h, h'⟩
    · rw [built_names ops _ (by rw [h2]; exact hr) k, h2]
      constructor
      · rintro (h | ⟨a', m', h, h'⟩)
        · exact .inl h
        · exact .inr ⟨a', m', List.mem_cons_of_mem _ h, h'⟩
      · rintro (h | ⟨a', m', h, h'⟩)
        · exact .inl h
        · rcases List.mem_cons.1 h with h | h
          · exact absurd h' (h1 a' k m' h.symm)
          · exact .inr ⟨a', m', h, h'⟩

/-- Calls and registrations do not change what a registry was made with. -/
theorem built_kept : ∀ (ops : List (Op σ)) (r : Reg σ), (built r ops).pre = r.pre ∧ (built r ops).post = r.post ∧ (built r ops).introspection = r.introspection
  | [], r => ⟨rfl, rfl, rfl⟩
  | op :: ops, r => by
    obtain ⟨h1, h2, h3⟩ := built_kept ops (step r op)
    have : (step r op).pre = r.pre ∧ (step r op).post = r.post ∧ (step r op).introspection = r.introspection := by
      cases op with
      | method a =>
        simp only [step]
        cases hr : register r a with
        | error e => exact ⟨rfl, rfl, rfl⟩
        | ok r' =>
          obtain ⟨n, m, _, rfl⟩ := (C110_register_partial r a).1 r' hr
          exact ⟨rfl, rfl, rfl⟩
      | default m l h s =>
        simp only [step]
        cases hr : registerDefault r m l h s with
        | error e => exact ⟨rfl, rfl, rfl⟩
        | ok r' =>
          unfold registerDefault at hr
          split at hr
          · cases hr
          · split at hr
            · cases hr
            · cases hr; exact ⟨rfl, rfl, rfl⟩
      | head m => cases m <;> exact ⟨rfl, rfl, rfl⟩
    exact ⟨h1.trans this.1, h2.trans this.2.1, h3.trans this.2.2⟩

/-- What a built-in method does is what its call answers. -/
theorem dispatch_builtin {E : Env} (hE : E.hashOk = true) (r : Reg σ) (w : World σ) {name : Bytes} (ip : Py) (xs : List Py) (hn : decodes name = true)
    {m : Method σ} (hm : SMap.find? name r.lookup = some m) {s1 : σ} {w2 : World σ} {o : Except Exc Py} {v : Py} {s3 : σ}
    (hpre : Passed r.pre (preArgs (some m) name ip xs) w.user s1)
    (hcall : callMethod E r (dispatchCall E r (depth (.tuple xs))) { w with user := s1 } ip m (.ok (.tuple xs)) false = (Ret.of o, w2))
    (hpost : Finished r.post [.str name, ip, .tuple xs] o w2.user v s3) :
    PyServer.dispatch E r w name ip (.ok (.tuple xs)) = (.obj v, { w2 with user := s3 }) := by
  rw [PyServer.dispatch_eq]
  refine PyServer.dispatchWith_called hE r _ w ip xs hn (s1 := s1) (by rw [hm]; exact hpre) (.inl (by rw [hm]; rfl)) ?_ hpost
  unfold callStep
  simp only [hm]
  exact hcall

end PyServer

/-- **C112 (the list).** A call of `system.listMethods` is answered with the names of the methods, in order and each once: the four `system` methods and the names
of all registrations that were accepted; if there is a default list, with what `sort` makes of its names followed by those. Missing: see
`C112_violated`. -/
theorem C112_list_partial (E : Env) (hE : E.hashOk = true) (pre post preRead) (ops : List (Op σ)) (hu : Unregistered ops (asc "system.listMethods"))
    (w : World σ) (ip : Py) (xs : List Py) (s1 : σ) (hpre : Passed pre [.str (asc "system.listMethods"), ip, .tuple xs] w.user s1) :
    let r := built (PyServer.new σ pre post preRead true) ops
    ∃ names : List Bytes, names.Pairwise (fun a b => keyLt a b = true) ∧
      (∀ k, k ∈ names ↔ (k = asc "system.listMethods" ∨ k = asc "system.methodHelp" ∨ k = asc "system.methodSignature" ∨ k = asc "system.multicall") ∨
        ∃ a m, Op.method a ∈ ops ∧ Accepted a k m) ∧
      (∀ v s3, r.defaultList = none → Finished post [.str (asc "system.listMethods"), ip, .tuple xs] (.ok (.list (names.map .str))) s1 v s3 →
        ∃ w', PyServer.dispatch E r w (asc "system.listMethods") ip (.ok (.tuple xs)) = (.obj v, w') ∧ w'.user = s3) ∧
      (∀ f y ys s2 all v s3, r.defaultList = some f → f s1 [] = (.ok (.list (y :: ys)), s2) → E.sort (y :: ys ++ names.map .str) = .ok all →
        Finished post [.str (asc "system.listMethods"), ip, .tuple xs] (.ok (.list all)) s2 v s3 →
        ∃ w', PyServer.dispatch E r w (asc "system.listMethods") ip (.ok (.tuple xs)) = (.obj v, w') ∧ w'.user = s3) := by
  intro r
  have h0 := C110_new pre post preRead true
  obtain ⟨h1, h2, h3⟩ := C110_history (PyServer.new σ pre post preRead true) h0.1 ops (asc "system.listMethods")
  have hk := PyServer.built_kept ops (PyServer.new σ pre post preRead true)
  have hm := h2 hu
  have hf : ∃ m, SMap.find? (asc "system.listMethods") (PyServer.new σ pre post preRead true).lookup = some m ∧ m.callback = .listMethods ∧ m.names = none :=
    ⟨_, rfl, rfl, rfl⟩
  obtain ⟨m, hf, hcb, hns⟩ := hf
  rw [hf] at hm
  have hpa : preArgs (some m) (asc "system.listMethods") ip xs = [.str (asc "system.listMethods"), ip, .tuple xs] := by
    obtain ⟨a1, a2, a3, a4, a5, a6⟩ := m
    simp only at hns
    subst hns
    rfl
  refine ⟨r.lookup.map (·.1), ?_, ?_, ?_, ?_⟩
  · rw [List.pairwise_map]; exact h3
  · intro k
    rw [PyServer.built_names ops _ h0.1 k, PyServer.new_names]
  · intro v s3 hd hpost
    refine ⟨_, PyServer.dispatch_builtin hE r w ip xs (by decide +kernel) hm (s1 := s1) (w2 := { user := s1, corrupt := true }) (o := .ok (.list ((r.lookup.map (·.1)).map .str)))
      (by rw [hk.1, hpa]; exact hpre) ?_ (by rw [hk.2.1]; exact hpost), rfl⟩
    have hi : r.introspection = true := hk.2.2
    unfold callMethod
    rw [hcb]
    simp only [listMethods, hi, hd, PyServer.retPending, Ret.of, List.map_map]
    rfl
  · intro f y ys s2 all v s3 hd hq hsort hpost
    refine ⟨_, PyServer.dispatch_builtin hE r w ip xs (by decide +kernel) hm (s1 := s1) (w2 := { user := s2, corrupt := true }) (o := .ok (.list all))
      (by rw [hk.1, hpa]; exact hpre) ?_ (by rw [hk.2.1]; exact hpost), rfl⟩
    have hi : r.introspection = true := hk.2.2
    unfold callMethod
    rw [hcb]
    rw [List.map_map] at hsort
    have e : (Py.str ∘ fun x => x.1) = (fun m : Bytes × Method σ => Py.str m.1) := rfl
    rw [e, List.cons_append] at hsort
    simp only [listMethods, hi, hd, hq, PyServer.retPending, Ret.of]
    simp [hsort]

namespace PyServer

/-- The two methods that take a name. -/
theorem find_builtin (pre : Option (Fn σ)) (post) (preRead : Option (Fn σ)) (i : Bool) (ops : List (Op σ)) (name : Bytes) (cb : Callback σ) (hu : Unregistered ops name)
    (h : name = asc "system.methodSignature" ∧ cb = .methodSignature ∨ name = asc "system.methodHelp" ∧ cb = .methodHelp ∨
      name = asc "system.listMethods" ∧ cb = .listMethods ∨ name = asc "system.multicall" ∧ cb = .multicall) :
    ∃ m, SMap.find? name (built (PyServer.new σ pre post preRead i) ops).lookup = some m ∧ m.callback = cb ∧ m.names = none := by
  have h0 := C110_new pre post preRead i
  rw [(C110_history (PyServer.new σ pre post preRead i) h0.1 ops name).2.1 hu]
  rcases h with ⟨rfl, rfl⟩ | ⟨rfl, rfl⟩ | ⟨rfl, rfl⟩ | ⟨rfl, rfl⟩ <;> exact ⟨_, rfl, rfl, rfl⟩

theorem preArgs_none {m : Method σ} (h : m.names = none) (name : Bytes) (ip : Py) (xs : List Py) : preArgs (some m) name ip xs = [.str name, ip, .tuple xs] := by
  obtain ⟨a1, a2, a3, a4, a5, a6⟩ := m
  simp only at h
  subst h
  rfl

theorem nameArg_str {name : Bytes} (h : (0 : UInt8) ∉ name) : PyServer.nameArg [.str name] = some name := by
  have := (PyServer.name_given (.str name) name).2 ⟨rfl, h⟩
  simp only [PyServer.nameArg, this]

end PyServer

/-- **C112 (signatures and help).** A call of `system.methodSignature` (`system.methodHelp`) with the name of a method is answered with the signature
(the help) that was registered last under it; with another name with what the default callback says of it, or the fault -502 if there is none. -/
theorem C112_about_partial (E : Env) (hE : E.hashOk = true) (pre post preRead) (ops : List (Op σ)) (w : World σ) (ip : Py) (name : Bytes) (h0 : (0 : UInt8) ∉ name)
    (s1 : σ) (sys : Bytes) (hsys : sys = asc "system.methodSignature" ∨ sys = asc "system.methodHelp") (hu : Unregistered ops sys)
    (hpre : Passed pre [.str sys, ip, .tuple [.str name]] w.user s1) :
    let r := built (PyServer.new σ pre post preRead true) ops
    let answer := fun (o : Except Exc Py) (s2 : σ) => ∀ v s3, Finished post [.str sys, ip, .tuple [.str name]] o s2 v s3 →
      PyServer.dispatch E r w sys ip (.ok (.tuple [.str name])) = (.obj v, { w with user := s3 })
    (∀ m, Latest ops name m → answer (.ok (if sys = asc "system.methodSignature" then m.signature else m.help)) s1) ∧
    (SMap.find? name r.lookup = none → r.defaultSignature = none → r.defaultHelp = none → name.length ≤ 400 →
      decodes (asc "Method '" ++ name ++ asc "' not found.") = true → answer (.ok (.fault (-502) (asc "Method '" ++ name ++ asc "' not found."))) s1) ∧
    (∀ f s s2, sys = asc "system.methodSignature" → SMap.find? name r.lookup = none → r.defaultSignature = some f → f s1 [.str name] = (.ok (.str s), s2) →
      ∀ ps, Signatures s ps → answer (.ok (.list (ps.map (fun p => .list (p.map .str))))) s2) ∧
    (∀ f o s2, sys = asc "system.methodHelp" → SMap.find? name r.lookup = none → r.defaultHelp = some f → f s1 [.str name] = (o, s2) → answer o s2) := by
  intro r answer
  have hk := PyServer.built_kept ops (PyServer.new σ pre post preRead true)
  have hi : r.introspection = true := hk.2.2
  have hdec : decodes sys = true := by rcases hsys with rfl | rfl <;> decide +kernel
  have hna := PyServer.nameArg_str h0
  have main : ∀ (o : Except Exc Py) (s2 : σ),
      ((if sys = asc "system.methodSignature" then methodSignature E r { w with user := s1 } [.str name] else methodHelp E r { w with user := s1 } [.str name]) =
        (Ret.of o, { w with user := s2 })) → answer o s2 := by
    intro o s2 h v s3 hpost
    have hfind : ∃ m cb, SMap.find? sys r.lookup = some m ∧ m.callback = cb ∧ m.names = none ∧
        (sys = asc "system.methodSignature" ∧ cb = .methodSignature ∨ sys = asc "system.methodHelp" ∧ cb = .methodHelp) := by
      rcases hsys with rfl | rfl
      · obtain ⟨m, h1, h2, h3⟩ := PyServer.find_builtin pre post preRead true ops _ .methodSignature hu (.inl ⟨rfl, rfl⟩)
        exact ⟨m, _, h1, h2, h3, .inl ⟨rfl, rfl⟩⟩
      · obtain ⟨m, h1, h2, h3⟩ := PyServer.find_builtin pre post preRead true ops _ .methodHelp hu (.inr (.inl ⟨rfl, rfl⟩))
        exact ⟨m, _, h1, h2, h3, .inr ⟨rfl, rfl⟩⟩
    obtain ⟨m, cb, hm, hcb, hns, hsel⟩ := hfind
    refine PyServer.dispatch_builtin hE r w ip [.str name] hdec hm (s1 := s1) (w2 := { w with user := s2 }) (o := o)
      (by rw [hk.1, PyServer.preArgs_none hns]; exact hpre) ?_ (by rw [hk.2.1]; exact hpost)
    unfold callMethod
    rw [hcb]
    rcases hsel with ⟨rfl, rfl⟩ | ⟨rfl, rfl⟩
    · rw [if_pos rfl] at h
      simp only [h]
      cases o <;> rfl
    · rw [if_neg (by decide)] at h
      simp only [h]
      cases o <;> rfl
  refine ⟨?_, ?_, ?_, ?_⟩
  · intro m hm
    refine main _ _ ?_
    have hf := (C110_history (PyServer.new σ pre post preRead true) (C110_new pre post preRead true).1 ops name).1 m hm
    have hf : SMap.find? name r.lookup = some m := hf
    by_cases c : sys = asc "system.methodSignature"
    · rw [if_pos c, if_pos c]
      simp only [methodSignature, hna, hi, hf]
      rfl
    · rw [if_neg c, if_neg c]
      simp only [methodHelp, hna, hi, hf]
      rfl
  · intro hf hd hd' hlen htext
    refine main _ _ ?_
    have hl : (asc "Method '").length = 8 := rfl
    have hl' : (asc "' not found.").length = 12 := rfl
    have htake : (asc "Method '" ++ name ++ asc "' not found.").take 511 = asc "Method '" ++ name ++ asc "' not found." :=
      List.take_of_length_le (by simp only [List.length_append, hl, hl']; omega)
    have hmk : PyServer.makeFault E (-502) (asc "Method '" ++ name ++ asc "' not found.") = .ok (.fault (-502) (asc "Method '" ++ name ++ asc "' not found.")) := by
      simp only [PyServer.makeFault, faultText, htake, htext, if_true]
    by_cases c : sys = asc "system.methodSignature"
    · rw [if_pos c]
      simp only [methodSignature, hna, hi, hf, hd, hmk]
      rfl
    · rw [if_neg c]
      simp only [methodHelp, hna, hi, hf, hd', hmk]
      rfl
  · intro f s s2 c hf hd hq ps hps
    refine main _ _ ?_
    rw [if_pos c]
    simp only [methodSignature, hna, hi, hf, hd, hq, C109_accepted s ps hps]
    rfl
  · intro f o s2 c hf hd hq
    refine main _ _ ?_
    rw [if_neg (by rw [c]; decide)]
    simp only [methodHelp, hna, hi, hf, hd, hq]
    cases o <;> rfl

/-- **C112 (disabled).** When introspection is disabled, the three methods are answered with the fault -508, whatever is registered, and the callbacks for
unknown methods are not called. -/
theorem C112_disabled_partial (E : Env) (hE : E.hashOk = true) (pre post preRead) (ops : List (Op σ)) (w : World σ) (ip : Py)
    (s1 : σ) (sys : Bytes) (xs : List Py)
    (hsys : sys = asc "system.listMethods" ∨ (sys = asc "system.methodSignature" ∨ sys = asc "system.methodHelp") ∧ ∃ name, (0 : UInt8) ∉ name ∧ xs = [.str name])
    (hu : Unregistered ops sys) (hpre : Passed pre [.str sys, ip, .tuple xs] w.user s1) (v : Py) (s3 : σ)
    (hpost : Finished post [.str sys, ip, .tuple xs] (.ok (.fault (-508) (asc "Introspection API disabled for security reasons."))) s1 v s3) :
    ∃ w', PyServer.dispatch E (built (PyServer.new σ pre post preRead false) ops) w sys ip (.ok (.tuple xs)) = (.obj v, w') ∧ w'.user = s3 := by
  generalize hr : built (PyServer.new σ pre post preRead false) ops = r
  have hk := PyServer.built_kept ops (PyServer.new σ pre post preRead false)
  rw [hr] at hk
  have hi : r.introspection = false := hk.2.2
  have hmk : PyServer.makeFault E (-508) (asc "Introspection API disabled for security reasons.") = .ok (.fault (-508) (asc "Introspection API disabled for security reasons.")) := by
    have h1 : faultText (asc "Introspection API disabled for security reasons.") = some (asc "Introspection API disabled for security reasons.") := by decide +kernel
    simp only [PyServer.makeFault, h1]
  rcases hsys with rfl | ⟨hsys, name, h0, rfl⟩
  · obtain ⟨m, hm, hcb, hns⟩ := PyServer.find_builtin pre post preRead false ops _ .listMethods hu (.inr (.inr (.inl ⟨rfl, rfl⟩)))
    rw [hr] at hm
    refine ⟨_, PyServer.dispatch_builtin hE r w ip xs (by decide +kernel) hm (s1 := s1) (w2 := { user := s1, corrupt := true }) (by rw [hk.1, PyServer.preArgs_none hns]; exact hpre) ?_
      (by rw [hk.2.1]; exact hpost), rfl⟩
    unfold callMethod
    rw [hcb]
    simp only [listMethods, hi, hmk]
    rfl
  · have hna := PyServer.nameArg_str h0
    rcases hsys with rfl | rfl
    · obtain ⟨m, hm, hcb, hns⟩ := PyServer.find_builtin pre post preRead false ops _ .methodSignature hu (.inl ⟨rfl, rfl⟩)
      rw [hr] at hm
      refine ⟨_, PyServer.dispatch_builtin hE r w ip _ (by decide +kernel) hm (s1 := s1) (w2 := { w with user := s1 }) (by rw [hk.1, PyServer.preArgs_none hns]; exact hpre) ?_
        (by rw [hk.2.1]; exact hpost), rfl⟩
      unfold callMethod
      rw [hcb]
      simp only [methodSignature, hna, hi, hmk]
      rfl
    · obtain ⟨m, hm, hcb, hns⟩ := PyServer.find_builtin pre post preRead false ops _ .methodHelp hu (.inr (.inl ⟨rfl, rfl⟩))
      rw [hr] at hm
      refine ⟨_, PyServer.dispatch_builtin hE r w ip _ (by decide +kernel) hm (s1 := s1) (w2 := { w with user := s1 }) (by rw [hk.1, PyServer.preArgs_none hns]; exact hpre) ?_
        (by rw [hk.2.1]; exact hpost), rfl⟩
      unfold callMethod
      rw [hcb]
      simp only [methodHelp, hna, hi, hmk]
      rfl

/-- **C112 is false of the code in these ways.** Every call of `system.listMethods` that reaches the method, with whatever arguments, overwrites memory that
does not belong to it; and the signature that is given for `system.methodSignature` itself says that it returns a string, when it returns an array. -/
theorem C112_violated (E : Env) (r : Reg σ) (w : World σ) (ip : Py) (xs : List Py) (m : Method σ) (d : Dispatch σ) (b : Bool) (hm : m.callback = .listMethods) :
    (callMethod E r d w ip m (.ok (.tuple xs)) b).2.corrupt = true ∧
    (∀ pre post preRead, (SMap.find? (asc "system.methodSignature") (PyServer.new σ pre post preRead true).lookup).map (·.signature) =
      some (.list [.list [.str (asc "string"), .str (asc "string")]])) := by
  constructor
  · unfold callMethod
    rw [hm]
    simp only
    have : (listMethods E r w).2.corrupt = true := by
      unfold listMethods
      split
      · rfl
      · split
        · rfl
        · simp only
          split
          · rfl
          · split <;> rfl
          · rfl
    revert this
    generalize listMethods E r w = q
    obtain ⟨a, w'⟩ := q
    intro h
    cases b <;> cases a <;> exact h
  · intros; rfl

/-- The signature of a method in the examples. -/
def pySigned : Reg Nat := PyServer.built (PyServer.new Nat none none none true) [.method { name := .str (asc "f"), method := some pyCount, signature := some (.str (asc "A:i")) }]
example : PyServer.dispatch pyOld pySigned ⟨0, false⟩ (asc "system.methodSignature") (.tuple []) (.ok (.tuple [.str (asc "f")])) =
    (.obj (.list [.list [.str (asc "array"), .str (asc "int")]]), ⟨0, false⟩) := by
  refine (C112_about_partial pyOld rfl none none none [.method { name := .str (asc "f"), method := some pyCount, signature := some (.str (asc "A:i")) }] ⟨0, false⟩ (.tuple [])
    (asc "f") (by decide) 0 (asc "system.methodSignature") (.inl rfl) ?_ (.none rfl)).1
    ⟨.user pyCount, .list [.list [.str (asc "array"), .str (asc "int")]], .str [], none, none, 0⟩ ?_ _ _ (.plain _ rfl (.value _))
  · intro a m h hacc
    simp only [List.mem_singleton] at h
    cases h
    have := hacc.isName
    simp only [Py.str.injEq] at this
    exact absurd this (by decide)
  · exact ⟨[], _, [], rfl, ⟨rfl, by decide, ⟨_, rfl, rfl⟩, .inl ⟨rfl, rfl⟩, .text (asc "A:i") [[asc "array", asc "int"]]
      (.inl (.one _ _ (.mk 65 _ [105] _ (by decide) (.cons 105 _ _ _ (by decide) .nil)))), rfl, rfl, rfl⟩, nofun⟩

/-! ## C113: multicall -/

namespace PyServer

theorem getItem_some {ms : List (Key × Py)} {k : Bytes} {v : Py} (h : Item ms k v) : getItem k ms = some v := by
  obtain ⟨a, b, rfl, h⟩ := h
  induction a with
  | nil => simp [getItem]
  | cons m a ih =>
    have hm := h m List.mem_cons_self
    have := ih (fun m hm => h m (List.mem_cons_of_mem _ hm))
    obtain ⟨key, u⟩ := m
    cases key with
    | str j =>
      have hj : ¬ j = k := fun e => hm (by rw [e])
      simp only [List.cons_append, getItem, if_neg hj, this]
    | _ => simpa only [List.cons_append, getItem] using this

theorem getItem_none {ms : List (Key × Py)} {k : Bytes} (h : NoItem ms k) : getItem k ms = none := by
  induction ms with
  | nil => rfl
  | cons m ms ih =>
    have hm := h m List.mem_cons_self
    have := ih (fun m hm => h m (List.mem_cons_of_mem _ hm))
    obtain ⟨key, u⟩ := m
    cases key with
    | str j =>
      have hj : ¬ j = k := fun e => hm (by rw [e])
      simp only [getItem, if_neg hj, this]
    | _ => simpa only [getItem] using this

theorem depth_getItem {ms : List (Key × Py)} {k : Bytes} {v : Py} (h : getItem k ms = some v) : depth v ≤ depthMembers ms := by
  induction ms with
  | nil => cases h
  | cons m ms ih =>
    obtain ⟨key, u⟩ := m
    cases key with
    | str j =>
      simp only [getItem] at h
      simp only [depthMembers]
      split at h
      · cases h; omega
      · have := ih h; omega
    | _ =>
      simp only [getItem] at h
      simp only [depthMembers]
      have := ih h; omega

theorem depth_toTuple {p q : Py} (h : Python.toTuple p = .ok q) : depth q ≤ depth p := by
  cases p with
  | list xs => cases h; simp [depth]
  | tuple xs => cases h; exact Nat.le_refl _
  | _ => cases h

theorem depth_item {x : Py} : ∀ {xs : List Py}, x ∈ xs → depth x ≤ depthItems xs
  | y :: xs, h => by
    simp only [depthItems]
    rcases List.mem_cons.1 h with rfl | h
    · omega
    · have := depth_item h; omega

/-- One element needs only calls of smaller arguments. -/
theorem multicallOne_congr (E : Env) (d d' : Dispatch σ) (ip : Py) (w : World σ) (x : Py)
    (h : ∀ w name q, depth q < depth x → d w name ip (.ok q) = d' w name ip (.ok q)) :
    multicallOne E d ip w x = multicallOne E d' ip w x := by
  cases x with
  | dict ms =>
    simp only [multicallOne]
    cases hp : getItem (asc "params") ms with
    | none => rfl
    | some p =>
      simp only
      cases ht : Python.toTuple p with
      | error e => rfl
      | ok args =>
        simp only
        cases hn : getItem (asc "methodName") ms with
        | none => rfl
        | some n =>
          cases n with
          | str name =>
            simp only
            rw [h w (cstr name) args (by
              have h1 := depth_toTuple ht
              have h2 := depth_getItem hp
              simp only [depth]; omega)]
          | _ => rfl
  | _ => rfl

theorem multicallLoop_congr (E : Env) (d d' : Dispatch σ) (ip : Py) : ∀ (xs : List Py) (w : World σ) (acc : List Py),
    (∀ w name q, depth q < depthItems xs → d w name ip (.ok q) = d' w name ip (.ok q)) →
    multicallLoop E d ip w acc xs = multicallLoop E d' ip w acc xs
  | [], w, acc, h => rfl
  | x :: xs, w, acc, h => by
    simp only [depthItems] at h
    simp only [multicallLoop]
    rw [multicallOne_congr E d d' ip w x (fun w name q hq => h w name q (by omega))]
    cases multicallOne E d' ip w x with
    | mk r w' =>
      cases r with
      | obj v => exact multicallLoop_congr E d d' ip xs w' _ (fun w name q hq => h w name q (by omega))
      | _ => rfl

/-- A call needs only calls of smaller arguments. -/
theorem dispatchWith_congr (E : Env) (r : Reg σ) (d d' : Dispatch σ) (w : World σ) (name : Bytes) (ip p : Py)
    (h : ∀ w name q, depth q < depth p → d w name ip (.ok q) = d' w name ip (.ok q)) :
    dispatchWith E r d w name ip (.ok p) = dispatchWith E r d' w name ip (.ok p) := by
  have hm : ∀ w m b, callMethod E r d w ip m (.ok p) b = callMethod E r d' w ip m (.ok p) b := by
    intro w m b
    unfold callMethod
    cases m.callback with
    | user f => rfl
    | listMethods => rfl
    | methodSignature => rfl
    | methodHelp => rfl
    | multicall =>
      simp only
      cases p with
      | tuple xs =>
        simp only
        have : multicall E d ip w xs = multicall E d' ip w xs := by
          match xs with
          | [] => rfl
          | [x] =>
            cases x with
            | list calls =>
              simp only [multicall]
              refine multicallLoop_congr E d d' ip calls w [] (fun w name q hq => h w name q ?_)
              simp only [depth, depthItems]
              omega
            | _ => rfl
          | _ :: _ :: _ => simp only [multicall]
        rw [this]
      | _ => rfl
  have hc : ∀ w b, callStep E r d w name ip (.ok p) b = callStep E r d' w name ip (.ok p) b := by
    intro w b
    unfold callStep
    cases SMap.find? name r.lookup with
    | none => rfl
    | some m => exact hm w m _
  unfold dispatchWith
  simp only [hc]

/-- The bound on nested multicalls is never reached. -/
theorem dispatchCall_enough (E : Env) (r : Reg σ) (ip : Py) : ∀ (n : Nat) (p : Py), depth p < n → ∀ (w : World σ) (name : Bytes),
    dispatchCall E r n w name ip (.ok p) = PyServer.dispatch E r w name ip (.ok p)
  | n + 1, p, hn, w, name => by
    rw [PyServer.dispatch_eq]
    show dispatchWith E r (dispatchCall E r n) w name ip (.ok p) = _
    refine dispatchWith_congr E r _ _ w name ip p (fun w name q hq => ?_)
    rw [dispatchCall_enough E r ip n q (by omega) w name, dispatchCall_enough E r ip (depth p) q hq w name]

theorem cstr_eq {s : Bytes} (h : (0 : UInt8) ∉ s) : cstr s = s := by
  induction s with
  | nil => rfl
  | cons c s ih =>
    simp only [List.mem_cons, not_or] at h
    simp only [cstr] at ih ⊢
    rw [List.takeWhile_cons, if_pos (by simpa using fun e => h.1 e.symm), ih h.2]

theorem multicallOne_call (E : Env) (d : Dispatch σ) (ip : Py) (w w' : World σ) (x : Py) (name : Bytes) (args : List Py) (v r : Py)
    (hx : IsCall x name args) (h0 : (0 : UInt8) ∉ name) (hd : d w name ip (.ok (.tuple args)) = (.obj v, w')) (hs : Stands v r) :
    multicallOne E d ip w x = (.obj r, w') := by
  obtain ⟨ms, rfl, hn, hp⟩ := hx
  have hn := getItem_some hn
  have hp : ∃ p, getItem (asc "params") ms = some p ∧ Python.toTuple p = .ok (.tuple args) := by
    rcases hp with hp | hp
    · exact ⟨_, getItem_some hp, rfl⟩
    · exact ⟨_, getItem_some hp, rfl⟩
  obtain ⟨p, hp, ht⟩ := hp
  simp only [multicallOne, hp, ht, hn, cstr_eq h0, hd]
  cases hs with
  | fault c m => rfl
  | value v hv => cases v <;> first | rfl | exact absurd rfl (hv _ _)

theorem multicallOne_malformed (E : Env) (d : Dispatch σ) (ip : Py) (w : World σ) (x : Py) (text : Bytes) (hx : Malformed x text) :
    multicallOne E d ip w x = (.obj (faultItem (-501) text), w) := by
  cases hx with
  | object x h => cases x <;> first | rfl | exact absurd rfl (h _)
  | noParams ms h => simp only [multicallOne, getItem_none h]; rfl
  | noArray ms p h h1 h2 =>
    have ht : ∃ e, Python.toTuple p = .error e := by cases p <;> first | exact ⟨_, rfl⟩ | exact absurd rfl (h1 _) | exact absurd rfl (h2 _)
    obtain ⟨e, ht⟩ := ht
    simp only [multicallOne, getItem_some h, ht]; rfl
  | noName ms p l h hl hn =>
    have ht : Python.toTuple p = .ok (.tuple l) := by rcases hl with rfl | rfl <;> rfl
    simp only [multicallOne, getItem_some h, ht, getItem_none hn]; rfl

theorem multicallLoop_oneByOne (E : Env) (r : Reg σ) (n : Nat) (ip : Py) {w w' : World σ} {xs rs : List Py}
    (h : OneByOne (fun w name args v w' => PyServer.dispatch E r w name ip (.ok (.tuple args)) = (.obj v, w')) w xs rs w') :
    depthItems xs ≤ n → ∀ acc, multicallLoop E (dispatchCall E r n) ip w acc xs = (.obj (.list (acc ++ rs)), w') := by
  induction h with
  | nil w => intro _ acc; simp [multicallLoop]
  | call w w' w'' x name args v r' xs rs hx h0 hrun hs _ ih =>
    intro hn acc
    simp only [depthItems] at hn
    have hd : depth (.tuple args) < depth x := by
      obtain ⟨ms, rfl, _, hp⟩ := hx
      simp only [depth]
      rcases hp with hp | hp
      · have := depth_getItem (getItem_some hp); simp only [depth] at this; omega
      · have := depth_getItem (getItem_some hp); simp only [depth] at this; omega
    have hc := multicallOne_call E (dispatchCall E r n) ip w w' x name args v r' hx h0
      (by rw [dispatchCall_enough E r ip n _ (by omega)]; exact hrun) hs
    simp only [multicallLoop, hc]
    rw [ih (by omega)]
    simp
  | malformed w w' x text xs rs hx _ ih =>
    intro hn acc
    simp only [depthItems] at hn
    simp only [multicallLoop, multicallOne_malformed E _ ip w x text hx]
    rw [ih (by omega)]
    simp

end PyServer

/-- **C113 (multicall).** A call of `system.multicall` with a list does the calls in it one by one, in order, each exactly as that call on its own would be done
in the state that the calls before it left (with the same preprocessor, postprocessor and address of the client), and answers with the list of what
they answer, a fault as a struct; an element that is no call is answered with the fault -501 in its place and the others are done all the same.
Multicalls may be nested. Missing: see `C113_violated`. -/
theorem C113_multicall_partial (E : Env) (hE : E.hashOk = true) (r : Reg σ) (w : World σ) (ip : Py) (m : Method σ)
    (hm : SMap.find? (asc "system.multicall") r.lookup = some m) (hcb : m.callback = .multicall)
    (calls rs : List Py) (s1 : σ) (w2 : World σ) (v : Py) (s3 : σ)
    (hpre : Passed r.pre (preArgs (some m) (asc "system.multicall") ip [.list calls]) w.user s1)
    (hcalls : OneByOne (fun w name args v w' => PyServer.dispatch E r w name ip (.ok (.tuple args)) = (.obj v, w')) { w with user := s1 } calls rs w2)
    (hpost : Finished r.post [.str (asc "system.multicall"), ip, .tuple [.list calls]] (.ok (.list rs)) w2.user v s3) :
    PyServer.dispatch E r w (asc "system.multicall") ip (.ok (.tuple [.list calls])) = (.obj v, { w2 with user := s3 }) := by
  refine PyServer.dispatch_builtin hE r w ip [.list calls] (by decide +kernel) hm (s1 := s1) (w2 := w2) (o := .ok (.list rs)) hpre ?_ hpost
  unfold callMethod
  rw [hcb]
  simp only [multicall]
  rw [PyServer.multicallLoop_oneByOne E r _ ip hcalls (by simp only [depth, depthItems]; omega)]
  rfl

/-- **C113 is false of the code in these ways.** (1) The results are not in arrays of one element, as the help of the method and the XML-RPC convention have it: a method
that returns the struct of a fault is answered exactly as one that raised the fault. (2) A name is cut at a NUL: the call of `f\0x` runs `f`.
(3) An argument that is no list is the fault -500 and not -501. -/
theorem C113_violated (E : Env) (hE : E.hashOk = true) (d : Dispatch σ) (ip : Py) (w : World σ) (args : List Py) (name : Bytes) (h0 : (0 : UInt8) ∉ name) :
    let call := fun (n : Bytes) => Py.dict [(.str (asc "methodName"), .str n), (.str (asc "params"), .list args)]
    (∀ c t w', d w name ip (.ok (.tuple args)) = (.obj (.fault c t), w') → multicallOne E d ip w (call name) = (.obj (faultItem c t), w')) ∧
    (∀ c t w', d w name ip (.ok (.tuple args)) = (.obj (faultItem c t), w') → multicallOne E d ip w (call name) = (.obj (faultItem c t), w')) ∧
    (∀ rest, multicallOne E d ip w (call (name ++ 0 :: rest)) = multicallOne E d ip w (call name)) ∧
    (multicall E d ip w [.int 1] = (.null (E.raise .type), w) ∧ faultOf E (asc "Unhandled exception ") (E.raise .type) = .ok (.fault (-500) (asc "Unhandled exception " ++ E.text .type))) := by
  intro call
  have h1 : getItem (asc "params") [(.str (asc "methodName"), .str name), (.str (asc "params"), .list args)] = some (.list args) := rfl
  have hitem : IsCall (call name) name args :=
    ⟨_, rfl, ⟨[], _, rfl, nofun⟩, .inl ⟨[(.str (asc "methodName"), .str name)], [], rfl, by
      intro m hm; simp only [List.mem_singleton] at hm; subst hm; simp; decide⟩⟩
  refine ⟨?_, ?_, ?_, rfl, ?_⟩
  · intro c t w' h
    exact PyServer.multicallOne_call E d ip w w' _ name args _ _ hitem h0 h (.fault c t)
  · intro c t w' h
    exact PyServer.multicallOne_call E d ip w w' _ name args _ _ hitem h0 h (.value _ (by intros; simp [faultItem]))
  · intro rest
    have : ∀ s : Bytes, (0 : UInt8) ∉ s → cstr (s ++ 0 :: rest) = s := by
      intro s hs
      induction s with
      | nil => rfl
      | cons c s ih =>
        simp only [List.mem_cons, not_or] at hs
        simp only [cstr] at ih ⊢
        rw [List.cons_append, List.takeWhile_cons, if_pos (by simpa using fun e => hs.1 e.symm), ih hs.2]
    have e1 : cstr (name ++ 0 :: rest) = cstr name := by rw [this name h0, PyServer.cstr_eq h0]
    show multicallOne E d ip w (.dict _) = multicallOne E d ip w (.dict _)
    have g1 : ∀ n : Bytes, getItem (asc "params") [(.str (asc "methodName"), .str n), (.str (asc "params"), .list args)] = some (.list args) := fun _ => rfl
    have g2 : ∀ n : Bytes, getItem (asc "methodName") [(.str (asc "methodName"), .str n), (.str (asc "params"), .list args)] = some (.str n) := fun _ => rfl
    simp only [multicallOne, g1, g2, Python.toTuple, e1]
  · simp [faultOf, hE, Env.raise]

example : PyServer.dispatch pyOld pySigned ⟨0, false⟩ (asc "system.multicall") (.tuple []) (.ok (.tuple [.list [
      .dict [(.str (asc "methodName"), .str (asc "f")), (.str (asc "params"), .list [.int 7])], .int 3,
      .dict [(.str (asc "methodName"), .str (asc "g")), (.str (asc "params"), .list [])]]])) =
    (.obj (.list [.list [.int 7], faultItem (-501) (asc "Expected structure with method call."), faultItem (-506) (asc "Method 'g' not found.")]), ⟨1, false⟩) := by
  refine C113_multicall_partial pyOld rfl pySigned ⟨0, false⟩ (.tuple []) _ rfl rfl _ _ 0 ⟨1, false⟩ _ 1 (.none rfl) ?_ (.plain _ rfl (.value _))
  refine .call _ ⟨1, false⟩ _ _ (asc "f") [.int 7] _ _ _ _ ⟨_, rfl, ⟨[], _, rfl, nofun⟩, .inl ⟨[_], [], rfl, ?_⟩⟩ (by decide) ?_ (.value _ (by intros; simp)) ?_
  · intro m hm; simp only [List.mem_singleton] at hm; subst hm; simp; decide
  · exact C111_call_partial pyOld rfl pySigned ⟨0, false⟩ (asc "f") (by decide +kernel) (.tuple []) [.int 7] _ rfl pyCount rfl 0 1 1 (.ok (.list [.int 7])) _
      (.none rfl) rfl (.plain _ rfl (.value _))
  refine .malformed _ _ _ _ _ _ (.object _ (by intros; simp)) ?_
  refine .call _ ⟨1, false⟩ _ _ (asc "g") [] _ _ _ _ ⟨_, rfl, ⟨[], _, rfl, nofun⟩, .inl ⟨[_], [], rfl, ?_⟩⟩ (by decide) ?_ (.fault _ _) (.nil _)
  · intro m hm; simp only [List.mem_singleton] at hm; subst hm; simp; decide
  · exact C111_missing_partial pyOld rfl pySigned ⟨1, false⟩ (asc "g") (by decide +kernel) (by decide) (by decide +kernel) (.tuple []) [] rfl rfl 1 1 _
      (.none rfl) (.plain _ rfl (.value _))

end Frpc
