import Verif.Proofs.Registry
import Verif.Basic.Ascii
import Verif.Props.RoundTrip
/-!
# The method registry: C47, C48, C49, C50, C70, C71
-/
namespace Frpc
open Registry Spec.Registry
open TreeBuilder (getData)
open BinUnMarshaller (Req trace)
open Spec (Held Small DatesAll plain HeldItems SmallItems DatesAllItems plainItemsWith)
variable {σ : Type}

namespace Registry

theorem toFault_documented (e : Exn) : Documented e (toFault e) := by cases e <;> constructor

/-- What `processCall` does with the outcome of the method. -/
theorem processCall_eq (r : Reg σ) (st : σ) (name : Bytes) (ps : List Value) :
    (∀ v st', dispatch r st name ps = (.ok v, st') → processCall r st name ps =
      (.ok v, st', if r.callbacks then [.pre name ps, .postOk name ps v] else [])) ∧
    (∀ e st', dispatch r st name ps = (.error e, st') → processCall r st name ps =
      (.error (toFault e), st', if r.callbacks then [.pre name ps] else [])) := by
  constructor
  · intro v st' h
    unfold processCall
    rw [h]
    cases r.callbacks <;> rfl
  · intro e st' h
    unfold processCall
    rw [h]

theorem dispatch_latest {cb i : Bool} {ops : List (Op σ)} {name : Bytes} {e : Entry σ} (h : Latest i ops name e) (st : σ) (ps : List Value) :
    dispatch (built cb i ops) st name ps = callHandler (built cb i ops) (depthItems ps + 1) e.handler st ps := by
  unfold dispatch
  rw [after_find_latest h]

end Registry

/-- What the registry must do with a call: run the method registered last under the name, else the
default method registered last, else fail with -506. -/
inductive Spec.Registry.Runs (i : Bool) (ops : List (Op σ)) (st : σ) (name : Bytes) (ps : List Value) : Res σ → Prop
  | method {f s h} : Latest i ops name ⟨.user f, s, h⟩ → Runs i ops st name ps (f st ps)
  | default {d} : Unregistered i ops name → lastDefault ops = some d → Runs i ops st name ps (d st name ps)
  | none {m} : Unregistered i ops name → lastDefault ops = none → Runs i ops st name ps (.error (.fault (-506) m), st)

/-- **C47.** After any history of registrations, a call by any name with any arguments runs exactly the
method registered last under that name, else the default method, else none and the fault -506; its
value and the state it left are the caller's, its exceptions become the documented faults. -/
theorem C47_dispatch (cb i : Bool) (ops : List (Op σ)) (st : σ) (name : Bytes) (ps : List Value) :
    ((∃ e, Latest i ops name e) ∨ Unregistered i ops name) ∧
    (∀ e e', Latest i ops name e → Latest i ops name e' → e = e') ∧
    (Unregistered i ops name ∨ (∃ f s h, Latest i ops name ⟨.user f, s, h⟩) →
      ∃ r, Spec.Registry.Runs i ops st name ps r ∧ (processCall (built cb i ops) st name ps).2.1 = r.2 ∧
        match r.1 with
        | .ok v => (processCall (built cb i ops) st name ps).1 = .ok v
        | .error e => ∃ e', Documented e e' ∧ (processCall (built cb i ops) st name ps).1 = .error e') := by
  refine ⟨latest_or i ops name, fun e e' h h' => ?_, fun h => ?_⟩
  · have h1 := after_find_latest (cb := cb) h
    rw [after_find_latest h'] at h1
    cases h1; rfl
  · have key : ∃ r, Spec.Registry.Runs i ops st name ps r ∧ dispatch (built cb i ops) st name ps = r := by
      rcases h with h | ⟨f, s, hp, h⟩
      · unfold dispatch
        rw [after_find_none h, after_default]
        cases hd : lastDefault ops with
        | none => exact ⟨_, .none h hd, rfl⟩
        | some d => exact ⟨_, .default h hd, rfl⟩
      · exact ⟨_, .method h, by rw [dispatch_latest h]; rfl⟩
    obtain ⟨⟨r, st'⟩, h1, h2⟩ := key
    refine ⟨_, h1, ?_⟩
    cases r with
    | ok v => rw [(processCall_eq _ st name ps).1 v st' h2]; exact ⟨rfl, rfl⟩
    | error e => rw [(processCall_eq _ st name ps).2 e st' h2]; exact ⟨rfl, _, toFault_documented e, rfl⟩

/-- Registered twice, with a default method: the second registration is run. -/
def sampleOps : List (Op Nat) :=
  [.method (asc "add") ⟨.user (fun st _ => (.error (.type (asc "old")), st)), asc "i:ii", asc "old"⟩,
   .default (some (fun st name _ => (.ok (.string name), st + 100))),
   .method (asc "get") ⟨.user (fun st _ => (.error (.index (asc "no"))  , st)), asc "i:i,s:", asc "get"⟩,
   .method (asc "add") ⟨.user (fun st ps => (.ok (.int ps.length), st + 1)), asc "i:ii", asc "new"⟩]

example : Latest true sampleOps (asc "add") ⟨.user (fun st ps => (.ok (.int ps.length), st + 1)), asc "i:ii", asc "new"⟩ :=
  ⟨system ++ [(asc "add", ⟨.user (fun st _ => (.error (.type (asc "old")), st)), asc "i:ii", asc "old"⟩),
      (asc "get", ⟨.user (fun st _ => (.error (.index (asc "no"))  , st)), asc "i:i,s:", asc "get"⟩)], [], rfl, by simp⟩
example : Unregistered true sampleOps (asc "nothing") := by unfold Unregistered; decide +kernel
example : (processCall (built true true sampleOps) 7 (asc "add") [.int 1, .null]).1 = .ok (.int 2) ∧
    (processCall (built true true sampleOps) 7 (asc "add") [.int 1, .null]).2.1 = 8 := ⟨rfl, rfl⟩
example : (processCall (built true true sampleOps) 7 (asc "get") []).1 = .error (.fault (-502) (asc "no")) := by rfl
example : (processCall (built true true sampleOps) 7 (asc "nothing") []).1 = .ok (.string (asc "nothing")) ∧
    (processCall (built true true sampleOps) 7 (asc "nothing") []).2.1 = 107 := ⟨rfl, rfl⟩
example : ∃ m, (processCall (built true true ([] : List (Op Nat))) 7 (asc "nothing") []).1 = .error (.fault (-506) m) := ⟨_, rfl⟩

namespace Registry

theorem answerFault_wire {e : Exn} {c : Int} {m : Bytes} (h : WireFault e c m) : ∃ m', answerFault (toFault e) = some (c, m') ∧ cstr m' = m := by
  cases h <;> exact ⟨_, rfl, rfl⟩

theorem answerExn_fault {cfg : TreeBuilder.Cfg} {ver : Version} {txt : ErrText} {cb : Bool} {name : Bytes} {ps : List Value} {st : σ} {cbs : List Cb} {e : Exn}
    {c : Int} {m : Bytes} (hv : ver.Known) (h : answerFault e = some (c, m)) (hc : IsI32 c) (hm : (cstr m).length < 2 ^ 30)
    (hs : cfg.strOk (cstr m) = true) :
    let a := answerExn cfg.strOk ver txt cb name ps [] st cbs e
    a.thrown = none ∧ a.state = st ∧ a.cbs = cbs ++ (if cb then [.postFault name ps c m] else []) ∧
    ∀ qs : List Bytes, qs.flatten = a.writes.flatten → trace .response qs = [.fault c (cstr m)] ∧
      ∃ tb, receive cfg .response qs = .ok tb ∧ getData tb = .error (.fault c (if cstr m = [] then asc "No data unmarshalled" else cstr m)) := by
  obtain ⟨ws, h3, h4⟩ := C03_fault_roundtrip cfg ver hv .response (by decide) c hc (cstr m) hm hs
  unfold sendFault at h3
  simp only [answerExn, h, h3]
  exact ⟨trivial, trivial, trivial, fun qs hq => h4 qs (by simpa using hq)⟩

end Registry

/-- **C47 (on the wire).** When the method that the call runs throws, a remote caller gets the fault with the
documented code and the message (as a C string), whatever pieces the bytes come in; a protocol error is
thrown on and nothing is written. -/
theorem C47_wire (cfg : TreeBuilder.Cfg) (ver : Version) (hv : ver.Known) (txt : ErrText) (r : Reg σ) (st st' : σ) (name : Bytes)
    (ps : List Value) (e : Exn) (hd : dispatch r st name ps = (.error e, st')) :
    (∀ c m, WireFault e c m → IsI32 c → m.length < 2 ^ 30 → cfg.strOk m = true →
      let a := processCallOut r cfg.strOk ver txt st name ps
      a.thrown = none ∧ a.state = st' ∧ ∀ qs : List Bytes, qs.flatten = a.writes.flatten → trace .response qs = [.fault c m] ∧
        ∃ tb, receive cfg .response qs = .ok tb ∧ getData tb = .error (.fault c (if m = [] then asc "No data unmarshalled" else m))) ∧
    (∀ c m, e = .protocol c m → (processCallOut r cfg.strOk ver txt st name ps).writes = [] ∧
      (processCallOut r cfg.strOk ver txt st name ps).thrown = some e) := by
  have hp := (processCall_eq r st name ps).2 e st' hd
  constructor
  · intro c m hw hc hm hs
    obtain ⟨m', h3, h4⟩ := answerFault_wire hw
    subst h4
    have h5 := answerExn_fault (cfg := cfg) (txt := txt) (cb := r.callbacks) (name := name) (ps := ps) (st := st')
      (cbs := if r.callbacks then [.pre name ps] else []) hv h3 hc hm hs
    unfold processCallOut
    rw [hp]
    exact ⟨h5.1, h5.2.1, h5.2.2.2⟩
  · rintro c m rfl
    unfold processCallOut
    rw [hp]
    exact ⟨rfl, rfl⟩

example : WireFault (.std (asc "bad_alloc")) (-500) (asc "Caught std::exception<bad_alloc> while dispatching method call.") := .std _
example : (receive plainCfg .response (processCallOut (built false true sampleOps) plainCfg.strOk ⟨2, 1⟩ (fun _ => []) 7 (asc "get") []).writes).toOption.map getData =
    some (.error (.fault (-502) (asc "no"))) := by rfl

/-- **C48 (what holds).** `system.multicall` with a list of elements either answers them all, one result per
element in the same order, each as if it were called alone in the state the previous ones left, its value or the
fault of the documented code in its place; or fails as a whole, at the first element whose method throws
something else than a type, length, key or index error or a fault. Missing of C48: isolation of the other
exceptions (`C48_violated`). -/
theorem C48_partial (cb i : Bool) (ops : List (Op σ)) (e : Entry σ) (he : Latest i ops (asc "system.multicall") e) (hh : e.handler = .multicall)
    (st : σ) (vs : List Value) :
    let r := built cb i ops
    let out := processCall r st (asc "system.multicall") [.array vs]
    (∃ rs st', out.1 = .ok (.array rs) ∧ out.2.1 = st' ∧ rs.length = vs.length ∧ Each (dispatch r) st vs rs st') ∨
    (∃ pre v post rs st1 name ps x x' st2, vs = pre ++ v :: post ∧ Each (dispatch r) st pre rs st1 ∧ IsCall v name ps ∧
      dispatch r st1 name ps = (.error x, st2) ∧ (¬ ∃ c m, Isolated x c m) ∧ Documented x x' ∧ out.1 = .error x' ∧ out.2.1 = st2) := by
  intro r out
  have h0 := dispatch_multicall (r := r) (after_find_latest he) hh st vs
  have hq := processCall_eq r st (asc "system.multicall") [.array vs]
  rcases multicallLoop_spec r (depthItems vs + 1) vs st [] (by omega) with ⟨rs, st', h1, h2⟩ | ⟨pre, v, post, rs, s1, name, ps, x, s2, h1, h2, h3, h4, h5, h6⟩
  · left
    have := hq.1 _ _ (h0.trans h1)
    refine ⟨rs, st', ?_, ?_, Each.length h2, h2⟩
    · show (processCall _ _ _ _).1 = _; rw [this]; simp
    · show (processCall _ _ _ _).2.1 = _; rw [this]
  · right
    have := hq.2 _ _ (h0.trans h6)
    refine ⟨pre, v, post, rs, s1, name, ps, x, toFault x, s2, h1, h2, h3, h4, h5, toFault_documented x, ?_, ?_⟩
    · show (processCall _ _ _ _).1 = _; rw [this]
    · show (processCall _ _ _ _).2.1 = _; rw [this]

/-- **C48 when methods only throw what is isolated**: every element gets its answer. -/
theorem C48_isolated (cb i : Bool) (ops : List (Op σ)) (e : Entry σ) (he : Latest i ops (asc "system.multicall") e) (hh : e.handler = .multicall)
    (st : σ) (vs : List Value) (hiso : ∀ s v name ps x s', v ∈ vs → IsCall v name ps → dispatch (built cb i ops) s name ps = (.error x, s') → ∃ c m, Isolated x c m) :
    ∃ rs st', (processCall (built cb i ops) st (asc "system.multicall") [.array vs]).1 = .ok (.array rs) ∧
      (processCall (built cb i ops) st (asc "system.multicall") [.array vs]).2.1 = st' ∧ rs.length = vs.length ∧ Each (dispatch (built cb i ops)) st vs rs st' := by
  rcases C48_partial cb i ops e he hh st vs with h | ⟨pre, v, post, rs, s1, name, ps, x, _, s2, h1, _, h3, h4, h5, _⟩
  · exact h
  · exact absurd (hiso s1 v name ps x s2 (by rw [h1]; simp) h3 h4) h5

/-- A request of the multicall: `{methodName, params}`. -/
def mcall (name : Bytes) (ps : List Value) : Value := .struct [(asc "methodName", .string name), (asc "params", .array ps)]

example : Latest true sampleOps (asc "system.multicall") ⟨.multicall, asc "A:A", asc "Call given methods"⟩ :=
  ⟨system.take 3, _, rfl, by decide⟩
example : (processCall (built false true sampleOps) 7 (asc "system.multicall")
    [.array [mcall (asc "add") [.int 5], .null, mcall (asc "get") [], .struct [], mcall (asc "system.multicall") [.array [mcall (asc "add") []]]]]).1 =
    .ok (.array [.int 1, faultValue (-501) (asc "Parameter must be struct"), faultValue (-502) (asc "no"),
      faultValue (-502) (asc "Key \"methodName\" does not exist."), .array [.int 0]]) := by rfl

/-- **C48, as stated, is false.** One element whose method throws a stream error (a method that parses something does)
makes the whole multicall fail: the results of the elements before it are lost, those after it are not run. -/
theorem C48_violated :
    let ops : List (Op Nat) := [.method (asc "ok") ⟨.user (fun st _ => (.ok (.int st), st + 1)), [], []⟩,
      .method (asc "parse") ⟨.user (fun st _ => (.error (.stream (asc "bad")), st)), [], []⟩]
    let out := processCall (built false true ops) 0 (asc "system.multicall") [.array [mcall (asc "ok") [], mcall (asc "parse") [], mcall (asc "ok") []]]
    out.1 = .error (.fault (-503) (asc "bad")) ∧ out.2.1 = 1 := ⟨rfl, rfl⟩

/-- **C49 (what holds).** When the method fails, or returns a value the marshaller accepts, the bytes written are
exactly one message, the fault or the response, and nothing is thrown. Missing: a value that the marshaller rejects
(`C49_violated`). -/
theorem C49_partial (cfg : TreeBuilder.Cfg) (hcfg : cfg.mktime = none) (ver : Version) (hv : ver.Known) (h2 : 2 ≤ ver.major) (txt : ErrText)
    (r : Reg σ) (st : σ) (name : Bytes) (ps : List Value) :
    let a := processCallOut r cfg.strOk ver txt st name ps
    (∀ v st' ws, dispatch r st name ps = (.ok v, st') → sendResponse cfg.strOk ver v = (ws, none) →
      Held v → Small v → DatesAll (DateOk ver) v →
      a.thrown = none ∧ a.state = st' ∧ ∀ qs : List Bytes, qs.flatten = a.writes.flatten →
        ∃ tb, receive cfg .response qs = .ok tb ∧ getData tb = .ok (plain v)) ∧
    (∀ e st' c m, dispatch r st name ps = (.error e, st') → WireFault e c m → IsI32 c → m.length < 2 ^ 30 → cfg.strOk m = true →
      a.thrown = none ∧ a.state = st' ∧ ∀ qs : List Bytes, qs.flatten = a.writes.flatten →
        ∃ tb, receive cfg .response qs = .ok tb ∧ getData tb = .error (.fault c (if m = [] then asc "No data unmarshalled" else m))) := by
  intro a
  constructor
  · intro v st' ws h1 h3 h4 h5 h6
    have hp := (processCall_eq r st name ps).1 v st' h1
    have ha : a = ⟨ws, none, st', if r.callbacks then [.pre name ps, .postOk name ps v] else []⟩ := by
      show processCallOut _ _ _ _ _ _ _ = _
      unfold processCallOut
      rw [hp]
      unfold sendResponse at h3
      simp only [h3]
    rw [ha]
    exact ⟨rfl, rfl, fun qs hq => C01_response_roundtrip cfg hcfg ver hv h2 v h4 h5 h6 ws h3 qs hq⟩
  · intro e st' c m h1 h3 h4 h5 h6
    obtain ⟨q1, q2, q3⟩ := (C47_wire cfg ver hv txt r st st' name ps e h1).1 c m h3 h4 h5 h6
    exact ⟨q1, q2, fun qs hq => (q3 qs hq).2⟩

example : (sendResponse plainCfg.strOk ⟨2, 1⟩ (.array [.int 1, .null])).2 = none := rfl

/-- **C49, as stated, is false.** The answer is written while it is marshalled: a null for a client of protocol 2.0 (or a
member with an empty name) fails after the head of a response was written, and the fault message follows it. The
receiver of this gets a parse error instead of the fault. -/
theorem C49_violated :
    let ops : List (Op Nat) := [.method (asc "f") ⟨.user (fun st _ => (.ok .null, st)), [], []⟩]
    let a := processCallOut (built false false ops) plainCfg.strOk ⟨2, 0⟩ (fun _ => asc "Null not supported") 0 (asc "f") []
    a.thrown = none ∧
    a.writes.flatten = (sendResponse plainCfg.strOk ⟨2, 0⟩ .null).1.flatten ++ (sendFault plainCfg.strOk ⟨2, 0⟩ (-503) (asc "Null not supported")).1.flatten ∧
    receive plainCfg .response [a.writes.flatten] = .error .stream ∧
    receive plainCfg .any [a.writes.flatten] = .error .stream := ⟨rfl, rfl, rfl, rfl⟩

/-- **C50.** `system.listMethods` gives the names registered, each once, in ascending order, the four system
methods among them when introspection is on. -/
theorem C50_listMethods (cb i : Bool) (ops : List (Op σ)) (e : Entry σ) (he : Latest i ops (asc "system.listMethods") e) (hh : e.handler = .listMethods) (st : σ) :
    ∃ names : List Bytes, (processCall (built cb i ops) st (asc "system.listMethods") []).1 = .ok (.array (names.map .string)) ∧
      (processCall (built cb i ops) st (asc "system.listMethods") []).2.1 = st ∧
      names.Pairwise (fun a b => keyLt a b = true) ∧ names.Nodup ∧ (∀ n, n ∈ names ↔ n ∈ (registrations i ops).map (·.1)) ∧
      (i = true → ∀ n ∈ ["system.listMethods", "system.methodHelp", "system.methodSignature", "system.multicall"], asc n ∈ names) := by
  have hf := fill_spec (registrations i ops) [] sorted_nil
  have h1 : dispatch (built cb i ops) st (asc "system.listMethods") [] = (.ok (.array ((built cb i ops).methods.map (fun m => .string m.1))), st) := by
    rw [dispatch_latest he, hh]
    rfl
  have h2 := (processCall_eq (built cb i ops) st _ _).1 _ _ h1
  have h3 : ∀ n, n ∈ ((built cb i ops).methods.map (·.1)) ↔ n ∈ (registrations i ops).map (·.1) := by
    intro n; rw [after_methods, hf.2.1]; simp
  refine ⟨(built cb i ops).methods.map (·.1), ?_, by rw [h2], ?_, ?_, h3, ?_⟩
  · rw [h2]; simp [Function.comp_def]
  · rw [List.pairwise_map, after_methods]; exact hf.1
  · rw [after_methods]; exact hf.1.nodup
  · rintro rfl n hn
    rw [h3]
    unfold registrations
    rw [if_pos rfl, List.map_append, List.mem_append]
    left
    simp only [List.mem_cons, List.not_mem_nil, or_false] at hn
    rcases hn with rfl | rfl | rfl | rfl <;> simp [system]

/-- **C50.** `system.methodHelp` gives the help of the last registration under the name, and -506 for other names. -/
theorem C50_methodHelp (cb i : Bool) (ops : List (Op σ)) (e : Entry σ) (he : Latest i ops (asc "system.methodHelp") e) (hh : e.handler = .methodHelp)
    (st : σ) (name : Bytes) :
    (∀ e', Latest i ops name e' → (processCall (built cb i ops) st (asc "system.methodHelp") [.string name]).1 = .ok (.string e'.help)) ∧
    (Unregistered i ops name → ∃ m, (processCall (built cb i ops) st (asc "system.methodHelp") [.string name]).1 = .error (.fault (-506) m)) := by
  have h1 : dispatch (built cb i ops) st (asc "system.methodHelp") [.string name] = (methodHelp (built cb i ops) [.string name], st) := by
    rw [dispatch_latest he, hh]; rfl
  constructor
  · intro e' h'
    have h3 : methodHelp (built cb i ops) [.string name] = .ok (.string e'.help) := by
      simp only [methodHelp, entryFor, check1_string, asString, after_find_latest h']
    rw [h3] at h1
    rw [(processCall_eq _ _ _ _).1 _ _ h1]
  · intro h'
    have h3 : methodHelp (built cb i ops) [.string name] = .error (noSuchMethod name) := by
      simp only [methodHelp, entryFor, check1_string, asString, after_find_none h']
    rw [h3] at h1
    rw [(processCall_eq _ _ _ _).2 _ _ h1]
    exact ⟨_, rfl⟩

namespace Registry

theorem signatureLetter_eq : ∀ c : UInt8, c ≠ 44 → signatureLetter c = some (letterType c) := by
  intro c hc
  have := forall_byte (fun c => c == 44 || decide (signatureLetter c = some (letterType c))) (by decide +kernel) c
  simpa [hc] using this

theorem signatureLoop_eq : ∀ (s : Bytes) (done : List (List Value)) (actual : List Value) (rest : Bytes), 44 ∉ s →
    signatureLoop done actual (s ++ rest) = signatureLoop done (actual ++ typesOf s) rest
  | [], done, actual, rest, _ => by simp [typesOf]
  | c :: s, done, actual, rest, h => by
    simp only [List.mem_cons, not_or] at h
    have hc := signatureLetter_eq c (fun e => h.1 e.symm)
    rw [List.cons_append, signatureLoop, hc]
    cases ht : letterType c with
    | none =>
      simp only
      rw [signatureLoop_eq s _ _ _ h.2]
      simp [typesOf, ht]
    | some t =>
      simp only
      rw [signatureLoop_eq s _ _ _ h.2]
      simp [typesOf, ht]

theorem signatureLoop_joined : ∀ (alts : List Bytes) (done : List (List Value)), alts ≠ [] → (∀ a ∈ alts, 44 ∉ a) →
    signatureLoop done [] (joined alts) = done ++ alts.map typesOf
  | [s], done, _, h => by
    have := signatureLoop_eq s done [] [] (h s (by simp))
    simp only [List.append_nil, List.nil_append] at this
    simp [joined, this, signatureLoop]
  | s :: t :: l, done, _, h => by
    rw [joined, List.append_assoc, signatureLoop_eq s _ _ _ (h s (by simp))]
    have : asc "," ++ joined (t :: l) = 44 :: joined (t :: l) := rfl
    rw [this, signatureLoop]
    have hc : signatureLetter 44 = none := rfl
    rw [hc]
    simp only [List.nil_append]
    rw [signatureLoop_joined (t :: l) _ (by simp) (fun a ha => h a (by simp [ha]))]
    simp

end Registry

/-- **C50.** `system.methodSignature` gives, for the last registration under the name, one list of type names for each of
the signatures it was registered with (separated by commas), in order. -/
theorem C50_methodSignature (cb i : Bool) (ops : List (Op σ)) (e : Entry σ) (he : Latest i ops (asc "system.methodSignature") e)
    (hh : e.handler = .methodSignature) (st : σ) (name : Bytes) (e' : Entry σ) (h' : Latest i ops name e') (alts : List Bytes) (h0 : alts ≠ [])
    (hc : ∀ a ∈ alts, (44 : UInt8) ∉ a) (hs : e'.signature = joined alts) :
    (processCall (built cb i ops) st (asc "system.methodSignature") [.string name]).1 = .ok (.array (alts.map (fun a => .array (typesOf a)))) := by
  have h1 : dispatch (built cb i ops) st (asc "system.methodSignature") [.string name] = (methodSignature (built cb i ops) [.string name], st) := by
    rw [dispatch_latest he, hh]; rfl
  have h3 : methodSignature (built cb i ops) [.string name] = .ok (.array (alts.map (fun a => .array (typesOf a)))) := by
    simp only [methodSignature, entryFor, check1_string, asString, after_find_latest h', hs, signatureLoop_joined alts [] h0 hc, List.nil_append,
      List.map_map, Function.comp_def]
  rw [h3] at h1
  rw [(processCall_eq _ _ _ _).1 _ _ h1]

example : (processCall (built false true sampleOps) 7 (asc "system.listMethods") []).1 = .ok (.array
    ([asc "add", asc "get", asc "system.listMethods", asc "system.methodHelp", asc "system.methodSignature", asc "system.multicall"].map .string)) := by rfl
example : (processCall (built false true sampleOps) 7 (asc "system.methodHelp") [.string (asc "add")]).1 = .ok (.string (asc "new")) := by rfl
example : (processCall (built false true sampleOps) 7 (asc "system.methodSignature") [.string (asc "get")]).1 =
    .ok (.array [.array [.string (asc "int"), .string (asc "int")], .array [.string (asc "string")]]) := by rfl
example : asc "i:i,s:" = joined [asc "i:i", asc "s:"] := rfl

/-- The callbacks of one call: before it, then after it exactly once. -/
def Spec.Registry.Paired (name : Bytes) (ps : List Value) (cbs : List Cb) : Prop :=
  (∃ v, cbs = [.pre name ps, .postOk name ps v]) ∨ ∃ c m, cbs = [.pre name ps, .postFault name ps c m]

/-- **C70 (what holds).** With callbacks registered, a call is announced once before and once after it, with its
result or its fault, if its result can be marshalled or it fails with anything but a protocol error. Missing:
`C70_violated`. -/
theorem C70_partial (strOk : Bytes → Bool) (ver : Version) (txt : ErrText) (r : Reg σ) (hcb : r.callbacks = true) (st : σ) (name : Bytes) (ps : List Value) :
    let a := processCallOut r strOk ver txt st name ps
    (∀ v st' ws, dispatch r st name ps = (.ok v, st') → sendResponse strOk ver v = (ws, none) → a.cbs = [.pre name ps, .postOk name ps v]) ∧
    (∀ e st' c m, dispatch r st name ps = (.error e, st') → WireFault e c m → ∃ m', visible m' = m ∧ a.cbs = [.pre name ps, .postFault name ps c m']) ∧
    (∀ e st', dispatch r st name ps = (.error e, st') → (∃ c m, WireFault e c m) → Spec.Registry.Paired name ps a.cbs) := by
  intro a
  have hf : ∀ e st' c m, dispatch r st name ps = (.error e, st') → WireFault e c m → ∃ m', visible m' = m ∧ a.cbs = [.pre name ps, .postFault name ps c m'] := by
    intro e st' c m h1 h2
    obtain ⟨m', h3, h4⟩ := answerFault_wire h2
    refine ⟨m', h4, ?_⟩
    show (processCallOut r strOk ver txt st name ps).cbs = _
    unfold processCallOut
    rw [(processCall_eq r st name ps).2 e st' h1]
    simp only [answerExn, h3, hcb, if_true]
    split <;> rfl
  refine ⟨fun v st' ws h1 h2 => ?_, hf, ?_⟩
  · show (processCallOut r strOk ver txt st name ps).cbs = _
    unfold processCallOut
    rw [(processCall_eq r st name ps).1 v st' h1]
    unfold sendResponse at h2
    simp only [h2, hcb, if_true]
  · rintro e st' h1 ⟨c, m, h2⟩
    obtain ⟨m', _, h3⟩ := hf e st' c m h1 h2
    exact .inr ⟨c, m', h3⟩

/-- **C70, as stated, is false.** A call whose result cannot be marshalled is announced as finished twice, first as a
success, then as a fault; one that throws a protocol error is never announced as finished. -/
theorem C70_violated :
    let ops : List (Op Nat) := [.method (asc "f") ⟨.user (fun st _ => (.ok .null, st)), [], []⟩,
      .method (asc "g") ⟨.user (fun st _ => (.error (.protocol 503 (asc "busy")), st)), [], []⟩]
    (processCallOut (built true false ops) plainCfg.strOk ⟨2, 0⟩ (fun _ => asc "Null not supported") 0 (asc "f") []).cbs =
      [.pre (asc "f") [], .postOk (asc "f") [] .null, .postFault (asc "f") [] (-503) (asc "Null not supported")] ∧
    (processCallOut (built true false ops) plainCfg.strOk ⟨2, 0⟩ (fun _ => []) 0 (asc "g") []).cbs = [.pre (asc "g") []] := ⟨rfl, rfl⟩

end Frpc
