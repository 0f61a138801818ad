import Verif.Props.Registry
/-!
# The registry's stream interface: C71
-/
namespace Frpc
open Registry Spec.Registry
open TreeBuilder (getData)
open BinUnMarshaller (Req trace)
open Spec (Held Small DatesAll plain HeldItems SmallItems DatesAllItems plainItemsWith)
variable {σ : Type}

namespace Registry

theorem receive_ok {cfg : TreeBuilder.Cfg} {req : Req} {ps : List Bytes} {tb : TreeBuilder.TB} (h : receive cfg req ps = .ok tb) :
    ∃ o, BinUnMarshaller.unMarshallAll (TreeBuilder.builder cfg) req BinUnMarshaller.init TreeBuilder.init ps = (o, tb, none) := by
  unfold receive at h
  generalize BinUnMarshaller.unMarshallAll (TreeBuilder.builder cfg) req BinUnMarshaller.init TreeBuilder.init ps = u at h
  obtain ⟨o, tb', e⟩ := u
  cases e with
  | some e => simp at h
  | none =>
    cases hf : BinUnMarshaller.finish o with
    | error e => simp [hf, bind, Except.bind] at h
    | ok _ =>
      simp [hf, bind, Except.bind, pure, Except.pure] at h
      exact ⟨o, by rw [h]⟩

theorem versionSeen_magic (ver : Version) (rest : Bytes) : versionSeen (BinMarshaller.packMagic ver ++ rest) = ver := rfl

theorem sendCall_magic {strOk : Bytes → Bool} {ver : Version} {name : Bytes} {args : List Value} {ws : List Bytes}
    (h : sendCall strOk ver name args = (ws, none)) : versionSeen ws.flatten = ver := by
  unfold sendCall at h
  have h1 := run_one_none _ _ (by rw [h] : (BinMarshaller.run strOk ver (.packMethodCall name :: feedItems args)).2 = none)
  simp only [BinMarshaller.run] at h
  have hp : BinMarshaller.pack strOk ver (.packMethodCall name) =
      ([BinMarshaller.packMagic ver, [BinMarshaller.dataType T_CALL 0], [UInt8.ofNat name.length], name], none) := by
    have := h1.1
    simp only [BinMarshaller.pack] at this ⊢
    split
    · next hc => rw [if_pos hc] at this; simp at this
    · rfl
  rw [hp] at h
  simp only [Prod.mk.injEq] at h
  rw [← h.1]
  rfl

theorem accepts_known {ver : Version} (hv : ver.Known) : BinMarshaller.accepts ver = true := by
  rcases hv.cases with h | h | h <;> · unfold BinMarshaller.accepts; rw [h]; rfl

/-- The bytes of the fault answer of the stream interface. -/
theorem readerExn_fault {cfg : TreeBuilder.Cfg} {ver : Version} {txt : ErrText} {st : σ} {cbs : List Cb}
    {c : Int} {m : Bytes} (hv : ver.Known) (hc : IsI32 c) (hm : (cstr m).length < 2 ^ 30) (hs : cfg.strOk (cstr m) = true) :
    let a := readerExn cfg.strOk ver txt [] st cbs (.fault c m)
    a.thrown = none ∧ a.state = st ∧ a.cbs = cbs ∧
    ∀ qs : List Bytes, qs.flatten = a.writes.flatten → trace .response qs = [.fault c (cstr m)] ∧
      ∃ tb, receive cfg .response qs = .ok tb ∧ getData tb = .error (.fault c (if cstr m = [] then asc "No data unmarshalled" else cstr m)) := by
  obtain ⟨ws, h3, h4⟩ := C03_fault_roundtrip cfg ver hv .response (by decide) c hc (cstr m) hm hs
  unfold sendFault at h3
  simp only [readerExn, faultAnswer, accepts_known hv, h3, if_true]
  exact ⟨trivial, trivial, trivial, fun qs hq => h4 qs (by simpa using hq)⟩

end Registry

/-- **C71 (requests that are calls).** A call marshalled at protocol 2 or 3, read in any pieces, is run exactly as the same
call made in the process, once, with the same name and arguments; when it gives a value that can be marshalled at the
version of the request, the answer is the response with that value at that version; when it fails with a fault, that fault. -/
theorem C71_call_partial (cfg : TreeBuilder.Cfg) (hcfg : cfg.mktime = none) (ver : Version) (hv : ver.Known) (h2 : 2 ≤ ver.major) (txt : ErrText) (r : Reg σ) (st : σ)
    (name : Bytes) (args : List Value) (hheld : HeldItems args) (hsmall : SmallItems args) (hdates : DatesAllItems (DateOk ver) args) (ws : List Bytes)
    (hsent : sendCall cfg.strOk ver name args = (ws, none)) (ps : List Bytes) (hps : ps.flatten = ws.flatten) :
    let a := processCallReader r cfg txt st ps
    let q := processCall r st name (plainItemsWith id args)
    (∀ v out, q.1 = .ok v → sendResponse cfg.strOk ver v = (out, none) → a = ⟨out, none, q.2.1, q.2.2⟩) ∧
    (∀ c m, q.1 = .error (.fault c m) → IsI32 c → (visible m).length < 2 ^ 30 → cfg.strOk (visible m) = true →
      a.thrown = none ∧ a.state = q.2.1 ∧ a.cbs = q.2.2 ∧ ∀ qs : List Bytes, qs.flatten = a.writes.flatten →
        trace .response qs = [.fault c (visible m)] ∧
        ∃ tb, receive cfg .response qs = .ok tb ∧ getData tb = .error (.fault c (if visible m = [] then asc "No data unmarshalled" else visible m))) := by
  intro a q
  obtain ⟨tb, h3, h4, h5⟩ := C02_call_roundtrip cfg hcfg ver hv h2 name args hheld hsmall hdates ws hsent ps hps
  obtain ⟨o, h6⟩ := receive_ok h3
  have hver : versionSeen ps.flatten = ver := by rw [hps]; exact sendCall_magic hsent
  have ha : a = match q with
      | (.error e, st, cbs) => readerExn cfg.strOk ver txt [] st cbs e
      | (.ok v, st, cbs) =>
        match BinMarshaller.run cfg.strOk ver (.packMethodResponse :: feed v) with
        | (ws, none) => ⟨ws, none, st, cbs⟩
        | (ws, some e) => readerExn cfg.strOk ver txt ws st cbs (ofErr txt e) := by
    show processCallReader r cfg txt st ps = _
    unfold processCallReader
    simp only [h6, hver, accepts_known hv, if_true, h5, asArray, h4]
    rfl
  generalize q = q at ha
  obtain ⟨q, st', cbs⟩ := q
  constructor
  · intro v out h7 h8
    simp only at h7
    subst h7
    unfold sendResponse at h8
    rw [ha]
    simp only [h8]
  · intro c m h7 hc hm hs
    simp only at h7
    subst h7
    rw [ha]
    exact readerExn_fault hv hc hm hs

/-- **C71 (requests that are not).** Bytes that cannot be parsed run no method and are answered by one fault message with
code -503, when the version byte they begin with is 1, 2 or 3 (or they have no magic). Missing: other version bytes and
requests cut short (`C71_violated`). -/
theorem C71_garbage_partial (cfg : TreeBuilder.Cfg) (txt : ErrText) (r : Reg σ) (st : σ) (ps : List Bytes)
    (hbad : (BinUnMarshaller.unMarshallAll (TreeBuilder.builder cfg) .call BinUnMarshaller.init TreeBuilder.init ps).2.2 = some .stream)
    (hv : (versionSeen ps.flatten).Known)
    (hm : (visible (txt .stream)).length < 2 ^ 30) (hs : cfg.strOk (visible (txt .stream)) = true) :
    let a := processCallReader r cfg txt st ps
    a.thrown = none ∧ a.state = st ∧ a.cbs = [] ∧ ∀ qs : List Bytes, qs.flatten = a.writes.flatten →
      trace .response qs = [.fault (-503) (visible (txt .stream))] := by
  intro a
  have ha : a = readerExn cfg.strOk (versionSeen ps.flatten) txt [] st [] (.fault PARSE_ERROR (txt .stream)) := by
    show processCallReader r cfg txt st ps = _
    unfold processCallReader
    simp only [hbad]
    rfl
  rw [ha]
  have h := readerExn_fault (cfg := cfg) (txt := txt) (st := st) (cbs := []) (m := txt .stream) hv
    (show IsI32 PARSE_ERROR by unfold IsI32 PARSE_ERROR; omega) hm hs
  exact ⟨h.1, h.2.1, h.2.2.1, fun qs hq => (h.2.2.2 qs hq).1⟩

/-- **C71 (unknown versions).** A request that says a version above 3, in any pieces and whatever follows, runs no method:
an exception leaves `processCall` and nothing is written (the answer that it should get: `C71_violated`). -/
theorem C71_unknown_version (cfg : TreeBuilder.Cfg) (txt : ErrText) (r : Reg σ) (st : σ) (ps : List Bytes) (a b : UInt8) (rest : Bytes)
    (hps : ps.flatten = 0xCA :: 0x11 :: a :: b :: rest) (ha : 3 < a) :
    processCallReader r cfg txt st ps = ⟨[], some (.std (asc "Not supported protocol version")), st, []⟩ := by
  have h := BinUnMarshaller.C15_bad_header (TreeBuilder.builder cfg) .call TreeBuilder.init ps _ _ _ _ _ hps (.inr (.inr (.inr ha)))
  have hacc : BinMarshaller.accepts ⟨a, b⟩ = false := by simp [BinMarshaller.accepts, ha]
  unfold processCallReader
  simp only [h, hps, versionSeen]
  simp only [readerExn, ofErr, faultAnswer, hacc, Bool.false_eq_true, if_false]

example : (3 : UInt8) < 4 ∧ [[0xCA, 0x11], [4, 0, 1]].flatten = 0xCA :: 0x11 :: (4 : UInt8) :: 0 :: [1] := by decide

/-- **C71 (to a value).** The interface that gives a value: a call marshalled at protocol 2 or 3, read in any pieces,
gives exactly what the same call made in the process gives, value, fault or other exception, with the same effects
and callbacks; bytes that cannot be parsed run nothing and are the fault -503. Missing: requests cut short (`C71_violated`). -/
theorem C71_value_partial (cfg : TreeBuilder.Cfg) (hcfg : cfg.mktime = none) (txt : ErrText) (r : Reg σ) (st : σ) (ps : List Bytes) :
    (∀ (ver : Version), ver.Known → 2 ≤ ver.major → ∀ (name : Bytes) (args : List Value), HeldItems args → SmallItems args → DatesAllItems (DateOk ver) args →
      ∀ ws : List Bytes, sendCall cfg.strOk ver name args = (ws, none) → ps.flatten = ws.flatten →
        processCallValue r cfg txt st ps = processCall r st name (plainItemsWith id args)) ∧
    ((BinUnMarshaller.unMarshallAll (TreeBuilder.builder cfg) .call BinUnMarshaller.init TreeBuilder.init ps).2.2 = some .stream →
      processCallValue r cfg txt st ps = (.error (.fault (-503) (txt .stream)), st, [])) := by
  constructor
  · intro ver hv h2 name args hheld hsmall hdates ws hsent hps
    obtain ⟨tb, h3, h4, h5⟩ := C02_call_roundtrip cfg hcfg ver hv h2 name args hheld hsmall hdates ws hsent ps hps
    obtain ⟨o, h6⟩ := receive_ok h3
    unfold processCallValue
    simp only [h6, h5, asArray, h4]
    unfold processCall
    generalize dispatch r st name (plainItemsWith id args) = q
    obtain ⟨q, st'⟩ := q
    cases q with
    | ok v => rfl
    | error e => cases e <;> rfl
  · intro h
    unfold processCallValue
    simp only [h]
    rfl

/-- A method that counts its calls. -/
def countOps : List (Op Nat) := [.method (asc "f") ⟨.user (fun st ps => (.ok (.array ps), st + 1)), [], []⟩]

example : (processCallReader (built false false countOps) plainCfg (fun _ => asc "bad") 0
    [(sendCall plainCfg.strOk ⟨3, 0⟩ (asc "f") [.int 5]).1.flatten]).state = 1 := rfl
example : (BinUnMarshaller.unMarshallAll (TreeBuilder.builder plainCfg) .call BinUnMarshaller.init TreeBuilder.init [asc "nonsense"]).2.2 = some .stream ∧ versionSeen (asc "nonsense") = ⟨2, 1⟩ := ⟨rfl, rfl⟩
example : (processCallReader (built false false countOps) plainCfg (fun _ => asc "bad") 0 [asc "non", asc "sense"]).writes.flatten =
    (sendFault plainCfg.strOk ⟨2, 1⟩ (-503) (asc "bad")).1.flatten := rfl

example : (processCallValue (built false false countOps) plainCfg (fun _ => asc "bad") 0
    [(sendCall plainCfg.strOk ⟨3, 0⟩ (asc "f") [.int 5]).1.flatten]).2.1 = 1 := rfl
example : (processCallValue (built false false countOps) plainCfg (fun _ => asc "bad") 0 [asc "non", asc "sense"]).2.1 = 0 := rfl

/-- **C71, as stated, is false.** A request with an unknown version gets no answer at all, an exception that is neither
a fault nor a stream error leaves `processCall`; a request of version 0 is answered at version 0, which no
receiver accepts; and a request cut in the middle of an argument is run with what there is of it. -/
theorem C71_violated :
    let r := built false false countOps
    let run := fun ps => processCallReader r plainCfg (fun _ => asc "bad") 0 ps
    (receive plainCfg .call [[0xCA, 0x11, 4, 0]] = .error .stream ∧ (run [[0xCA, 0x11, 4, 0]]).writes = [] ∧
      (run [[0xCA, 0x11, 4, 0]]).thrown = some (.std (asc "Not supported protocol version"))) ∧
    (receive plainCfg .call [[0xCA, 0x11, 0, 0]] = .error .stream ∧ (run [[0xCA, 0x11, 0, 0]]).thrown = none ∧
      receive plainCfg .response (run [[0xCA, 0x11, 0, 0]]).writes = .error .stream) ∧
    (let cut := (sendCall plainCfg.strOk ⟨2, 1⟩ (asc "f") [.array [.int 5, .int 6]]).1.flatten.dropLast
     receive plainCfg .call [cut] = .error .stream ∧ (run [cut]).state = 1 ∧
      (run [cut]).writes = (sendResponse plainCfg.strOk ⟨2, 1⟩ (.array [.array [.int 5]])).1 ∧
      processCallValue r plainCfg (fun _ => asc "bad") 0 [cut] = (.ok (.array [.array [.int 5]]), 1, [])) := by
  refine ⟨⟨rfl, rfl, rfl⟩, ⟨rfl, rfl, rfl⟩, rfl, rfl, rfl, rfl⟩

end Frpc
