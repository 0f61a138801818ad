import Verif.Props.RoundTrip
import Verif.Props.StringValid
/-! # `unMarshallPartial` and `resetToFaultState`

C59: what the number of bytes reported by `unMarshallPartial` says. C134: after `resetToFaultState` the following
data are read as a fault. -/
namespace Frpc
open BinMarshaller BinUnMarshaller TreeBuilder
variable {β : Type}

theorem valueTag_unknown {c : Core} {x : UInt8} (h : knownTag x = false) : valueTag false c x = .error .stream := by
  unfold knownTag at h
  unfold valueTag
  simp only [List.mem_cons, List.not_mem_nil, or_false, decide_eq_false_iff_not, not_or] at h
  obtain ⟨h1, h2, h3, h4, h5, h6, h7, h8, h9, h10, h11⟩ := h
  simp only [h1, h2, h3, h4, h5, h6, h7, h8, h9, h10, h11, if_false]
  rfl

/-- **C59.** What a count `k` returned by `unMarshallPartial` (on a fresh or resting object) says. Either the unmarshaller waits
for a value or the end, and then feeding just the first `k` bytes to `unMarshall` makes the same builder calls and gives the same
object, and a byte after them is no known value type; or the whole piece was taken and `unMarshall` would have done the
same with it; or the value of a structure's member is of an unknown type, and then `k` is the whole piece although the piece was
not parsed from that byte on, and `unMarshall` would have thrown. -/
theorem C59_count_partial (B : Builder β) (req : Req) (o o' : Obj) (b b' : β) (data : Bytes) (k : Nat) (hr : Rest o)
    (h : unMarshallKnown B req o b data = (o', b', .ok k)) :
    (k ≤ data.length ∧ o'.core.st = .valueType ∧ unMarshall B req o b (data.take k) = (o', b', none) ∧
      (∀ x, data[k]? = some x → knownTag x = false)) ∨
    (k = data.length ∧ unMarshall B req o b data = (o', b', none)) ∨
    (k = data.length ∧ o'.core.st = .realValueType ∧ (∃ x rest, o'.buf = x :: rest ∧ knownTag x = false) ∧
      unMarshall B req o b data = (o', b', some .stream)) := by
  by_cases hv : o'.core.st = .valueType
  · obtain ⟨h1, h2, h3⟩ := C59_partial_count B req o o' b b' data k hr h
    exact .inl ⟨h1, hv, h2 hv, h3⟩
  · obtain ⟨c1, p1, b1, x, n, h1, h2⟩ := known_eval (B := B) (req := req) (b := b) (data := data) hr
    rw [h2] at h
    obtain ⟨es, hs, hc⟩ := h1.steps
    have hsf := hs.unstop
    have hok := hs.ok hr.ok
    obtain ⟨c2, p2, b2, x2, n2, h4, h5, _⟩ := unMarshall_eval (B := B) (req := req) (o := o) (b := b) (data := data) hr
    rcases hc with ⟨c2, es2, e, ha, rfl, _⟩ | ⟨ha, hx⟩
    · simp at h
    · rcases hx with ⟨rfl, hx⟩ | ⟨rfl, hx, hn⟩ | ⟨e, rfl, hx⟩
      · simp only at h
        by_cases hst : c1.st = .valueType
        · rw [if_pos hst] at h
          simp only [Prod.mk.injEq] at h
          exact absurd (h.1 ▸ hst) hv
        · rw [if_neg hst] at h
          simp only [Prod.mk.injEq, Except.ok.injEq] at h
          obtain ⟨rfl, rfl, rfl⟩ := h
          obtain ⟨m, hm⟩ := hsf.eval ha (Eval.more (B := B) (req := req) (stop := false) (c := c1) (p := p1) (b := b1) (by omega))
          obtain ⟨rfl, rfl, rfl, rfl, _⟩ := h4.det hm
          exact .inr (.inl ⟨rfl, h5⟩)
      · simp only at h
        by_cases hst : c1.st = .valueType
        · rw [if_pos hst] at h
          simp only [Prod.mk.injEq] at h
          exact absurd (h.1 ▸ hst) hv
        · rw [if_neg hst] at h
          simp only [Prod.mk.injEq, Except.ok.injEq] at h
          obtain ⟨rfl, rfl, rfl⟩ := h
          have hreal : c1.st = .realValueType := by
            rcases (step_none hn).2 with h | h
            · exact absurd h.1 hst
            · exact h
          have hw : c1.wanted = 1 := by have := hok.wanted; rw [hreal] at this; exact this
          obtain ⟨y, q, rfl, hk⟩ := step_none_tag hok hx hn
          have herr : step req false c1 ((y :: q).take c1.wanted) = .error .stream := by
            rw [hw]
            unfold step
            simp only [hreal, List.take_succ_cons, List.take_zero, rd, List.getElem?_cons_zero, bind, Except.bind]
            exact valueTag_unknown hk
          obtain ⟨m, hm⟩ := hsf.eval ha (Eval.err (B := B) (req := req) (stop := false) (c := c1) (p := y :: q) (b := b1) hx herr)
          obtain ⟨rfl, rfl, rfl, rfl, _⟩ := h4.det hm
          exact .inr (.inr ⟨rfl, hreal, ⟨y, q, rfl, hk⟩, h5⟩)
      · simp at h

/-- A response holding the structure `{a: …}` whose member's value begins with a byte of no known type, and three more bytes. -/
def badMember : Bytes := [0xCA, 0x11, 2, 1, 0x70, 0x50, 1, 1, 97, 0x68, 1, 2, 3]

/-- **C59 (violated).** "Returns the number of bytes that have been successfully parsed" fails: with an unknown type at a structure's
member all 13 bytes are reported although the last four were not parsed (they are no part of any value), and feeding those 13
bytes to `unMarshall` throws. -/
theorem C59_violated : (unMarshallKnown traceBuilder .response BinUnMarshaller.init [] badMember).2 = ([.methodResponse, .openStruct 1, .member [97]], .ok 13) ∧
    (unMarshallKnown traceBuilder .response BinUnMarshaller.init [] (badMember.take 9)).2 = ([.methodResponse, .openStruct 1, .member [97]], .ok 9) ∧
    (unMarshall traceBuilder .response BinUnMarshaller.init [] badMember).2 = ([.methodResponse, .openStruct 1, .member [97]], some .stream) ∧
    (unMarshallKnown traceBuilder .response BinUnMarshaller.init [] ([0xCA, 0x11, 2, 1, 0x70, 0x38, 5] ++ [0x68, 1, 2, 3])).2 =
      ([.methodResponse, .int 5], .ok 7) := by
  exact ⟨rfl, rfl, rfl, rfl⟩

/-! ### C134: a late fault -/

theorem reset_rest (o : Obj) : Rest (resetToFaultState o) :=
  ⟨⟨rfl, by simp [resetToFaultState], fun _ => rfl, by simp [resetToFaultState, IsEarly], by simp [resetToFaultState]⟩, by simp [resetToFaultState]⟩

/-- Steps from a resting object that use up the whole stream give the result of any division of it into pieces. -/
theorem rest_all {req : Req} {B : Builder β} {o : Obj} (hr : Rest o) (hbuf : o.buf = []) {bytes : Bytes} {es : List Event} {c : Core} {b b' : β}
    (h : Steps req false o.core bytes es c []) (hw : 0 < c.wanted) (ha : applyEvents B b es = (b', none))
    (ps : List Bytes) (hps : ps.flatten = bytes) : unMarshallAll B req o b ps = (⟨c, []⟩, b', none) := by
  obtain ⟨m, hm⟩ := h.eval ha (Eval.more (B := B) (req := req) (stop := false) (c := c) (p := []) (b := b') (by simp; omega))
  obtain ⟨c2, p2, b2, x2, n2, q, h4, h5, h6, _⟩ := unMarshallAll_eval (B := B) (req := req) (o := o) (b := b) (ps := ps) hr
  rw [hbuf, List.nil_append, hps] at h4
  obtain ⟨rfl, hp, rfl, rfl, _⟩ := h4.det hm
  have hp2 : p2 = [] ∧ q = [] := by simpa using hp
  rw [h5, hp2.1]
  rfl

theorem late_body {req : Req} {stop : Bool} {ver : Version} {e : Int} (hv : ver.Known) (code : Int) (msg q : Bytes) (hc : IsI64 code)
    (h1 : ver.major = 1 → 0 ≤ code ∧ code < 2 ^ 32) (hm : msg.length < 2 ^ 30) :
    Steps req stop (top ver 1 e) ((packInt ver code).flatten ++ ((sized ver T_STRING msg.length).flatten ++ (msg ++ q)))
      [.fault (i32 (u32 code)) msg] (top ver 3 code) q := by
  have s1 : Steps req stop (top ver 1 e) ((packInt ver code).flatten ++ ((sized ver T_STRING msg.length).flatten ++ (msg ++ q)))
      [] (top ver 2 code) ((sized ver T_STRING msg.length).flatten ++ (msg ++ q)) :=
    dec_int0 hv ⟨.inl ⟨rfl, rfl⟩, rfl, rfl⟩ code _ hc h1 (fun _ _ => rfl)
  have s2 := dec_blob0 (req := req) (stop := stop) (c := top ver 2 code) (c1 := top ver 3 code) (es := [.fault (i32 (u32 code)) msg])
    hv ⟨.inl ⟨rfl, rfl⟩, rfl, rfl⟩ msg q hm true (fun _ _ => rfl)
  rw [List.append_assoc] at s2
  exact s1.trans s2

/-- **C134.** `resetToFaultState` on an unmarshaller in any state whatever (waiting in the middle of a value, after an exception, after the
end) that knows the sender's protocol version: the payload of a fault message of that version (the message less its five bytes of
magic, version and type) given to it in any pieces makes exactly one builder call, the fault with the code and message sent; and `finish`
is satisfied. -/
theorem C134_reset (B : Builder β) (req : Req) (strOk : Bytes → Bool) (o : Obj) (b b' : β) (ver : Version) (hver : o.core.ver = ver)
    (hv : ver.Known) (code : Int) (hc : IsI32 code) (msg : Bytes) (hm : msg.length < 2 ^ 30) (hs : strOk msg = true)
    (hb : B.build b (.fault code msg) = .ok b') :
    ∃ ws, sendFault strOk ver code msg = (ws, none) ∧ ∀ ps, ps.flatten = ws.flatten.drop 5 →
      ∃ o', unMarshallAll B req (resetToFaultState o) b ps = (o', b', none) ∧ BinUnMarshaller.finish o' = .ok () := by
  have hp : pack strOk ver (.packFault code msg) =
      ([packMagic ver, [dataType T_FAULT 0]] ++ packInt ver code ++ (sized ver T_STRING msg.length ++ [msg]), none) := by
    simp only [pack, packString, hs, if_true]
  refine ⟨_, run_one hp, fun ps hps => ?_⟩
  have h64 : IsI64 code := by unfold IsI32 at hc; unfold IsI64; omega
  obtain ⟨k, hk, hpk, h64k, h1⟩ : ∃ k, i32 (u32 k) = code ∧ packInt ver code = packInt ver k ∧ IsI64 k ∧ (ver.major = 1 → 0 ≤ k ∧ k < 2 ^ 32) := by
    by_cases h1 : ver.major = 1
    · refine ⟨(u32 code : Int), ?_, packInt_v1 h1 code, ?_, fun _ => ?_⟩
      · have hu : u32 (u32 code : Int) = u32 code := by unfold u32; omega
        rw [hu, i32_u32 hc]
      · unfold IsI64 u32; omega
      · unfold u32; omega
    · exact ⟨code, i32_u32 hc, rfl, h64, fun h => absurd h h1⟩
  have s2 := late_body (req := req) (stop := false) (e := o.core.errNo) hv k msg [] h64k h1 hm
  have hps' : ps.flatten = (packInt ver k).flatten ++ ((sized ver T_STRING msg.length).flatten ++ (msg ++ [])) := by
    rw [hps, hpk]; simp [packMagic]
  rw [hk] at s2
  have hcore : (resetToFaultState o).core = top ver 1 o.core.errNo := by
    subst hver; rfl
  rw [← hcore] at s2
  have ha : applyEvents B b [.fault code msg] = (b', none) := by
    simp only [applyEvents, hb]
  exact ⟨_, rest_all (reset_rest o) rfl s2 (by simp [top]) ha ps hps', rfl⟩

/-- **C134 (interrupted message).** A sender that has sent a part of a response or call up to a place where a value outside a
structure is due, and then fails, sends the type byte of a fault and the fault's payload. The receiver reads the part in any pieces, hands
the next piece, beginning with that byte, to `unMarshallPartial`, which takes nothing of it, and after `resetToFaultState` goes on
with what follows the byte: whatever was built so far, asking for the data raises exactly that fault. -/
theorem C134_interrupted (cfg : Cfg) (req : Req) (ps : List Bytes) (o : Obj) (tb : TB)
    (hpart : unMarshallAll (builder cfg) req BinUnMarshaller.init TreeBuilder.init ps = (o, tb, none))
    (hst : o.core.st = .valueType) (hin : insideStruct o.core = false) (hv : o.core.ver.Known)
    (code : Int) (hc : IsI32 code) (msg : Bytes) (hm : msg.length < 2 ^ 30) (hs : cfg.strOk msg = true) :
    ∃ ws, sendFault cfg.strOk o.core.ver code msg = (ws, none) ∧ ∀ rest,
      unMarshallKnown (builder cfg) req o tb (dataType T_FAULT 0 :: rest) = (o, tb, .ok 0) ∧
      ∀ qs, qs.flatten = ws.flatten.drop 5 → ∃ o' tb',
        unMarshallAll (builder cfg) req (resetToFaultState o) tb qs = (o', tb', none) ∧ BinUnMarshaller.finish o' = .ok () ∧
        getData tb' = .error (.fault code (if msg = [] then asc "No data unmarshalled" else msg)) := by
  obtain ⟨c2, p2, b2, x2, n2, q, h4, h5, h6, _⟩ := unMarshallAll_eval (B := builder cfg) (req := req) (o := BinUnMarshaller.init)
    (b := TreeBuilder.init) (ps := ps) Rest.init
  rw [h5] at hpart
  simp only [Prod.mk.injEq] at hpart
  obtain ⟨rfl, rfl, hx⟩ := hpart
  have hq := h6 hx
  subst hq
  rw [List.append_nil] at h4
  obtain ⟨es, hs4, hc4⟩ := h4.steps
  have hok : Ok c2 := hs4.ok Ok.init
  have hmore : applyEvents (builder cfg) TreeBuilder.init es = (b2, none) ∧ p2.length < c2.wanted := by
    rcases hc4 with ⟨_, _, e, _, rfl, _⟩ | ⟨ha, hy⟩
    · simp [Exit.err] at hx
    · rcases hy with ⟨rfl, hy⟩ | ⟨rfl, hy⟩ | ⟨e, rfl, hy⟩
      · exact ⟨ha, hy⟩
      · exact absurd rfl h4.not_stopped
      · simp [Exit.err] at hx
  obtain ⟨ha, hshort⟩ := hmore
  have hr : Rest ⟨c2, p2⟩ := ⟨hok, hshort⟩
  simp only at hst hin hv
  have hw : c2.wanted = 1 := by have := hok.wanted; rw [hst] at this; exact this
  have hp2 : p2 = [] := List.eq_nil_of_length_eq_zero (by omega)
  subst hp2
  have hbld : (builder cfg).build b2 (.fault code msg) = .ok (applyEvents (builder cfg) b2 [.fault code msg]).1 := by
    simp only [applyEvents, builder, build]
  obtain ⟨ws, hws, hrun⟩ := C134_reset (builder cfg) req cfg.strOk ⟨c2, []⟩ b2 _ c2.ver rfl hv code hc msg hm hs hbld
  refine ⟨ws, hws, fun rest => ⟨?_, fun qs hqs => ?_⟩⟩
  · obtain ⟨c3, p3, b3, x3, n3, h7, h8⟩ := known_eval (B := builder cfg) (req := req) (b := b2) (data := dataType T_FAULT 0 :: rest) hr
    have hstop : step req true c2 ((dataType T_FAULT 0 :: rest).take c2.wanted) = .ok none := by
      rw [hw]
      unfold step
      simp only [hst, List.take_succ_cons, List.take_zero, rd, List.getElem?_cons_zero, bind, Except.bind, hin]
      simp only [Bool.false_eq_true, if_false]
      rw [valueTag_stop, if_neg (by decide)]
    obtain ⟨rfl, rfl, rfl, rfl, _⟩ := h7.det (Eval.stopped (by rw [hw]; simp) hstop)
    rw [h8]
    simp [hst]
  · obtain ⟨o', h9, h10⟩ := hrun qs hqs
    refine ⟨o', _, h9, h10, ?_⟩
    refine C03_late_fault cfg es _ code msg ?_
    rw [applyEvents_append, ha]
    show applyEvents (builder cfg) b2 [.fault code msg] = _
    rw [applyEvents]
    rw [hbld]
    rfl

/-- A response holding an array of three of which two values came. -/
def cutArray : Bytes := [0xCA, 0x11, 2, 1, 0x70, 0x58, 3, 0x38, 5, 0x20, 1, 97]

/-- The receiver of the interrupted response of the theorem, run on it. -/
def cutObj : Obj × TB × Option Err := unMarshallAll (builder plainCfg) .response BinUnMarshaller.init TreeBuilder.init [cutArray]

example : cutObj.2.2 = none ∧ cutObj.1.core.st = .valueType ∧ insideStruct cutObj.1.core = false ∧ cutObj.1.core.ver = ⟨2, 1⟩ ∧
    cutObj.1.core.stack.length = 1 := by exact ⟨rfl, rfl, rfl, rfl, rfl⟩

example : (match unMarshallAll (builder plainCfg) .response (resetToFaultState cutObj.1) cutObj.2.1
      [(sendFault plainCfg.strOk ⟨2, 1⟩ (-500) (asc "oops")).1.flatten.drop 5] with
    | (_, tb, none) => (match getData tb with | .error (.fault c m) => (c == -500 && m == asc "oops") | _ => false)
    | _ => false) = true := by rfl

/-- **C134 (where it cannot work).** Between the members of a structure the type byte of a fault is taken for the length of
a name: the unmarshaller waits for 120 bytes of a name and takes the whole fault as a part of it. -/
theorem C134_between_members : (unMarshallKnown traceBuilder .response BinUnMarshaller.init []
      ([0xCA, 0x11, 2, 1, 0x70, 0x50, 2, 1, 97, 0x38, 5] ++ dataType T_FAULT 0 :: (sendFault (fun _ => true) ⟨2, 1⟩ 7 (asc "oops")).1.flatten.drop 5)) =
    (⟨{ st := .memberName, wanted := 120, stack := [⟨1, .struct⟩], fault := 0, errNo := 0, ver := ⟨2, 1⟩ },
        (sendFault (fun _ => true) ⟨2, 1⟩ 7 (asc "oops")).1.flatten.drop 5⟩,
      [.methodResponse, .openStruct 2, .member [97], .int 5], .ok 20) := by rfl

end Frpc
