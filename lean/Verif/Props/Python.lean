import Verif.Proofs.PythonAny
import Verif.Props.RoundTrip
/-!
# C93–C96: the Python module

`dumpsBinary` and `loadsBinary` are `fastrpc.dumps(.., useBinary=True, ..)` and `fastrpc.loads` of a binary message.
-/
namespace Frpc
namespace Python
open BinMarshaller
open BinUnMarshaller hiding init
open TreeBuilder (Cfg getData)
open Spec (plainWith isUtf8)
open Spec.Python (Proper ProperItems Small SmallItems Each EachItems Need back backItems shows showsItems Loadable LoadableItems means meansItems Stands StandsItems)

variable {o : Opts} {L : DateTimeMake.Libc} {strOk : Bytes → Bool}

theorem versionOf_known {major minor : Int} (h : major = 2 ∨ major = 3) : (versionOf major minor).Known ∧ 2 ≤ (versionOf major minor).major := by
  have h1 : (versionOf major minor).major = UInt8.ofNat (u32 major) := rfl
  unfold Version.Known
  rw [h1]
  rcases h with rfl | rfl <;> decide

/-- What `dumps` does when it returns. -/
theorem dumps_ok {major minor : Int} {method : Option Bytes} {params : Params} {data : Bytes}
    (h : dumpsBinary L strOk major minor method params = .ok data) :
    (run strOk (versionOf major minor) (script L method params).1.1).2 = none ∧ (script L method params).1.2 = none ∧ (script L method params).2 = false ∧
      data = (run strOk (versionOf major minor) (script L method params).1.1).1.flatten := by
  unfold dumpsBinary at h
  split at h
  · cases h
  split at h
  · cases h
  split at h
  · cases h
  simp only [outcome] at h
  split at h
  · cases h
  next hr =>
    split at h
    · cases h
    next hs =>
      split at h
      · cases h
      · next hb => cases h; exact ⟨hr, hs, by simpa using hb, rfl⟩

/-- The result of `loads` for a message that is taken without an exception. -/
theorem loads_of {data : Bytes} {obj : Obj} {pb : PB} (hlen : data.length < 2 ^ 32) (h : unMarshallAll (builder o) .any BinUnMarshaller.init init [data] = (obj, pb, none)) :
    loadsBinary o data = answer pb := by
  have h1 := C04_chunking (builder o) .any init [data]
  rw [h] at h1
  simp only [List.flatten_cons, List.flatten_nil, List.append_nil] at h1
  unfold loadsBinary
  rw [show data.take (sz32 data.length) = data by unfold sz32; rw [Nat.mod_eq_of_lt hlen]; simp]
  split
  · next e he => rw [he] at h1; simp at h1
  · next pb' he => rw [he] at h1; rw [h1.1]

theorem shows_not_fault : ∀ (v : Value) (c : Int) (m : Bytes), shows v ≠ .fault c m
  | .secret v, c, m => by unfold shows; exact shows_not_fault v c m
  | .null, _, _ | .bool _, _, _ | .int _, _, _ | .double _, _, _ | .string _, _, _ | .stringView _, _, _ | .binary _, _, _ | .binaryRef _, _, _
  | .dateTime _, _, _ | .array _, _, _ | .struct _, _, _ => by unfold shows; simp

theorem answer_value {pb : PB} {v : Value} (he : pb.error = none) (hm : pb.methodName = none) (hf : pb.frames = []) (hr : pb.ret = shows v) :
    answer pb = .ok (shows v, none) := by
  unfold answer
  rw [he, hm]
  have hs : seen pb = shows v := by unfold seen; rw [hf, hr]; rfl
  simp only [hs]
  split
  · next c m h => exact absurd h (shows_not_fault v c m)
  · rfl

/-- A response of C++ is loaded by Python. -/
theorem response_loaded (hp : Plain o) (ver : Version) (hv : ver.Known) (v : Value) (hw : WireOk strOk ver v) (hl : Loadable v) :
    ∃ ws, sendResponse strOk ver v = (ws, none) ∧ (ws.flatten.length < 2 ^ 32 → loadsBinary o ws.flatten = .ok (got o ver v, none)) := by
  obtain ⟨ws, hr, hd⟩ := codec (req := .any) (stop := false) hv v hw
  refine ⟨[packMagic ver, [dataType T_RESPONSE 0]] ++ ws, ?_, fun hlen => ?_⟩
  · unfold sendResponse
    rw [run_cons _ _ _ _ _ rfl, hr]
  · have s1 := dec_response (stop := false) hv (.inr rfl) ws.flatten
    have s2 := hd (top ver 0 0) [] (top_ready ver 0)
    rw [List.append_nil, after_top] at s2
    have s3 := s1.trans s2
    obtain ⟨m, hm⟩ := build_value (ver := ver) hp v hl init ⟨rfl, by intro s ms fs h; simp [init] at h⟩
    have ha : applyEvents (builder o) init ([.methodResponse] ++ (evs ver v ++ (closeUp (top ver 0 0).stack).2)) =
        ({ place init (got o ver v) with memberName := m }, none) := by
      rw [List.singleton_append, applyEvents_cons (b' := init) rfl]
      simpa [top, closeUp] using hm
    have h := s3.all (by simp [top]) ha [([packMagic ver, [dataType T_RESPONSE 0]] ++ ws).flatten] (by simp)
    rw [loads_of hlen h]
    exact answer_value rfl rfl rfl rfl

/-- A call of C++ is loaded by Python. -/
theorem call_loaded (hp : Plain o) (ver : Version) (hv : ver.Known) (name : Bytes) (hn : 1 ≤ name.length ∧ name.length ≤ 255) (hu : isUtf8 name = true)
    (vs : List Value) (hw : WireOkItems strOk ver vs) (hl : LoadableItems vs) :
    ∃ ws, sendCall strOk ver name vs = (ws, none) ∧
      (ws.flatten.length < 2 ^ 32 → loadsBinary o ws.flatten = .ok (.tuple (showsItems (Spec.plainItemsWith (gotDate o ver) vs)), some name)) := by
  obtain ⟨wa, hr, hd⟩ := codecTop (req := .any) (stop := false) hv 0 vs hw
  have hpk : pack strOk ver (.packMethodCall name) =
      ([packMagic ver, [dataType T_CALL 0], [UInt8.ofNat name.length], name], none) := by
    have hc : (decide (name.length > 255) || name.length == 0) = false := by
      rw [Bool.or_eq_false_iff]; exact ⟨decide_eq_false (by omega), beq_eq_false_iff_ne.2 (by omega)⟩
    simp only [pack, hc]; rfl
  refine ⟨_, by unfold sendCall; rw [run_cons _ _ _ _ _ hpk, hr], fun hlen => ?_⟩
  have s1 := dec_call (req := .any) (stop := false) hv (.inr rfl) name wa.flatten hn.1 hn.2
  have s2 := hd []
  rw [List.append_nil] at s2
  have s3 := s1.trans s2
  obtain ⟨m, hm⟩ := build_items (ver := ver) hp vs hl { init with methodName := some name, first := false, frames := [(.root, .list [])] } .root [] [] rfl rfl
  have ha : applyEvents (builder o) init ([.methodCall name] ++ evsItems ver vs) =
      ({ init with methodName := some name, first := false, memberName := m,
                   frames := [(.root, .list (showsItems (Spec.plainItemsWith (gotDate o ver) vs)))] }, none) := by
    rw [List.singleton_append, applyEvents_cons rfl]
    exact hm
  have h := s3.all (by simp [top]) ha [([packMagic ver, [dataType T_CALL 0], [UInt8.ofNat name.length], name] ++ wa).flatten] (by simp)
  rw [loads_of hlen h]
  unfold answer
  simp [seen, collapse, attach, Cont.val, toTuple, init, decodes, hu]

/-- A fault of C++ is raised by Python. -/
theorem fault_loaded (ver : Version) (hv : ver.Known) (code : Int) (hc : IsI32 code) (msg : Bytes) (hm : msg.length < 2 ^ 30)
    (hs : strOk msg = true) (hu : isUtf8 msg = true) :
    ∃ ws, sendFault strOk ver code msg = (ws, none) ∧ (ws.flatten.length < 2 ^ 32 → loadsBinary o ws.flatten = .error (.fault code msg)) := by
  obtain ⟨ws, h1, h2⟩ := C03_fault_roundtrip ⟨strOk, none⟩ ver hv .any (by simp) code hc msg hm hs
  refine ⟨ws, h1, fun hlen => ?_⟩
  obtain ⟨ht, tb, hr, _⟩ := h2 [ws.flatten] (by simp)
  have hb : (unMarshallAll traceBuilder .any BinUnMarshaller.init [] [ws.flatten]).2.2 = none := by
    unfold receive at hr
    split at hr
    · cases hr
    · next obj tb' he =>
      rcases C04_any_builder _ _ _ _ _ _ _ he with ⟨_, h⟩ | ⟨_, _, e, _, _, h⟩
      · exact h.symm
      · cases h
  cases hx : unMarshallAll (builder o) .any BinUnMarshaller.init init [ws.flatten] with
  | mk obj r =>
    obtain ⟨pb, err⟩ := r
    have key : applyEvents (builder o) init [.fault code msg] = ({ init with ret := .fault code msg, first := true }, none) := by
      refine applyEvents_one ?_
      simp [builder, build, buildFault, init, decodes, hu]
    rcases C04_any_builder _ _ _ _ _ _ _ hx with ⟨h3, h4⟩ | ⟨es, rest, e, h3, h4, h5⟩
    · rw [ht, key] at h3
      cases h3
      rw [hb] at h4
      subst h4
      rw [loads_of hlen hx]
      rfl
    · rw [ht] at h3
      exfalso
      match es, h3 with
      | [], _ => simp [applyEvents] at h4
      | [x], h3 =>
        simp at h3
        rw [← h3.1, key] at h4
        simp at h4
      | x :: y :: es, h3 => simp at h3

/-! ## C93: from `dumps` to `loads` -/

/-- What is asked of an object that is to come back as it was: integers are not `2^63` to `2^64 - 1`, date-times are such that the version can carry them and have a time stamp
other than -1, keys have no NUL, there is no `datetime.datetime`. -/
def backNeed (ver : Version) : Need where
  int := fun n => ¬ ((2 : Int) ^ 63 ≤ n ∧ n < 2 ^ 64)
  date := fun d => DateOk ver d ∧ d.unixTime ≠ -1
  key := fun k => (0 : UInt8) ∉ k
  native := False

theorem gotDate_back {ver : Version} (d : DateTime) (h : DateOk ver d ∧ d.unixTime ≠ -1) : gotDate o ver d = d := by
  unfold gotDate newDateTime
  rw [h.1.received, if_pos h.2]

/-- **C93 (responses, partial).** What `dumps((x,), useBinary=True, ..)` makes of any Python object at protocol 2 or 3 is loaded as that object: tuples come back as lists,
`Boolean`s as `bool`s, everything else as it was.
Missing (each shown false below): integers of 2^63 to 2^64 - 1, keys with a NUL, time stamps of -1; `datetime` objects (C95) and the XML format, which is not modelled here. -/
theorem C93_response_partial (hp : Plain o) (major minor : Int) (hmaj : major = 2 ∨ major = 3) (x : Py) (hx : Proper x) (hs : Small x)
    (he : Each (backNeed (versionOf major minor)) x) (data : Bytes) (hlen : data.length < 2 ^ 32) (hd : dumpsBinary L strOk major minor none (.seq [x]) = .ok data) :
    loadsBinary o data = .ok (back x, none) := by
  obtain ⟨h1, h2, _, h4⟩ := dumps_ok hd
  obtain ⟨hv, hv2⟩ := versionOf_known (minor := minor) hmaj
  simp only [script] at h1 h2 h4
  obtain ⟨v, hm⟩ := means_of_fed (N := backNeed (versionOf major minor)) (fun _ h => h) (fun h => h) x he hs (andThen_none h2).2
  have hf := feed_means (L := L) x v hm hs
  rw [hf] at h1 h4
  simp only [andThen, List.cons_append, List.nil_append] at h1 h4
  have hw : WireOk strOk (versionOf major minor) v := rangedOk hv2 v (means_ranged x v hm hx) (means_small x v hm hs) (run_one_none _ _ h1).2
  obtain ⟨hl, hb⟩ := means_back (N := backNeed (versionOf major minor)) (fun _ h => h) (f := gotDate o (versionOf major minor)) (fun d h => gotDate_back d h) x v hm hx he
  obtain ⟨ws, w1, w2⟩ := response_loaded hp (versionOf major minor) hv v hw hl
  unfold sendResponse at w1
  rw [w1] at h4
  simp only at h4
  rw [h4, w2 (h4 ▸ hlen), got, hb]

/-- The name of a call that the marshaller takes. -/
theorem name_of_run {ver : Version} {name : Bytes} {ops : List PackOp} (h : (run strOk ver (.packMethodCall name :: ops)).2 = none) :
    1 ≤ name.length ∧ name.length ≤ 255 := by
  have h2 := (run_one_none _ _ h).1
  simp only [pack] at h2
  by_cases hk : (decide (name.length > 255) || name.length == 0) = true
  · rw [if_pos hk] at h2; simp at h2
  · simp only [Bool.or_eq_true, decide_eq_true_eq, beq_iff_eq, not_or] at hk
    omega

/-- **C93 (calls, partial).** `dumps(args, methodname=name, useBinary=True, ..)` is loaded as the tuple of the arguments and the name. Missing: as in `C93_response_partial`. -/
theorem C93_call_partial (hp : Plain o) (major minor : Int) (hmaj : major = 2 ∨ major = 3) (name : Bytes) (hu : isUtf8 name = true)
    (xs : List Py) (hmany : xs.length < 2 ^ 30) (hx : ProperItems xs) (hs : SmallItems xs)
    (he : EachItems (backNeed (versionOf major minor)) xs) (data : Bytes) (hlen : data.length < 2 ^ 32) (hd : dumpsBinary L strOk major minor (some name) (.seq xs) = .ok data) :
    loadsBinary o data = .ok (.tuple (backItems xs), some name) := by
  obtain ⟨h1, h2, _, h4⟩ := dumps_ok hd
  obtain ⟨hv, hv2⟩ := versionOf_known (minor := minor) hmaj
  simp only [script, argc_small hmany, Int.toNat_natCast] at h1 h2 h4
  obtain ⟨vs, hm⟩ := means_of_fed_items (N := backNeed (versionOf major minor)) (fun _ h => h) (fun h => h) xs he hs (andThen_none h2).2
  have hf := feed_items (L := L) xs vs hm hs
  rw [hf] at h1 h4
  simp only [andThen, List.cons_append, List.nil_append] at h1 h4
  have hw : WireOkItems strOk (versionOf major minor) vs := rangedItems hv2 vs (means_ranged_items xs vs hm hx) (means_small_items xs vs hm hs) (run_one_none _ _ h1).2
  obtain ⟨hl, hb⟩ := means_back_items (N := backNeed (versionOf major minor)) (fun _ h => h) (f := gotDate o (versionOf major minor)) (fun d h => gotDate_back d h) xs vs hm hx he
  obtain ⟨ws, w1, w2⟩ := call_loaded hp (versionOf major minor) hv name (name_of_run h1) hu vs hw hl
  unfold sendCall at w1
  rw [w1] at h4
  simp only at h4
  rw [h4, w2 (h4 ▸ hlen), hb]

/-- **C93 (faults, partial).** `dumps(Fault(code, msg), useBinary=True, ..)` makes `loads` raise that fault. Missing: codes of more than 32 bits (`C95_fault_code_violated`). -/
theorem C93_fault_partial (major minor : Int) (hmaj : major = 2 ∨ major = 3) (code : Int) (hc : IsI32 code) (msg : Bytes) (hu : isUtf8 msg = true)
    (hm : msg.length < 2 ^ 30) (method : Option Bytes) (data : Bytes) (hlen : data.length < 2 ^ 32)
    (hd : dumpsBinary L strOk major minor method (.fault (some code) (some msg)) = .ok data) : loadsBinary o data = .error (.fault code msg) := by
  obtain ⟨h1, _, _, h4⟩ := dumps_ok hd
  obtain ⟨hv, _⟩ := versionOf_known (minor := minor) hmaj
  have hr : -(2 : Int) ^ 63 ≤ code ∧ code < 2 ^ 63 := by unfold IsI32 at hc; omega
  simp only [script, if_pos hr, i32_u32 hc, sz32_take hm] at h1 h4
  have hs : strOk msg = true := by
    have := (run_one_none _ _ h1).1
    simp only [pack, packString] at this
    by_cases hk : strOk msg = true
    · exact hk
    · rw [if_neg hk] at this; simp at this
  obtain ⟨ws, w1, w2⟩ := fault_loaded (o := o) (versionOf major minor) hv code hc msg hm hs hu
  unfold sendFault at w1
  rw [w1] at h4
  simp only at h4
  rw [h4, w2 (h4 ▸ hlen)]

/-- **C93 (nothing).** `dumps((), useBinary=True)`, a response without a value, is loaded as `None`. -/
theorem C93_nothing (major minor : Int) (hmaj : major = 2 ∨ major = 3) (data : Bytes) (hd : dumpsBinary L strOk major minor none (.seq []) = .ok data) :
    loadsBinary o data = .ok (.none, none) := by
  obtain ⟨_, _, _, h4⟩ := dumps_ok hd
  obtain ⟨hv, _⟩ := versionOf_known (minor := minor) hmaj
  have h4 : data = [packMagic (versionOf major minor), [dataType T_RESPONSE 0]].flatten := h4
  have s1 := dec_response (req := .any) (stop := false) hv (.inr rfl) []
  have h := s1.all (B := builder o) (b := init) (by simp [top]) (applyEvents_one (b' := init) rfl) [data] (by rw [h4]; simp)
  rw [loads_of (by rw [h4]; simp [packMagic]) h]
  rfl

/-- The C library of the examples: every time is the epoch, and cannot be computed. -/
def noLibc : DateTimeMake.Libc := ⟨fun _ => ⟨70, 0, 1, 0, 0, 0, 4, 0⟩, fun t => (-1, t), 0⟩

/-- The default options of `loads`. -/
def plainOpts : Opts := ⟨noLibc, true, none⟩

/-- An object with one of everything. -/
def sample : Py :=
  .dict [(.str (asc "b"), .tuple [.int (-5), .none, .boolean true, .str [0xC3, 0xA9]]), (.str (asc "a"), .bytes [0, 255]),
    (.str [0xC3, 0xA9], .dateTime ⟨2023, 11, 14, 22, 13, 20, 2, 1700000000, -3600⟩), (.str (asc "c"), .list [.dict [], .float 0x7ff8000000000001#64])]

/-- The hypotheses of C93 hold of it. -/
theorem sample_ok : Proper sample ∧ Small sample ∧ Each (backNeed ⟨2, 1⟩) sample ∧ ∃ data, dumpsBinary noLibc (fun _ => true) 2 1 none (.seq [sample]) = .ok data ∧ data.length < 2 ^ 32 := by
  refine ⟨?_, ?_, ?_, ?_⟩
  · unfold sample
    simp only [Proper, ProperItems, Spec.Python.ProperMembers, and_true, true_and]
    refine ⟨by decide, ?_, ⟨by decide, ?_, ⟨?_, by unfold IsI64; decide, ?_, by decide⟩⟩⟩
    all_goals (intro s h; cases h; decide)
  · unfold sample
    simp only [Small, SmallItems, Spec.Python.SmallMembers, and_true, true_and]
    refine ⟨by decide, ?_, ⟨by decide, by decide⟩, ?_, by decide, ?_, ?_, by decide, by decide⟩
    all_goals (intro s h; cases h; decide)
  · unfold sample
    simp only [Each, EachItems, Spec.Python.EachMembers, backNeed, and_true, true_and]
    refine ⟨?_, by decide, ?_, ?_, ⟨⟨⟨by decide, by decide, by decide, by decide, by decide, by decide⟩, by decide, ⟨-4, by decide, by decide, by decide⟩, fun _ => by decide⟩, by decide⟩, ?_⟩
    all_goals (intro s h; cases h; decide)
  · exact ⟨_, rfl, by decide +kernel⟩

/-- What comes back of it. -/
example : ∃ data, dumpsBinary noLibc (fun _ => true) 2 1 none (.seq [sample]) = .ok data ∧ loadsBinary plainOpts data = .ok (back sample, none) := by
  obtain ⟨h1, h2, h3, data, h4, h5⟩ := sample_ok
  exact ⟨data, h4, C93_response_partial ⟨rfl, rfl⟩ 2 1 (.inl rfl) sample h1 h2 h3 data h5 h4⟩

example : ∃ data, dumpsBinary noLibc (fun _ => true) 3 0 (some (asc "m")) (.seq [.int (-5), .tuple []]) = .ok data ∧
    loadsBinary plainOpts data = .ok (.tuple [.int (-5), .list []], some (asc "m")) :=
  ⟨_, rfl, C93_call_partial (L := noLibc) (strOk := fun _ => true) ⟨rfl, rfl⟩ 3 0 (.inr rfl) (asc "m") (by decide) [.int (-5), .tuple []] (by decide)
    (by simp [ProperItems, Proper]) (by simp [SmallItems, Small]) (by simp [EachItems, Each, backNeed]) _ (by decide +kernel) rfl⟩

example : loadsBinary plainOpts [0xCA, 0x11, 2, 1, 0x78, 0x38, 5, 0x20, 1, 97] = .error (.fault 5 [97]) :=
  C93_fault_partial (L := noLibc) (strOk := fun _ => true) 2 1 (.inl rfl) 5 (by unfold IsI32; decide) [97] (by decide) (by decide) none _ (by decide) (by rfl)

/-- **C93 is false of keys with a NUL**: they are cut there, and members are lost when the rests are equal. -/
theorem C93_key_violated :
    dumpsBinary noLibc (fun _ => true) 2 1 none (.seq [.dict [(.str [97, 0, 98], .int 1), (.str [97, 0, 99], .int 2)]]) =
      .ok [0xCA, 0x11, 2, 1, 0x70, 0x50, 2, 3, 97, 0, 98, 0x38, 1, 3, 97, 0, 99, 0x38, 2] ∧
    loadsBinary plainOpts [0xCA, 0x11, 2, 1, 0x70, 0x50, 2, 3, 97, 0, 98, 0x38, 1, 3, 97, 0, 99, 0x38, 2] = .ok (.dict [(.str [97], .int 2)], none) := ⟨rfl, rfl⟩

theorem packInt_length (ver : Version) (n : Int) (h2 : 2 ≤ ver.major) : (packInt ver n).flatten.length ≤ 100 := by
  have hs : ∀ n : Int, getNumberSize ver (getNumberType ver n) ≤ 8 := fun n => (getNumberSize_bound ver n).2
  unfold packInt
  by_cases h3 : ver.major > 2
  · rw [if_pos h3]
    have := hs (i64 (zigzagEncode n))
    simp [number]; omega
  · rw [if_neg h3, if_pos (by exact Std.lt_of_lt_of_le (by decide) h2)]
    by_cases h0 : n < 0
    · rw [if_pos h0]
      have := hs (i64 (safeAbs n))
      simp [number]; omega
    · rw [if_neg h0]
      have := hs n
      simp [number]; omega

/-- **C93 is false of the integers from 2^63 to 2^64 - 1**: they come back as negative numbers, without an error. -/
theorem C93_unsigned_violated (hp : Plain o) (major minor : Int) (hmaj : major = 2 ∨ major = 3) (hmin : 0 ≤ minor) (n : Int) (hn : 2 ^ 63 ≤ n ∧ n < 2 ^ 64) :
    ∃ data, dumpsBinary L strOk major minor none (.seq [.int n]) = .ok data ∧ loadsBinary o data = .ok (.int (n - 2 ^ 64), none) := by
  obtain ⟨hv, hv2⟩ := versionOf_known (minor := minor) hmaj
  have hi : i64 n.toNat = n - 2 ^ 64 := by unfold i64; omega
  have hw : WireOk strOk (versionOf major minor) (.int (n - 2 ^ 64)) := ⟨by unfold IsI64; omega, fun h1 => absurd (h1 ▸ hv2) (by decide)⟩
  obtain ⟨ws, w1, w2⟩ := response_loaded hp (versionOf major minor) hv (.int (n - 2 ^ 64)) hw (by simp [Loadable])
  have hs : script L none (.seq [.int n]) = ((.packMethodResponse :: Frpc.feed (.int (n - 2 ^ 64)), none), false) := by
    simp only [script, feedValue, toInt64, if_pos hn, hi, andThen, Frpc.feed, List.cons_append, List.nil_append]
  have hrun : run strOk (versionOf major minor) (.packMethodResponse :: Frpc.feed (.int (n - 2 ^ 64))) = (ws, none) := w1
  have hb : ws.flatten.length < 2 ^ 32 := by
    have hx : run strOk (versionOf major minor) (.packMethodResponse :: Frpc.feed (.int (n - 2 ^ 64))) =
        ([packMagic (versionOf major minor), [dataType T_RESPONSE 0]] ++ packInt (versionOf major minor) (n - 2 ^ 64), none) := by
      rw [run_cons _ _ _ _ _ rfl]
      simp only [Frpc.feed]
      rw [run_one (ws := packInt (versionOf major minor) (n - 2 ^ 64)) rfl]
    rw [hx] at hrun
    cases hrun
    have hl := packInt_length (versionOf major minor) (n - 2 ^ 64) hv2
    simp only [List.flatten_append, List.length_append]
    have : [packMagic (versionOf major minor), [dataType T_RESPONSE 0]].flatten.length = 5 := rfl
    omega
  refine ⟨ws.flatten, ?_, w2 hb⟩
  have hacc : BinMarshaller.accepts (versionOf major minor) = true := by
    rcases hmaj with rfl | rfl <;> rfl
  unfold dumpsBinary
  rw [if_neg (by simp), if_neg (by rcases hmaj with rfl | rfl <;> omega), if_neg (by rw [hacc]; simp)]
  simp only [hs, hrun, outcome, Bool.false_eq_true, if_false]

/-- A time stamp of -1 is computed anew from the fields when the object is made: what comes back is another time stamp, and another day of the week, for every library that does so. -/
theorem C93_stamp_violated (L' : DateTimeMake.Libc) (d : DateTime) (h1 : d.unixTime = -1) (h2 : (L'.mktime (DateTimeMake.tmOf d.year d.month d.day d.hour d.minute d.sec)).1 ≠ -1) :
    (newDateTime L' d).unixTime ≠ d.unixTime := by
  unfold newDateTime
  rw [if_neg (by simp [h1])]
  simp only [h1]
  exact h2

/-! ## C94: Python and C++ -/

/-- What is asked of an object that is to arrive in C++ as it is. -/
def sendNeed (ver : Version) : Need where
  int := fun n => ¬ ((2 : Int) ^ 63 ≤ n ∧ n < 2 ^ 64)
  date := DateOk ver
  key := fun _ => True
  native := False

/-- **C94 (responses to C++, partial).** What `dumps((x,), useBinary=True, ..)` makes at protocol 2 or 3 is received by a C++ client (without validation of date-times),
however the bytes are divided, as a tree that stands for `x`. Missing: integers of 2^63 to 2^64 - 1 (`C94_unsigned_violated`), `datetime` objects (C95). -/
theorem C94_response_received_partial (cfg : Cfg) (hcfg : cfg.mktime = none) (major minor : Int) (hmaj : major = 2 ∨ major = 3) (x : Py) (hx : Proper x) (hs : Small x)
    (he : Each (sendNeed (versionOf major minor)) x) (data : Bytes) (hd : dumpsBinary L cfg.strOk major minor none (.seq [x]) = .ok data)
    (ps : List Bytes) (hps : ps.flatten = data) : ∃ tb v, receive cfg .response ps = .ok tb ∧ getData tb = .ok v ∧ Stands x v := by
  obtain ⟨h1, h2, _, h4⟩ := dumps_ok hd
  obtain ⟨hv, hv2⟩ := versionOf_known (minor := minor) hmaj
  simp only [script] at h1 h2 h4
  obtain ⟨v, hm⟩ := means_of_fed (N := sendNeed (versionOf major minor)) (fun _ h => h) (fun h => h) x he hs (andThen_none h2).2
  have hf := feed_means (L := L) x v hm hs
  rw [hf] at h1 h4
  simp only [andThen, List.cons_append, List.nil_append] at h1 h4
  have hw : WireOk cfg.strOk (versionOf major minor) v := rangedOk hv2 v (means_ranged x v hm hx) (means_small x v hm hs) (run_one_none _ _ h1).2
  obtain ⟨ws, w1, w2⟩ := response_received cfg (versionOf major minor) hv .response (.inl rfl) v hw
  unfold sendResponse at w1
  rw [w1] at h4
  obtain ⟨tb, t1, t2⟩ := w2 ps (by rw [hps, h4])
  exact ⟨tb, _, t1, t2, received_stands (N := sendNeed (versionOf major minor)) (fun d h => by rw [h.received]; simp [Cfg.date, hcfg]) x v hm hx he⟩

/-- **C94 (calls to C++, partial).** A call made with `dumps` is received by a C++ server as the method of that name with arguments that stand for those given.
Missing: as in `C94_response_received_partial`. -/
theorem C94_call_received_partial (cfg : Cfg) (hcfg : cfg.mktime = none) (major minor : Int) (hmaj : major = 2 ∨ major = 3) (name : Bytes) (xs : List Py)
    (hmany : xs.length < 2 ^ 30) (hx : ProperItems xs) (hs : SmallItems xs) (he : EachItems (sendNeed (versionOf major minor)) xs) (data : Bytes)
    (hd : dumpsBinary L cfg.strOk major minor (some name) (.seq xs) = .ok data) (ps : List Bytes) (hps : ps.flatten = data) :
    ∃ tb vs, receive cfg .call ps = .ok tb ∧ tb.methodName = name ∧ getData tb = .ok (.array vs) ∧ StandsItems xs vs := by
  obtain ⟨h1, h2, _, h4⟩ := dumps_ok hd
  obtain ⟨hv, hv2⟩ := versionOf_known (minor := minor) hmaj
  simp only [script, argc_small hmany, Int.toNat_natCast] at h1 h2 h4
  obtain ⟨vs, hm⟩ := means_of_fed_items (N := sendNeed (versionOf major minor)) (fun _ h => h) (fun h => h) xs he hs (andThen_none h2).2
  have hf := feed_items (L := L) xs vs hm hs
  rw [hf] at h1 h4
  simp only [andThen, List.cons_append, List.nil_append] at h1 h4
  have hw : WireOkItems cfg.strOk (versionOf major minor) vs := rangedItems hv2 vs (means_ranged_items xs vs hm hx) (means_small_items xs vs hm hs) (run_one_none _ _ h1).2
  obtain ⟨ws, w1, w2⟩ := call_received cfg (versionOf major minor) hv name (name_of_run h1) vs hw
  unfold sendCall at w1
  rw [w1] at h4
  obtain ⟨tb, t1, t2, t3⟩ := w2 ps (by rw [hps, h4])
  exact ⟨tb, _, t1, t2, t3, received_stands_items (N := sendNeed (versionOf major minor)) (fun d h => by rw [h.received]; simp [Cfg.date, hcfg]) xs vs hm hx he⟩

/-- **C94 (faults to C++).** A fault made with `dumps` is raised in C++ with its code (of 32 bits) and its message. -/
theorem C94_fault_received (cfg : Cfg) (major minor : Int) (hmaj : major = 2 ∨ major = 3) (code : Int) (hc : IsI32 code) (msg : Bytes)
    (hm : msg.length < 2 ^ 30) (method : Option Bytes) (data : Bytes) (hd : dumpsBinary L cfg.strOk major minor method (.fault (some code) (some msg)) = .ok data)
    (ps : List Bytes) (hps : ps.flatten = data) :
    ∃ tb, receive cfg .response ps = .ok tb ∧ getData tb = .error (.fault code (if msg = [] then asc "No data unmarshalled" else msg)) := by
  obtain ⟨h1, _, _, h4⟩ := dumps_ok hd
  obtain ⟨hv, _⟩ := versionOf_known (minor := minor) hmaj
  have hr : -(2 : Int) ^ 63 ≤ code ∧ code < 2 ^ 63 := by unfold IsI32 at hc; omega
  simp only [script, if_pos hr, i32_u32 hc, sz32_take hm] at h1 h4
  have hs : cfg.strOk msg = true := by
    have := (run_one_none _ _ h1).1
    simp only [pack, packString] at this
    by_cases hk : cfg.strOk msg = true
    · exact hk
    · rw [if_neg hk] at this; simp at this
  obtain ⟨ws, w1, w2⟩ := C03_fault_roundtrip cfg (versionOf major minor) hv .response (by simp) code hc msg hm hs
  unfold sendFault at w1
  rw [w1] at h4
  exact (w2 ps (by rw [hps, h4])).2

/-- **C94 (responses from C++).** Every response that C++ sends at protocol 2 or 3 is loaded by Python as the object for it, if Python can hold it (`Loadable`:
UTF-8 texts and names, no NUL in a name) and its date-times are such that the version can carry them and have a time stamp other than -1. -/
theorem C94_response_loaded (hp : Plain o) (ver : Version) (hv : ver.Known) (h2 : 2 ≤ ver.major) (v : Value) (hheld : Spec.Held v) (hsmall : Spec.Small v)
    (hdates : Spec.DatesAll (fun d => DateOk ver d ∧ d.unixTime ≠ -1) v) (hl : Loadable v) (ws : List Bytes) (hsent : sendResponse strOk ver v = (ws, none))
    (hlen : ws.flatten.length < 2 ^ 32) : loadsBinary o ws.flatten = .ok (shows (Spec.plain v), none) := by
  have hacc : (run strOk ver (feed v)).2 = none := by
    have : (sendResponse strOk ver v).2 = none := by rw [hsent]
    exact (run_one_none _ _ this).2
  obtain ⟨ws', w1, w2⟩ := response_loaded (o := o) hp ver hv v (accepted h2 v hheld hsmall hacc) hl
  rw [hsent] at w1
  cases w1
  rw [w2 hlen, got, Spec.plain, plainWith_congr _ id v]
  exact DatesAll.imp (fun d hd => gotDate_back d hd) v hdates

/-- **C94 (calls from C++).** So is every call: the tuple of the objects for its arguments and the name. -/
theorem C94_call_loaded (hp : Plain o) (ver : Version) (hv : ver.Known) (h2 : 2 ≤ ver.major) (name : Bytes) (hu : isUtf8 name = true) (vs : List Value)
    (hheld : Spec.HeldItems vs) (hsmall : Spec.SmallItems vs) (hdates : Spec.DatesAllItems (fun d => DateOk ver d ∧ d.unixTime ≠ -1) vs) (hl : LoadableItems vs)
    (ws : List Bytes) (hsent : sendCall strOk ver name vs = (ws, none)) (hlen : ws.flatten.length < 2 ^ 32) :
    loadsBinary o ws.flatten = .ok (.tuple (showsItems (Spec.plainItemsWith id vs)), some name) := by
  have h0 : (run strOk ver (.packMethodCall name :: Frpc.feedItems vs)).2 = none := by
    have : (sendCall strOk ver name vs).2 = none := by rw [hsent]
    exact this
  obtain ⟨ws', w1, w2⟩ := call_loaded (o := o) hp ver hv name (name_of_run h0) hu vs (acceptedItems h2 vs hheld hsmall (run_one_none _ _ h0).2) hl
  rw [hsent] at w1
  cases w1
  rw [w2 hlen, plainWith_congrItems _ id vs]
  exact DatesAllItems.imp (fun d hd => gotDate_back d hd) vs hdates

/-- **C94 (faults from C++).** Every fault with a UTF-8 message is raised by `loads`. -/
theorem C94_fault_loaded (ver : Version) (hv : ver.Known) (code : Int) (hc : IsI32 code) (msg : Bytes) (hm : msg.length < 2 ^ 30) (hs : strOk msg = true)
    (hu : isUtf8 msg = true) : ∃ ws, sendFault strOk ver code msg = (ws, none) ∧ (ws.flatten.length < 2 ^ 32 → loadsBinary o ws.flatten = .error (.fault code msg)) :=
  fault_loaded ver hv code hc msg hm hs hu

example : Loadable sampleTree := by
  simp only [sampleTree, Loadable, LoadableItems, Spec.Python.LoadableMembers, and_true, true_and]
  decide

/-- **C94 is false of the integers from 2^63 to 2^64 - 1**: C++ gets a negative number. -/
theorem C94_unsigned_violated :
    ∃ data, dumpsBinary noLibc (fun _ => true) 2 1 none (.seq [.int (2 ^ 64 - 1)]) = .ok data ∧ getData <$> receive plainCfg .response [data] = .ok (.ok (.int (-1))) := ⟨_, rfl, rfl⟩

/-- **C94 is false of the date-times given to a callable**: it gets the time stamp cut to 32 bits, so that after 2038 it is of another day. -/
theorem C94_callable_violated (f : DateTime → Except Exn Py) (d : DateTime) (h : 2 ^ 31 ≤ d.unixTime ∧ d.unixTime < 2 ^ 32) :
    makeDate ⟨noLibc, true, some f⟩ d = f { d with unixTime := d.unixTime - 2 ^ 32 } := by
  have : i32 (u32 d.unixTime) = d.unixTime - 2 ^ 32 := by unfold i32 u32; omega
  simp only [makeDate, this]

/-! ## C95: what cannot be sent is refused -/

/-- What is asked of an object of which `dumps` can say whether it can be sent: no integer of 2^63 to 2^64 - 1, no `datetime.datetime`. -/
def tellNeed : Need where
  int := fun n => ¬ ((2 : Int) ^ 63 ≤ n ∧ n < 2 ^ 64)
  date := fun _ => True
  key := fun _ => True
  native := False

/-- **C95 (partial).** If `dumps` returns, every argument stands for a value of the protocol: there is no integer of more than 64 bits, no object of another type,
no key that is not a `str`, no text that UTF-8 cannot encode at any depth. Missing: integers of 2^63 to 2^64 - 1 are taken (`C93_unsigned_violated`). -/
theorem C95_refused_partial (major minor : Int) (name : Bytes) (xs : List Py) (hmany : xs.length < 2 ^ 30) (hs : SmallItems xs) (he : EachItems tellNeed xs) (data : Bytes)
    (hd : dumpsBinary L strOk major minor (some name) (.seq xs) = .ok data) : ∃ vs, meansItems xs = some vs := by
  obtain ⟨_, h2, _, _⟩ := dumps_ok hd
  simp only [script, argc_small hmany, Int.toNat_natCast] at h2
  exact means_of_fed_items (N := tellNeed) (fun _ h => h) (fun h => h) xs he hs (andThen_none h2).2

/-- For a response. -/
theorem C95_refused_response_partial (major minor : Int) (x : Py) (hs : Small x) (he : Each tellNeed x) (data : Bytes)
    (hd : dumpsBinary L strOk major minor none (.seq [x]) = .ok data) : ∃ v, means x = some v := by
  obtain ⟨_, h2, _, _⟩ := dumps_ok hd
  simp only [script] at h2
  exact means_of_fed (N := tellNeed) (fun _ h => h) (fun h => h) x he hs (andThen_none h2).2

example : dumpsBinary noLibc (fun _ => true) 2 1 (some (asc "m")) (.seq [.int 1, .list [.dict [(.str (asc "a"), .int (2 ^ 64))]]]) = .error .overflow ∧
    dumpsBinary noLibc (fun _ => true) 2 1 (some (asc "m")) (.seq [.list [.other]]) = .error .type ∧
    dumpsBinary noLibc (fun _ => true) 2 1 (some (asc "m")) (.seq [.dict [(.other, .none)]]) = .error .type ∧
    dumpsBinary noLibc (fun _ => true) 2 1 (some (asc "m")) (.seq [.surrogates]) = .error .unicode ∧
    dumpsBinary noLibc (fun _ => true) 2 1 (some []) (.seq []) = .error .type ∧
    dumpsBinary noLibc (fun _ => true) 2 0 none (.seq [.none]) = .error .runtime := ⟨rfl, rfl, rfl, rfl, rfl, rfl⟩

theorem andThen_some {a b : List PackOp × Option Exn} {e : Exn} (h : (andThen a b).2 = some e) : a.2 = some e ∨ b.2 = some e := by
  obtain ⟨a1, a2⟩ := a
  cases a2 with
  | some x => exact .inl h
  | none => exact .inr h

mutual
theorem feed_raises : ∀ (x : Py) (e : Exn), (feedValue L x).2 = some e → e = .type ∨ e = .overflow ∨ e = .unicode
  | .none, _, h | .bool _, _, h | .boolean _, _, h | .float _, _, h | .str _, _, h | .bytes _, _, h | .dateTime _, _, h | .native .., _, h => by simp [feedValue] at h
  | .int n, e, h => by
    simp only [feedValue] at h
    split at h
    · simp at h
    · simp at h; exact .inr (.inl h.symm)
  | .surrogates, e, h => by simp [feedValue] at h; exact .inr (.inr h.symm)
  | .fault _ _, e, h => by simp [feedValue] at h; exact .inl h.symm
  | .other, e, h => by simp [feedValue] at h; exact .inl h.symm
  | .list xs, e, h => by
    rw [feedValue] at h
    rcases andThen_some h with h | h
    · simp at h
    · exact feed_raises_items _ xs e h
  | .tuple xs, e, h => by
    rw [feedValue] at h
    rcases andThen_some h with h | h
    · simp at h
    · exact feed_raises_items _ xs e h
  | .dict ms, e, h => by
    rw [feedValue] at h
    rcases andThen_some h with h | h
    · simp at h
    · exact feed_raises_members ms e h
theorem feed_raises_items : ∀ (n : Nat) (xs : List Py) (e : Exn), (feedItems L n xs).2 = some e → e = .type ∨ e = .overflow ∨ e = .unicode
  | 0, xs, e, h => by unfold feedItems at h; simp at h
  | n + 1, [], e, h => by simp [feedItems] at h
  | n + 1, x :: xs, e, h => by
    rw [feedItems] at h
    rcases andThen_some h with h | h
    · exact feed_raises x e h
    · exact feed_raises_items n xs e h
theorem feed_raises_members : ∀ (ms : List (Key × Py)) (e : Exn), (feedMembers L ms).2 = some e → e = .type ∨ e = .overflow ∨ e = .unicode
  | [], e, h => by simp [feedMembers] at h
  | (.str k, x) :: ms, e, h => by
    rw [feedMembers] at h
    rcases andThen_some h with h | h
    · simp at h
    · rcases andThen_some h with h | h
      · exact feed_raises x e h
      · exact feed_raises_members ms e h
  | (.surrogates, x) :: ms, e, h => by simp [feedMembers] at h; exact .inr (.inr h.symm)
  | (.other, x) :: ms, e, h => by simp [feedMembers] at h; exact .inl h.symm
end

theorem pack_raises {ver : Version} {op : PackOp} {e : Err} (h : (pack strOk ver op).2 = some e) :
    e = .type ∨ e = .len ∨ e = .stream ∨ (e = .ub ∧ ∃ d, op = .packDateTime d ∧ d.unixTime = -(2 : Int) ^ 63) := by
  cases op with
  | packDateTime d =>
    simp only [pack, packDateTime] at h
    split at h
    · simp at h
    · split at h
      · next hd => simp at h; exact .inr (.inr (.inr ⟨h.symm, d, rfl, hd⟩))
      · simp at h
  | packString s => simp only [pack, packString] at h; split at h <;> simp at h; exact .inl h.symm
  | packFault c m => simp only [pack, packString] at h; split at h <;> simp at h; exact .inl h.symm
  | packMethodCall s => simp only [pack] at h; split at h <;> simp at h; exact .inr (.inl h.symm)
  | packStructMember s => simp only [pack] at h; split at h <;> simp at h; exact .inr (.inl h.symm)
  | packNull => simp only [pack] at h; split at h <;> simp at h; exact .inr (.inr (.inl h.symm))
  | _ => simp [pack] at h

theorem run_raises {ver : Version} {e : Err} : ∀ {ops : List PackOp}, (run strOk ver ops).2 = some e →
    e = .type ∨ e = .len ∨ e = .stream ∨ (e = .ub ∧ ∃ d, .packDateTime d ∈ ops ∧ d.unixTime = -(2 : Int) ^ 63)
  | [], h => by simp [run] at h
  | op :: ops, h => by
    unfold run at h
    split at h
    · next ws x hx =>
      have : x = e := by simpa using h
      subst this
      rcases pack_raises (strOk := strOk) (ver := ver) (op := op) (e := x) (by rw [hx]) with h | h | h | ⟨h, d, rfl, hd⟩
      · exact .inl h
      · exact .inr (.inl h)
      · exact .inr (.inr (.inl h))
      · exact .inr (.inr (.inr ⟨h, d, by simp, hd⟩))
    · rcases run_raises h with h | h | h | ⟨h, d, hm, hd⟩
      · exact .inl h
      · exact .inr (.inl h)
      · exact .inr (.inr (.inl h))
      · exact .inr (.inr (.inr ⟨h, d, by simp [hm], hd⟩))

/-- **C95 (exceptions).** For a version from 0 to 3 and arguments without a time stamp of -2^63, `dumps` of a call or of a response either returns or raises `TypeError`, `OverflowError`,
`UnicodeError`, `ValueError` or `RuntimeError`; the interpreter survives. -/
theorem C95_exceptions (major minor : Int) (h0 : 0 ≤ major ∧ major ≤ 3) (method : Option Bytes) (xs : List Py) (e : Exn)
    (hmin : ∀ d, PackOp.packDateTime d ∈ (script L method (.seq xs)).1.1 → d.unixTime ≠ -(2 : Int) ^ 63)
    (hd : dumpsBinary L strOk major minor method (.seq xs) = .error e) : e = .type ∨ e = .overflow ∨ e = .unicode ∨ e = .value ∨ e = .runtime := by
  unfold dumpsBinary at hd
  split at hd
  · cases hd; simp
  split at hd
  · cases hd; simp
  split at hd
  · next ha =>
    exfalso
    have : major = 0 ∨ major = 1 ∨ major = 2 ∨ major = 3 := by omega
    revert ha
    rcases this with rfl | rfl | rfl | rfl <;> simp [BinMarshaller.accepts, versionOf, u32]
  simp only [outcome] at hd
  split at hd
  · next x hx =>
    cases hd
    rcases run_raises hx with rfl | rfl | rfl | ⟨_, d, hm, hd⟩
    · exact .inl rfl
    · exact .inl rfl
    · exact .inr (.inr (.inr (.inr rfl)))
    · exact absurd hd (hmin d hm)
  split at hd
  · next x hx =>
    cases hd
    have : e = .type ∨ e = .overflow ∨ e = .unicode := by
      unfold script at hx
      cases method with
      | some name =>
        simp only at hx
        rcases andThen_some hx with h | h
        · simp at h
        · exact feed_raises_items _ xs e h
      | none =>
        cases xs with
        | nil => simp at hx
        | cons x xs =>
          simp only at hx
          rcases andThen_some hx with h | h
          · simp at h
          · exact feed_raises x e h
    rcases this with h | h | h <;> simp [h]
  split at hd
  · next hp =>
    exfalso
    unfold script at hp
    cases method with
    | some name => simp at hp
    | none => cases xs <;> simp at hp
  · cases hd

/-- **C95 is false of versions above 3**: the interpreter is terminated, whatever is sent. -/
theorem C95_version_violated (major minor : Int) (h1 : 4 ≤ major ∧ major ≤ 255) (h2 : 0 ≤ minor) (method : Option Bytes) (hm : (method.getD []).contains 0 = false) (params : Params) :
    dumpsBinary L strOk major minor method params = .error .terminate := by
  have ha : BinMarshaller.accepts (versionOf major minor) = false := by
    unfold BinMarshaller.accepts versionOf
    have hu : u32 major = major.toNat := by unfold u32; omega
    simp only [hu, Bool.not_eq_false', decide_eq_true_eq, gt_iff_lt]
    rw [UInt8.lt_iff_toNat_lt, UInt8.toNat_ofNat']
    have : (3 : UInt8).toNat = 3 := rfl
    rw [this]; omega
  unfold dumpsBinary
  rw [if_neg (by rw [hm]; simp), if_neg (by omega), if_pos ha]

/-- **C95 is false of versions from 256 on**: they are cut to 8 bits and the message is sent with that version. -/
theorem C95_version_cut_violated (major minor : Int) (h1 : 0 ≤ major ∧ major ≤ 3) (h2 : 0 ≤ minor) (k : Nat) (_hk : major + 256 * k < 2 ^ 31) (method : Option Bytes) (params : Params) :
    dumpsBinary L strOk (major + 256 * k) minor method params = dumpsBinary L strOk major minor method params := by
  have hv : versionOf (major + 256 * k) minor = versionOf major minor := by
    unfold versionOf
    have : UInt8.ofNat (u32 (major + 256 * k)) = UInt8.ofNat (u32 major) := by
      apply UInt8.toNat_inj.1
      rw [UInt8.toNat_ofNat', UInt8.toNat_ofNat']
      unfold u32; omega
    rw [this]
  unfold dumpsBinary
  rw [hv]
  by_cases hc : (method.getD []).contains 0 = true
  · rw [if_pos hc, if_pos hc]
  · rw [if_neg hc, if_neg hc, if_neg (show ¬(major + 256 * k < 0 ∨ minor < 0) by omega), if_neg (show ¬(major < 0 ∨ minor < 0) by omega)]

/-- **C95 is false of responses of several values**: all but the first are dropped without an error. -/
theorem C95_extra_violated (major minor : Int) (x : Py) (xs : List Py) :
    dumpsBinary L strOk major minor none (.seq (x :: xs)) = dumpsBinary L strOk major minor none (.seq [x]) := rfl

/-- **C95 is false of fault codes of more than 32 bits**: they are cut; beyond 64 bits the function returns a message and sets an exception, a `SystemError`. -/
theorem C95_fault_code_violated (major minor : Int) (method : Option Bytes) (code : Int) (msg : Bytes) :
    (-(2 : Int) ^ 63 ≤ code ∧ code < 2 ^ 63 →
      dumpsBinary L strOk major minor method (.fault (some code) (some msg)) = dumpsBinary L strOk major minor method (.fault (some (i32 (u32 code))) (some msg))) ∧
    dumpsBinary noLibc (fun _ => true) 2 1 none (.fault (some (2 ^ 64)) (some (asc "x"))) = .error .system := by
  refine ⟨fun h => ?_, rfl⟩
  have h2 : -(2 : Int) ^ 63 ≤ i32 (u32 code) ∧ i32 (u32 code) < 2 ^ 63 := by unfold i32 u32; omega
  have h3 : i32 (u32 (i32 (u32 code))) = i32 (u32 code) := by unfold i32 u32; omega
  have : script L method (.fault (some code) (some msg)) = script L method (.fault (some (i32 (u32 code))) (some msg)) := by
    simp only [script, if_pos h, if_pos h2, h3]
  unfold dumpsBinary
  rw [this]

/-- A C library in a zone one hour east of Greenwich, that knows one time. -/
def eastLibc : DateTimeMake.Libc := ⟨fun _ => ⟨123, 10, 14, 23, 13, 20, 2, 0⟩, fun t => (1700000000, t), -3600⟩

/-- **C95 is false of `datetime` objects**: the local time 23:13:20 of an hour east of Greenwich, which is 22:13:20 UTC and the time stamp 1700000000, arrives as 23:13:20 UTC with that time stamp. -/
theorem C95_datetime_violated :
    ∃ data, dumpsBinary eastLibc (fun _ => true) 2 1 none (.seq [.native 2023 11 14 23 13 20]) = .ok data ∧
      getData <$> receive plainCfg .response [data] = .ok (.ok (.dateTime ⟨2023, 11, 14, 23, 13, 20, 2, 1700000000, 0⟩)) := ⟨_, rfl, rfl⟩

/-! ## C96: `loads` of any bytes -/

theorem loads_any (data : Bytes) : ∃ obj pb err, unMarshallAll (builder o) .any BinUnMarshaller.init init [data.take (sz32 data.length)] = (obj, pb, err) ∧
    loadsBinary o data = match err with | some e => .error (exnOf e) | none => answer pb := by
  have h1 := C04_chunking (builder o) .any init [data.take (sz32 data.length)]
  cases hx : unMarshallAll (builder o) .any BinUnMarshaller.init init [data.take (sz32 data.length)] with
  | mk obj r =>
    obtain ⟨pb, err⟩ := r
    refine ⟨obj, pb, err, rfl, ?_⟩
    rw [hx] at h1
    simp only [List.flatten_cons, List.flatten_nil, List.append_nil] at h1
    unfold loadsBinary
    split
    · next e he => rw [he] at h1; simp at h1; rw [h1.2]
    · next pb' he => rw [he] at h1; rw [h1.2.1, h1.1]

/-- What `loads` does with a builder that took the input. -/
theorem answer_after {T : List Event} {pb : PB} (h : After o T pb) {e : Exn} (ha : answer pb = .error e) :
    e = .unicode ∨ (∃ c m, e = .fault c m) ∨ ∃ f d, o.datetimeBuilder = some f ∧ f d = .error e := by
  cases h with
  | nothing h => subst h; simp [answer, init, seen, collapse] at ha
  | call name s h =>
    unfold answer at ha
    cases he : pb.error with
    | some x =>
      rw [he] at ha; cases ha
      rcases h.kind e he with hk | hk
      · exact .inl hk
      · exact .inr (.inr hk)
    | none =>
      rw [he, h.name] at ha
      have hr := h.frames he
      obtain ⟨xs, hx⟩ := Rooted.seen pb.ret hr
      have hs : seen pb = .list xs := by unfold seen; rw [hr.length, hx]
      simp only [hs, toTuple] at ha
      split at ha
      · cases ha
      · cases ha; exact .inl rfl
  | resp s h =>
    unfold answer at ha
    cases he : pb.error with
    | some x =>
      rw [he] at ha; cases ha
      rcases h.kind e he with hk | hk
      · exact .inl hk
      · exact .inr (.inr hk)
    | none =>
      rw [he, h.name] at ha
      simp only at ha
      split at ha
      · next c m hs => cases ha; exact .inr (.inl ⟨c, m, rfl⟩)
      · cases ha
  | fault c m ht hu h =>
    subst h
    simp [answer, init, seen, collapse] at ha
    exact .inr (.inl ⟨c, m, ha.symm⟩)

/-- **C96 (partial).** Whatever bytes are given to `loads`, it returns or raises: `RuntimeError` for a stream that is not a message, a `UnicodeError` for a text that is not UTF-8, the fault of the message, or
what the callable for date-times raised. Missing: a fault whose message is not UTF-8 (`C96_crash_violated`). -/
theorem C96_exceptions_partial (data : Bytes) (e : Exn) (h : loadsBinary o data = .error e) :
    e = .runtime ∨ e = .unicode ∨ (∃ c m, e = .fault c m) ∨ (∃ f d, o.datetimeBuilder = some f ∧ f d = .error e) ∨
      (e = .crash ∧ ∃ c m, Event.fault c m ∈ trace .any [data.take (sz32 data.length)] ∧ isUtf8 m = false) := by
  obtain ⟨obj, pb, err, hx, hl⟩ := loads_any (o := o) data
  rw [hl] at h
  rcases any_input_py hx with rfl | ⟨rfl, c, m, ht, hu⟩ | ⟨rfl, ha⟩
  · cases h; exact .inl rfl
  · cases h; exact .inr (.inr (.inr (.inr ⟨rfl, c, m, ht, hu⟩)))
  · rcases answer_after ha h with h | h | h
    · exact .inr (.inl h)
    · exact .inr (.inr (.inl h))
    · exact .inr (.inr (.inr (.inl h)))

example : loadsBinary plainOpts [0xCA, 0x11, 2, 1, 0x70, 0x20, 1, 0xFF] = .error .unicode ∧ loadsBinary plainOpts [1, 2, 3, 4] = .error .runtime ∧
    loadsBinary plainOpts [0xCA, 0x11, 2, 1, 0x68, 1, 0xFF] = .error .unicode := ⟨rfl, rfl, rfl⟩

/-- **C96 is false of faults whose message is not UTF-8**: a null pointer is used, for every peer that sends one. -/
theorem C96_crash_violated : loadsBinary plainOpts [0xCA, 0x11, 2, 1, 0x78, 0x38, 5, 0x20, 1, 0xFF] = .error .crash := rfl

/-- The name of a call is the one that its beginning has. -/
theorem name_kept {p q name : Bytes} {obj obj1 : Obj} {pb pb1 : PB} (h2 : unMarshallAll (builder o) .any BinUnMarshaller.init init [p, q] = (obj, pb, none))
    (h1 : unMarshallAll (builder o) .any BinUnMarshaller.init init [p] = (obj1, pb1, none)) (hn : pb1.methodName = some name) : pb.methodName = some name := by
  obtain ⟨r, hr⟩ := trace_two h2
  obtain ⟨⟨hdr, opens, hl⟩, _⟩ := C14_well_nested .any [p, q]
  have a1 := taken h1
  have a2 := taken h2
  rw [hr] at hl a2
  generalize trace .any [p] = t at a1 a2 hl
  cases t with
  | nil => simp [applyEvents] at a1; subst a1; simp [init] at hn
  | cons e a =>
    generalize ht : e :: a ++ r = t at hl
    cases hl with
    | empty => simp at ht
    | fault c m =>
      simp only [List.cons_append, List.cons.injEq, List.append_eq_nil_iff] at ht
      obtain ⟨rfl, rfl, rfl⟩ := ht
      simp only [List.append_nil] at a2
      rw [a1] at a2
      cases a2
      exact hn
    | call nm body s hb =>
      simp only [List.cons_append, List.cons.injEq] at ht
      obtain ⟨rfl, rfl⟩ := ht
      have ic : InCall o nm [] { init with methodName := some nm, first := false, frames := [(.root, .list [])] } := ⟨rfl, (fun e h => by simp [init] at h), fun _ => .base []⟩
      obtain ⟨s1, hs1⟩ := run_prefix hb
      have ho : (builder o).build init (.methodCall nm) = .ok { init with methodName := some nm, first := false, frames := [(.root, .list [])] } := rfl
      rw [applyEvents_cons ho] at a1
      rw [List.cons_append, applyEvents_cons ho] at a2
      have st := fun s e s' b h (_ : True) hi => Or.inl (b := ∃ x, (builder o).build b e = .error x ∧ False) (step_call (o := o) nm s e s' b h hi)
      rcases nested_run (P := fun _ => True) (E := fun _ => False) st a [] s1 _ hs1 (fun _ _ => trivial) ic with ⟨b1, x1, y1⟩ | ⟨_, _, _, hf⟩
      · rw [a1] at x1; cases x1
        rcases nested_run (P := fun _ => True) (E := fun _ => False) st (a ++ r) [] _ _ hb (fun _ _ => trivial) ic with ⟨b2, x2, y2⟩ | ⟨_, _, _, hf⟩
        · rw [a2] at x2; cases x2
          rw [y2.name, ← y1.name, hn]
        · exact hf.elim
      · exact hf.elim
    | response body s hb =>
      simp only [List.cons_append, List.cons.injEq] at ht
      obtain ⟨rfl, rfl⟩ := ht
      have ic : InResp o [] init := ⟨rfl, (fun e h => by simp [init] at h), fun _ => rfl, fun _ c m => by simp [init]⟩
      obtain ⟨s1, hs1⟩ := run_prefix hb
      have ho : (builder o).build init .methodResponse = .ok init := rfl
      rw [applyEvents_cons ho] at a1
      have st := fun s e s' b h (_ : True) hi => Or.inl (b := ∃ x, (builder o).build b e = .error x ∧ False) (step_resp (o := o) s e s' b h hi)
      rcases nested_run (P := fun _ => True) (E := fun _ => False) st a [] s1 _ hs1 (fun _ _ => trivial) ic with ⟨b1, x1, y1⟩ | ⟨_, _, _, hf⟩
      · rw [a1] at x1; cases x1
        rw [y1.name] at hn
        cases hn
      · exact hf.elim

/-- After a fault nothing comes. -/
theorem fault_kept {p q m : Bytes} {c : Int} {obj obj1 : Obj} {pb pb1 : PB} (h2 : unMarshallAll (builder o) .any BinUnMarshaller.init init [p, q] = (obj, pb, none))
    (h1 : unMarshallAll (builder o) .any BinUnMarshaller.init init [p] = (obj1, pb1, none))
    (hm : Event.fault c m ∈ trace .any [p]) : pb = pb1 := by
  obtain ⟨r, hr⟩ := trace_two h2
  obtain ⟨⟨hdr, opens, hl⟩, _⟩ := C14_well_nested .any [p, q]
  have a1 := taken h1
  have a2 := taken h2
  rw [hr] at hl a2
  have only : r = [] := fault_last hl hm
  subst only
  rw [List.append_nil, a1] at a2
  cases a2; rfl

/-- A message that is cut is not told from a whole one: `loads` takes every beginning of every stream that it takes, the empty one included. -/
theorem C96_cut_violated (hd : o.datetimeBuilder = none) (p q : Bytes) (hlen : (p ++ q).length < 2 ^ 32) (r : Py × Option Bytes) (h : loadsBinary o (p ++ q) = .ok r) :
    ∃ r', loadsBinary o p = .ok r' := by
  have take_all : ∀ d : Bytes, d.length < 2 ^ 32 → d.take (sz32 d.length) = d := by
    intro d hd; unfold sz32; rw [Nat.mod_eq_of_lt hd]; simp
  obtain ⟨obj, pb, err, hx, hl⟩ := loads_any (o := o) (p ++ q)
  obtain ⟨obj1, pb1, err1, hx1, hl1⟩ := loads_any (o := o) p
  rw [take_all _ hlen] at hx
  rw [take_all _ (by simp at hlen; omega)] at hx1
  rw [hl] at h
  cases err with
  | some e => cases h
  | none =>
    simp only at h
    have hc := C04_chunking_finish (builder o) .any init [p, q] [p ++ q] (by simp)
    rw [hx] at hc
    simp only at hc
    have h2 : unMarshallAll (builder o) .any BinUnMarshaller.init init [p, q] = ((unMarshallAll (builder o) .any BinUnMarshaller.init init [p, q]).1, pb, none) := by
      rw [← hc.1, ← hc.2.1]
    obtain ⟨o1, b1, g1, g2, g3⟩ := unMarshallAll_two h2
    rw [hx1] at g1
    cases g1
    simp only at hl1
    have he : pb1.error = none := by
      cases he : pb1.error with
      | none => rfl
      | some e =>
        have := unMarshallAll_keep (Q := fun b => b.error = some e) (fun b ev b' h hb => error_stays b ev b' h hb) g2 g3 he
        unfold answer at h
        rw [this] at h
        cases h
    rcases any_input_py hx1 with hh | ⟨hh, _⟩ | ⟨_, ha⟩
    · cases hh
    · cases hh
    rw [hl1]
    cases ha with
    | nothing h => subst h; exact ⟨(.none, none), rfl⟩
    | call name s hi =>
      have hr := hi.frames he
      obtain ⟨xs, hxs⟩ := Rooted.seen pb1.ret hr
      have hs : seen pb1 = .list xs := by unfold seen; rw [hr.length, hxs]
      have hn : pb.methodName = some name := name_kept h2 hx1 hi.name
      have hdec : decodes name = true := by
        unfold answer at h
        rw [hn] at h
        split at h
        · cases h
        · simp only at h
          split at h
          · cases h
          · split at h
            · assumption
            · cases h
      exact ⟨(.tuple xs, some name), by unfold answer; rw [he, hi.name]; simp only [hs, toTuple, hdec, if_true]⟩
    | resp s hi =>
      have hne := collapse_ret pb1.frames.length pb1.ret pb1.frames (hi.ret hd)
      refine ⟨(seen pb1, none), ?_⟩
      unfold answer
      rw [he, hi.name]
      simp only
      split
      · next c m hs => exact absurd hs (hne c m)
      · rfl
    | fault c m ht hu hpb =>
      have := fault_kept h2 hx1 ht
      subst this
      subst hpb
      simp [answer, init, seen, collapse] at h

end Python
end Frpc
