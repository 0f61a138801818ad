import Verif.Proofs.Message
import Verif.Props.Decoder
/-!
# Binary round trips (C01–C03, C05–C10, C17, C19)

`sendResponse`, `sendCall`, `sendFault` are what a sender does with the binary
marshaller and the tree feeder: the list of writes and the exception, if any.
`receive cfg req ps` is what a receiver does: a fresh tree builder and a fresh
unmarshaller for messages of type `req`, fed with the pieces `ps`, then `finish`.
-/
namespace Frpc
open BinMarshaller BinUnMarshaller TreeBuilder
open Spec (Held HeldItems HeldMembers Small SmallItems SmallMembers plainWith plainItemsWith plainMembersWith DatesAll
  DatesAllItems DatesAllMembers plain Calendar QuarterZone)

/-- `marshaller.packMethodResponse(); feeder.feedValue(v)`. -/
def sendResponse (strOk : Bytes → Bool) (ver : Version) (v : Value) : PackRes :=
  BinMarshaller.run strOk ver (.packMethodResponse :: feed v)

/-- `marshaller.packMethodCall(name); for each argument feeder.feedValue(arg)`. -/
def sendCall (strOk : Bytes → Bool) (ver : Version) (name : Bytes) (args : List Value) : PackRes :=
  BinMarshaller.run strOk ver (.packMethodCall name :: feedItems args)

/-- `marshaller.packFault(code, msg)`. -/
def sendFault (strOk : Bytes → Bool) (ver : Version) (code : Int) (msg : Bytes) : PackRes :=
  BinMarshaller.run strOk ver [.packFault code msg]

/-- Unmarshals the pieces and calls `finish`; the tree builder at the end, or the exception. -/
def receive (cfg : Cfg) (req : Req) (ps : List Bytes) : Except Err TB :=
  match unMarshallAll (builder cfg) req BinUnMarshaller.init TreeBuilder.init ps with
  | (_, _, some e) => .error e
  | (o, tb, none) => do finish o; return tb

/-- The configuration used in the examples: no string or date validation. -/
def plainCfg : Cfg := ⟨fun _ => true, none⟩

/-- A date-time that the wire format of the version can carry without loss. -/
structure DateOk (ver : Version) (d : DateTime) : Prop where
  calendar : Calendar d
  year : 1601 ≤ d.year ∧ d.year ≤ 2623
  zone : QuarterZone d.timeZone
  stamp : ver.major ≤ 2 → d.unixTime.natAbs < 2 ^ 31

theorem DateOk.received {ver : Version} {d : DateTime} (h : DateOk ver d) : receivedDate ver d = d := by
  rw [receivedDate_eq ver d h.calendar h.year h.zone]
  have : receivedTime ver d.unixTime = d.unixTime := by
    unfold receivedTime
    split
    · rfl
    · rename_i hv
      have := h.stamp (by simpa using hv)
      rw [if_pos (by omega)]
      exact i32_u32 (by unfold IsI32; omega)
  rw [this]

/-- General form: what is received is the sent tree with every date-time sent through the wire
format and the receiver's date constructor. -/
theorem response_received (cfg : Cfg) (ver : Version) (hv : ver.Known) (req : Req) (hreq : req = .response ∨ req = .any)
    (v : Value) (hw : WireOk cfg.strOk ver v) :
    ∃ ws, sendResponse cfg.strOk ver v = (ws, none) ∧
      ∀ ps, ps.flatten = ws.flatten → ∃ tb, receive cfg req ps = .ok tb ∧ getData tb = .ok (received cfg ver v) := by
  obtain ⟨ws, hr, hd⟩ := codec (req := req) (stop := false) hv v hw
  refine ⟨[packMagic ver, [dataType T_RESPONSE 0]] ++ ws, ?_, fun ps hps => ?_⟩
  · unfold sendResponse
    rw [run_cons _ _ _ _ _ rfl, hr]
  · have s1 := dec_response (stop := false) hv hreq ws.flatten
    have s2 := hd (top ver 0 0) [] (top_ready ver 0)
    rw [List.append_nil, after_top] at s2
    have s3 := s1.trans s2
    obtain ⟨m, hm⟩ := build_value (cfg := cfg) (ver := ver) v hw TreeBuilder.init
      { TreeBuilder.init with ret := some (received cfg ver v), first := false } rfl
    have ha : applyEvents (builder cfg) TreeBuilder.init ([.methodResponse] ++ (evs ver v ++ (closeUp (top ver 0 0).stack).2)) =
        ({ TreeBuilder.init with ret := some (received cfg ver v), first := false, memberName := m }, none) := by
      rw [List.singleton_append, applyEvents_cons (b' := TreeBuilder.init) rfl]
      simpa [top, closeUp] using hm
    have h := s3.all (by simp [top]) ha ps (by rw [hps]; simp)
    refine ⟨_, by unfold receive; rw [h]; rfl, rfl⟩

/-- **C01.** Every tree in memory (`Held`) within the size limits (`Small`) that the binary marshaller accepts as a method
response at protocol 2.x or 3.x is received, however the bytes are divided, as the same tree
(`plain`: views and references as owned values, secret marks dropped), provided its date-times
are ones the wire format can carry (`DateOk`) and the receiver does not recompute them. -/
theorem C01_response_roundtrip (cfg : Cfg) (hcfg : cfg.mktime = none) (ver : Version) (hv : ver.Known) (h2 : 2 ≤ ver.major)
    (v : Value) (hheld : Held v) (hsmall : Small v) (hdates : DatesAll (DateOk ver) v) (ws : List Bytes)
    (hsent : sendResponse cfg.strOk ver v = (ws, none)) (ps : List Bytes) (hps : ps.flatten = ws.flatten) :
    ∃ tb, receive cfg .response ps = .ok tb ∧ getData tb = .ok (plain v) := by
  have hacc : (BinMarshaller.run cfg.strOk ver (feed v)).2 = none := by
    have : (sendResponse cfg.strOk ver v).2 = none := by rw [hsent]
    exact (run_one_none _ _ this).2
  have hw := accepted h2 v hheld hsmall hacc
  obtain ⟨ws', hs', hr⟩ := response_received cfg ver hv .response (.inl rfl) v hw
  rw [hsent] at hs'
  cases hs'
  obtain ⟨tb, h1, h3⟩ := hr ps hps
  refine ⟨tb, h1, ?_⟩
  rw [h3, received_plain cfg ver v hheld]
  unfold plain
  rw [plainWith_congr _ id v]
  refine DatesAll.imp (fun d hd => ?_) v hdates
  simp only [hd.received, Cfg.date, hcfg, id]

/-- **C01 (any configuration, any dates).** The only possible change is in the date-times: each becomes what the wire format carries,
with timestamp and week day recomputed when the receiver validates dates. -/
theorem C01_response_only_dates_change (cfg : Cfg) (ver : Version) (hv : ver.Known) (h2 : 2 ≤ ver.major)
    (v : Value) (hheld : Held v) (hsmall : Small v) (ws : List Bytes)
    (hsent : sendResponse cfg.strOk ver v = (ws, none)) (ps : List Bytes) (hps : ps.flatten = ws.flatten) :
    ∃ tb, receive cfg .response ps = .ok tb ∧ getData tb = .ok (plainWith (fun d => cfg.date (receivedDate ver d)) v) := by
  have hacc : (BinMarshaller.run cfg.strOk ver (feed v)).2 = none := by
    have : (sendResponse cfg.strOk ver v).2 = none := by rw [hsent]
    exact (run_one_none _ _ this).2
  have hw := accepted h2 v hheld hsmall hacc
  obtain ⟨ws', hs', hr⟩ := response_received cfg ver hv .response (.inl rfl) v hw
  rw [hsent] at hs'
  cases hs'
  obtain ⟨tb, h1, h3⟩ := hr ps hps
  exact ⟨tb, h1, by rw [h3, received_plain cfg ver v hheld]⟩

/-- A tree with one of everything, used as witness. -/
def sampleTree : Value :=
  .struct [(asc "a", .array [.int (-5), .null, .bool true, .stringView (asc "x"), .double 0x7ff8000000000001#64]),
           (asc "b", .secret (.binaryRef [[1, 2], [3]])),
           (asc "c", .dateTime ⟨2023, 11, 14, 22, 13, 20, 2, 1700000000, -3600⟩),
           (asc "d", .struct [])]

example : Held sampleTree := by
  simp only [sampleTree, Held, HeldItems, HeldMembers, IsI64, List.pairwise_cons, List.mem_cons, List.not_mem_nil, List.Pairwise.nil]
  refine ⟨⟨?_, ?_, ?_, ?_⟩, ?_⟩
  · rintro a (rfl | rfl | rfl | h) <;> first | rfl | contradiction
  · rintro a (rfl | rfl | h) <;> first | rfl | contradiction
  · rintro a (rfl | h) <;> first | rfl | contradiction
  · simp
  · decide
example : Small sampleTree := by
  simp only [sampleTree, Small, SmallItems, SmallMembers, asc]; decide
example : DatesAll (DateOk ⟨2, 1⟩) sampleTree := by
  simp only [sampleTree, DatesAll, DatesAllItems, DatesAllMembers, true_and, and_true]
  exact ⟨⟨by decide, by decide, by decide, by decide, by decide, by decide⟩, by decide, ⟨-4, by decide, by decide, by decide⟩, fun _ => by decide⟩
example : (sendResponse plainCfg.strOk ⟨2, 1⟩ sampleTree).2 = none := by rfl
example : (sendResponse plainCfg.strOk ⟨3, 0⟩ sampleTree).2 = none := by rfl

/-- General form for calls: what is received is the name and the arguments, every date-time sent through the wire format and the receiver's
date constructor. -/
theorem call_received (cfg : Cfg) (ver : Version) (hv : ver.Known) (name : Bytes) (hname : 1 ≤ name.length ∧ name.length ≤ 255)
    (args : List Value) (hw : WireOkItems cfg.strOk ver args) :
    ∃ ws, sendCall cfg.strOk ver name args = (ws, none) ∧
      ∀ ps, ps.flatten = ws.flatten → ∃ tb, receive cfg .call ps = .ok tb ∧ tb.methodName = name ∧ getData tb = .ok (.array (receivedItems cfg ver args)) := by
  obtain ⟨wa, hr, hd⟩ := codecTop (req := .call) (stop := false) hv 0 args hw
  have hp : pack cfg.strOk ver (.packMethodCall name) =
      ([packMagic ver, [dataType T_CALL 0], [UInt8.ofNat name.length], name], none) := by
    have hc : (decide (name.length > 255) || name.length == 0) = false := by
      rw [Bool.or_eq_false_iff]; exact ⟨decide_eq_false (by omega), beq_eq_false_iff_ne.2 (by omega)⟩
    simp only [pack, hc]; rfl
  refine ⟨_, by unfold sendCall; rw [run_cons _ _ _ _ _ hp, hr], fun ps hps => ?_⟩
  have s1 := dec_call (req := .call) (stop := false) hv (.inl rfl) name wa.flatten hname.1 hname.2
  have s2 := hd []
  rw [List.append_nil] at s2
  have s3 := s1.trans s2
  obtain ⟨m, hm⟩ := build_items (cfg := cfg) (ver := ver) args hw
    { TreeBuilder.init with methodName := name, first := true, frames := [(.root, .arr [])] } .root [] [] rfl
  have ha : applyEvents (builder cfg) TreeBuilder.init ([.methodCall name] ++ evsItems ver args) =
      ({ TreeBuilder.init with methodName := name, first := true, memberName := m,
                               frames := [(.root, .arr (receivedItems cfg ver args))] }, none) := by
    rw [List.singleton_append, applyEvents_cons rfl]
    exact hm
  have h := s3.all (by simp [top]) ha ps (by rw [hps]; simp)
  exact ⟨_, by unfold receive; rw [h]; rfl, rfl, rfl⟩

/-- **C02 (any configuration, any dates).** The only possible change is in the date-times, as in `C01_response_only_dates_change`. -/
theorem C02_call_only_dates_change (cfg : Cfg) (ver : Version) (hv : ver.Known) (h2 : 2 ≤ ver.major)
    (name : Bytes) (args : List Value) (hheld : HeldItems args) (hsmall : SmallItems args)
    (ws : List Bytes)
    (hsent : sendCall cfg.strOk ver name args = (ws, none)) (ps : List Bytes) (hps : ps.flatten = ws.flatten) :
    ∃ tb, receive cfg .call ps = .ok tb ∧ tb.methodName = name ∧ getData tb = .ok (.array (plainItemsWith (fun d => cfg.date (receivedDate ver d)) args)) := by
  have hrun : (BinMarshaller.run cfg.strOk ver (.packMethodCall name :: feedItems args)).2 = none := by
    have : (sendCall cfg.strOk ver name args).2 = none := by rw [hsent]
    exact this
  have hacc := run_one_none _ _ hrun
  have hw := acceptedItems h2 args hheld hsmall hacc.2
  have hname : 1 ≤ name.length ∧ name.length ≤ 255 := by
    have h2 := hacc.1
    simp only [pack] at h2
    by_cases hk : (decide (name.length > 255) || name.length == 0) = true
    · rw [if_pos hk] at h2; simp at h2
    · simp only [Bool.or_eq_true, decide_eq_true_eq, beq_iff_eq, not_or] at hk
      omega
  obtain ⟨ws', hs', hr⟩ := call_received cfg ver hv name hname args hw
  rw [hsent] at hs'
  cases hs'
  obtain ⟨tb, h1, h3, h4⟩ := hr ps hps
  exact ⟨tb, h1, h3, by rw [h4, received_plainItems cfg ver args hheld]⟩

/-- **C02.** Every method name of 1..255 bytes and every list of arguments that the marshaller accepts arrive as exactly that name
and exactly those arguments in order, at protocol 2.x and 3.x. -/
theorem C02_call_roundtrip (cfg : Cfg) (hcfg : cfg.mktime = none) (ver : Version) (hv : ver.Known) (h2 : 2 ≤ ver.major)
    (name : Bytes) (args : List Value) (hheld : HeldItems args) (hsmall : SmallItems args)
    (hdates : DatesAllItems (DateOk ver) args) (ws : List Bytes)
    (hsent : sendCall cfg.strOk ver name args = (ws, none)) (ps : List Bytes) (hps : ps.flatten = ws.flatten) :
    ∃ tb, receive cfg .call ps = .ok tb ∧ tb.methodName = name ∧ getData tb = .ok (.array (plainItemsWith id args)) := by
  obtain ⟨tb, h1, h3, h4⟩ := C02_call_only_dates_change cfg ver hv h2 name args hheld hsmall ws hsent ps hps
  refine ⟨tb, h1, h3, ?_⟩
  rw [h4, plainWith_congrItems _ id args]
  refine DatesAllItems.imp (fun d hd => ?_) args hdates
  simp only [hd.received, Cfg.date, hcfg, id]

example : ∃ ws, sendCall plainCfg.strOk ⟨2, 1⟩ (asc "system.ping") [sampleTree, .int 3] = (ws, none) := ⟨_, rfl⟩

/-- At protocol 1 an integer is sent as its low 32 bits. -/
theorem packInt_v1 {ver : Version} (h1 : ver.major = 1) (n : Int) : packInt ver n = packInt ver (u32 n : Int) := by
  have hu : u32 (u32 n : Int) = u32 n := by unfold u32; omega
  have ht : getNumberType ver n = getNumberType ver (u32 n : Int) := by
    unfold getNumberType
    have : ver.major < 2 := by rw [h1]; decide
    simp only [this, if_true, hu]
  unfold packInt
  rw [if_neg (by rw [h1]; decide), if_neg (by rw [h1]; decide), if_neg (by rw [h1]; decide), if_neg (by rw [h1]; decide)]
  simp only [number32, hu, ht]

/-- **C03.** Every 32-bit fault code and every message below the element limit arrive unchanged at every protocol version, and asking for
the data raises that fault (an empty message is replaced by the library's default text). -/
theorem C03_fault_roundtrip (cfg : Cfg) (ver : Version) (hv : ver.Known) (req : Req) (hreq : req ≠ .call)
    (code : Int) (hc : IsI32 code) (msg : Bytes) (hm : msg.length < 2 ^ 30) (hs : cfg.strOk msg = true) :
    ∃ ws, sendFault cfg.strOk ver code msg = (ws, none) ∧ ∀ ps, ps.flatten = ws.flatten →
      trace req ps = [.fault code msg] ∧
      ∃ tb, receive cfg req ps = .ok tb ∧
        getData tb = .error (.fault code (if msg = [] then asc "No data unmarshalled" else msg)) := by
  have hp : pack cfg.strOk ver (.packFault code msg) =
      ([packMagic ver, [dataType T_FAULT 0]] ++ packInt ver code ++ (sized ver T_STRING msg.length ++ [msg]), none) := by
    simp only [pack, packString, hs, if_true]
  refine ⟨_, run_one hp, fun ps hps => ?_⟩
  have h64 : IsI64 code := by unfold IsI32 at hc; unfold IsI64; omega
  have s1 := dec_fault (stop := false) hv hreq
    ((packInt ver code).flatten ++ ((sized ver T_STRING msg.length).flatten ++ (msg ++ [])))
  obtain ⟨k, hk, hpk, h64k, h1⟩ : ∃ k, i32 (u32 k) = code ∧ packInt ver code = packInt ver k ∧ IsI64 k ∧ (ver.major = 1 → 0 ≤ k ∧ k < 2 ^ 32) := by
    by_cases h1 : ver.major = 1
    · refine ⟨(u32 code : Int), ?_, packInt_v1 h1 code, ?_, fun _ => ?_⟩
      · have hu : u32 (u32 code : Int) = u32 code := by unfold u32; omega
        rw [hu, i32_u32 hc]
      · unfold IsI64 u32; omega
      · unfold u32; omega
    · exact ⟨code, i32_u32 hc, rfl, h64, fun h => absurd h h1⟩
  have s2 := dec_fault_body (req := req) (stop := false) hv k msg [] h64k h1 hm
  rw [hpk] at s1
  have s3 := s1.trans s2
  rw [List.nil_append, hk] at s3
  have hb : ps.flatten = packMagic ver ++ (dataType T_FAULT 0 ::
      ((packInt ver code).flatten ++ ((sized ver T_STRING msg.length).flatten ++ (msg ++ [])))) := by
    rw [hps]; simp
  rw [hpk] at hb
  refine ⟨?_, ?_⟩
  · have h := s3.all (B := traceBuilder) (b := []) (by simp [top]) (applyEvents_trace _ _) ps hb
    unfold trace
    rw [h]; rfl
  · have h := s3.all (B := builder cfg) (b := TreeBuilder.init) (by simp [top])
      (applyEvents_one (b' := { TreeBuilder.init with errNum := code, errMsg := msg, ret := none, first := true }) rfl) ps hb
    refine ⟨_, by unfold receive; rw [h]; rfl, ?_⟩
    by_cases hn : msg = []
    · subst hn; rfl
    · rw [if_neg hn]
      simp only [getData, data, TreeBuilder.init, ne_eq, hn, not_false_eq_true, if_true]
      rfl

example : receive plainCfg .response [(sendFault plainCfg.strOk ⟨2, 1⟩ (-500) (asc "oops")).1.flatten] =
    .ok { TreeBuilder.init with errNum := -500, errMsg := asc "oops", ret := none, first := true } := by rfl

/-- **C05.** Every 64-bit integer, `INT64_MIN` included, is received unchanged at protocol 2.x and 3.x. -/
theorem C05_int64 (cfg : Cfg) (ver : Version) (hv : ver.Known) (h2 : 2 ≤ ver.major) (n : Int) (hn : IsI64 n) :
    ∃ ws, sendResponse cfg.strOk ver (.int n) = (ws, none) ∧
      ∀ ps, ps.flatten = ws.flatten → ∃ tb, receive cfg .response ps = .ok tb ∧ getData tb = .ok (.int n) :=
  response_received cfg ver hv .response (.inl rfl) (.int n) ⟨hn, fun h1 => absurd (h1 ▸ h2) (by decide)⟩

example : getData <$> receive plainCfg .response [(sendResponse plainCfg.strOk ⟨3, 0⟩ (.int (-2 ^ 63))).1.flatten]
    = .ok (.ok (.int (-2 ^ 63))) := by rfl

/-- **C06, as stated, is false.** At protocol 1 negative integers arrive as positive ones and integers above 32 bits are cut,
without any error. -/
theorem C06_violated :
    (getData <$> receive plainCfg .response [(sendResponse plainCfg.strOk ⟨1, 0⟩ (.int (-1))).1.flatten] = .ok (.ok (.int 4294967295))) ∧
    (getData <$> receive plainCfg .response [(sendResponse plainCfg.strOk ⟨1, 0⟩ (.int 4294967297)).1.flatten] = .ok (.ok (.int 1))) :=
  ⟨rfl, rfl⟩

/-- **C06 (partial).** At protocol 1 every integer of `0 ≤ n < 2^32` is received unchanged.  Missing: other integers (`C06_violated`). -/
theorem C06_partial (cfg : Cfg) (ver : Version) (h1 : ver.major = 1) (n : Int) (h0 : 0 ≤ n) (hn : n < 2 ^ 32) :
    ∃ ws, sendResponse cfg.strOk ver (.int n) = (ws, none) ∧
      ∀ ps, ps.flatten = ws.flatten → ∃ tb, receive cfg .response ps = .ok tb ∧ getData tb = .ok (.int n) :=
  response_received cfg ver (by unfold Version.Known; rw [h1]; decide) .response (.inl rfl) (.int n)
    ⟨by unfold IsI64; omega, fun _ => ⟨h0, hn⟩⟩

/-- **C07.** Every double is received with the identical bit pattern, at every protocol version. -/
theorem C07_double_bits (cfg : Cfg) (ver : Version) (hv : ver.Known) (x : BitVec 64) :
    ∃ ws, sendResponse cfg.strOk ver (.double x) = (ws, none) ∧
      ∀ ps, ps.flatten = ws.flatten → ∃ tb, receive cfg .response ps = .ok tb ∧ getData tb = .ok (.double x) :=
  response_received cfg ver hv .response (.inl rfl) (.double x) trivial

example : (⟨1, 0⟩ : Version).Known ∧ (⟨2, 1⟩ : Version).Known ∧ (⟨3, 0⟩ : Version).Known := by
  unfold Version.Known; decide

/-- **C08 (delivery).** Every string and every binary shorter than `2^30` is received byte for byte at every protocol version. -/
theorem C08_strings_exact (cfg : Cfg) (ver : Version) (hv : ver.Known) (s : Bytes) (hs : s.length < 2 ^ 30) :
    (cfg.strOk s = true → ∃ ws, sendResponse cfg.strOk ver (.string s) = (ws, none) ∧
      ∀ ps, ps.flatten = ws.flatten → ∃ tb, receive cfg .response ps = .ok tb ∧ getData tb = .ok (.string s)) ∧
    (∃ ws, sendResponse cfg.strOk ver (.binary s) = (ws, none) ∧
      ∀ ps, ps.flatten = ws.flatten → ∃ tb, receive cfg .response ps = .ok tb ∧ getData tb = .ok (.binary s)) :=
  ⟨fun ho => response_received cfg ver hv .response (.inl rfl) (.string s) ⟨hs, ho⟩,
   response_received cfg ver hv .response (.inl rfl) (.binary s) hs⟩

/-- **C08 (rejection).** A string or binary of `2^30` to `2^32 - 1` bytes is sent in full and rejected by the receiver with a stream error
before any of it is delivered. -/
theorem C08_long_rejected (cfg : Cfg) (ver : Version) (hv : ver.Known) (s : Bytes) (h1 : 2 ^ 30 ≤ s.length) (h2 : s.length < 2 ^ 32)
    (v : Value) (hk : v = .binary s ∨ v = .string s ∧ cfg.strOk s = true) :
    ∃ ws, sendResponse cfg.strOk ver v = (ws, none) ∧
      ∀ ps, ps.flatten = ws.flatten → receive cfg .response ps = .error .stream ∧ trace .response ps = [.methodResponse] := by
  have ht : s.take (sz32 s.length) = s := by unfold sz32; rw [Nat.mod_eq_of_lt h2]; simp
  have hu : u64 (s.length : Int) = s.length := u64_natCast (by omega)
  have key : ∀ (t : Nat) (st : St), (t, st) ∈ [(T_STRING, St.stringLen), (T_BINARY, .binaryLen), (T_ARRAY, .array), (T_STRUCT, .struct)] →
      (∀ c1 : Core, c1.st = st → step .response false c1 (number s.length c1.wanted) = (do
        let n ← getInt64 (number s.length c1.wanted) c1.wanted
        if u64 n ≥ 2 ^ 30 then throw .stream
        return some ({ c1 with wanted := u64 n, st := if st = .stringLen then .string else .binary }, []))) →
      ∀ ps : List Bytes, ps.flatten = ([packMagic ver, [dataType T_RESPONSE 0]] ++ (sized ver t s.length ++ [s])).flatten →
        receive cfg .response ps = .error .stream ∧ trace .response ps = [.methodResponse] := by
    intro t st ht hst ps hps
    have s1 := dec_response (req := .response) (stop := false) hv (.inl rfl) ((sized ver t s.length).flatten ++ s)
    have s2 := Steps.tag (req := .response) (top_ready ver 0).toReady0 (dataType t (getNumberType ver s.length))
      (number s.length (getNumberSize ver (getNumberType ver s.length)) ++ s) (valueTag_sized (stop := false) hv rfl s.length ht)
    have s3 : Steps .response false BinUnMarshaller.init.core
        (packMagic ver ++ (dataType T_RESPONSE 0 :: ((sized ver t s.length).flatten ++ s))) [.methodResponse]
        { top ver 0 0 with st := st, wanted := getNumberSize ver (getNumberType ver s.length) }
        (number s.length (getNumberSize ver (getNumberType ver s.length)) ++ s) := by
      refine s1.trans (es' := []) ?_
      simpa [sized] using s2
    have hlen := size_length ver (s.length : Int)
    have herr : step .response false { top ver 0 0 with st := st, wanted := getNumberSize ver (getNumberType ver s.length) }
        ((number s.length (getNumberSize ver (getNumberType ver s.length)) ++ s).take (getNumberSize ver (getNumberType ver s.length)))
          = .error .stream := by
      rw [List.take_left' hlen, hst _ rfl]
      simp only [getInt64_number (getNumberSize_bound ver s.length).2
        (getNumberSize_fits ver s.length (by rw [hu]; omega)) (show IsI64 (s.length : Int) by unfold IsI64; omega)]
      simp only [bind, Except.bind, throw, throwThe, MonadExceptOf.throw, hu]
      rw [if_pos h1]
    have hb : ps.flatten = packMagic ver ++ (dataType T_RESPONSE 0 :: ((sized ver t s.length).flatten ++ s)) := by rw [hps]; simp
    have fin : ∀ {β} (B : Builder β) (b b1 : β), applyEvents B b [.methodResponse] = (b1, none) →
        (unMarshallAll B .response BinUnMarshaller.init b ps).2 = (b1, some .stream) := by
      intro β B b b1 ha
      obtain ⟨m, hm⟩ := s3.eval ha (Eval.err (B := B) (req := .response) (stop := false) (b := b1) (by simp [hlen]) herr)
      obtain ⟨c2, p2, b2, x2, n2, q, h4, h5, h6, _⟩ := unMarshallAll_eval (B := B) (req := .response) (o := BinUnMarshaller.init) (b := b) (ps := ps) Rest.init
      rw [hb] at h4
      obtain ⟨rfl, hp, rfl, rfl, _⟩ := h4.det hm
      rw [h5]; rfl
    refine ⟨?_, ?_⟩
    · unfold receive
      have := fin (builder cfg) TreeBuilder.init TreeBuilder.init rfl
      rw [show unMarshallAll (builder cfg) .response BinUnMarshaller.init TreeBuilder.init ps =
        ((unMarshallAll (builder cfg) .response BinUnMarshaller.init TreeBuilder.init ps).1,
         (unMarshallAll (builder cfg) .response BinUnMarshaller.init TreeBuilder.init ps).2) from rfl, this]
    · unfold trace
      rw [fin traceBuilder [] _ rfl]; rfl
  rcases hk with rfl | ⟨rfl, ho⟩
  · refine ⟨[packMagic ver, [dataType T_RESPONSE 0]] ++ (sized ver T_BINARY s.length ++ [s]), ?_, ?_⟩
    · unfold sendResponse
      simp only [feed, ht]
      rw [run_cons _ _ _ _ _ rfl, run_one rfl]
    · exact key T_BINARY .binaryLen (by simp) (by intro c1 h; unfold step; rw [h]; simp)
  · refine ⟨[packMagic ver, [dataType T_RESPONSE 0]] ++ (sized ver T_STRING s.length ++ [s]), ?_, ?_⟩
    · unfold sendResponse
      simp only [feed, ht]
      rw [run_cons _ _ _ _ _ rfl, run_one (ws := sized ver T_STRING s.length ++ [s]) (by simp [pack, packString, ho])]
    · exact key T_STRING .stringLen (by simp) (by intro c1 h; unfold step; rw [h]; simp)

theorem bytes_of_length (n : Nat) : ∃ s : Bytes, s.length = n := ⟨List.replicate n 0, List.length_replicate⟩

example : ∃ s : Bytes, 2 ^ 30 ≤ s.length ∧ s.length < 2 ^ 32 := by
  obtain ⟨s, hs⟩ := bytes_of_length (2 ^ 30)
  exact ⟨s, by omega, by omega⟩

/-- **C08, as stated, is false.** Every binary of `2^32 + k` bytes with `k < 2^30` is silently cut to its first `k` bytes. -/
theorem C08_violated (cfg : Cfg) (ver : Version) (hv : ver.Known) (s : Bytes) (k : Nat) (hk : k < 2 ^ 30) (hs : s.length = 2 ^ 32 + k) :
    ∃ ws, sendResponse cfg.strOk ver (.binary s) = (ws, none) ∧
      ∀ ps, ps.flatten = ws.flatten → ∃ tb, receive cfg .response ps = .ok tb ∧ getData tb = .ok (.binary (s.take k)) := by
  have ht : s.take (sz32 s.length) = s.take k := by unfold sz32; rw [hs]; congr 1; omega
  have hl : (s.take k).length = k := by rw [List.length_take]; omega
  have he : feed (.binary s) = feed (.binary (s.take k)) := by
    simp only [feed, ht, hl]
    rw [show sz32 k = k from sz32_eq hk, List.take_take, Nat.min_self]
  have := response_received cfg ver hv .response (.inl rfl) (.binary (s.take k)) (by unfold WireOk; omega)
  unfold sendResponse at this ⊢
  rw [he]
  exact this

example : ∃ s : Bytes, s.length = 2 ^ 32 + 1 := bytes_of_length _

/-! ### Date-times -/

/-- What a date-time becomes (receiver not recomputing). -/
theorem date_received (cfg : Cfg) (hcfg : cfg.mktime = none) (ver : Version) (hv : ver.Known) (d : DateTime) (ht : IsI64 d.unixTime)
    (hmin : ver.major ≤ 2 → d.unixTime ≠ -(2 : Int) ^ 63) :
    ∃ ws, sendResponse cfg.strOk ver (.dateTime d) = (ws, none) ∧
      ∀ ps, ps.flatten = ws.flatten → ∃ tb, receive cfg .response ps = .ok tb ∧ getData tb = .ok (.dateTime (receivedDate ver d)) := by
  have := response_received cfg ver hv .response (.inl rfl) (.dateTime d) ⟨ht, hmin⟩
  simpa only [received, Cfg.date, hcfg] using this

/-- **C09, as stated, is false.** The date-time 2624-01-01 00:00:00 UTC arrives with year 576. -/
theorem C09_violated :
    let d : DateTime := ⟨2624, 1, 1, 0, 0, 0, 4, 20638368000, 0⟩
    Calendar d ∧ QuarterZone d.timeZone ∧ 1601 ≤ d.year ∧ d.year ≤ 3647 ∧
    getData <$> receive plainCfg .response [(sendResponse plainCfg.strOk ⟨3, 0⟩ (.dateTime d)).1.flatten] = .ok (.ok (.dateTime { d with year := 576 })) :=
  ⟨⟨by decide, by decide, by decide, by decide, by decide, by decide⟩, ⟨0, by decide, by decide, by decide⟩, by decide, by decide, rfl⟩

/-- **C09 (partial).** At protocol 3 every calendar date-time of the years 1601..2623 with a quarter-hour zone is received unchanged.
Missing: years 2624..3647 (`C09_violated`). -/
theorem C09_partial (cfg : Cfg) (hcfg : cfg.mktime = none) (ver : Version) (hv : ver.major = 3) (d : DateTime) (ht : IsI64 d.unixTime)
    (hc : Calendar d) (hy : 1601 ≤ d.year ∧ d.year ≤ 2623) (hz : QuarterZone d.timeZone) :
    ∃ ws, sendResponse cfg.strOk ver (.dateTime d) = (ws, none) ∧
      ∀ ps, ps.flatten = ws.flatten → ∃ tb, receive cfg .response ps = .ok tb ∧ getData tb = .ok (.dateTime d) := by
  have h3 : ¬ ver.major ≤ 2 := by rw [hv]; decide
  have hok : DateOk ver d := ⟨hc, hy, hz, fun h => absurd h h3⟩
  have := date_received cfg hcfg ver (by unfold Version.Known; rw [hv]; decide) d ht (fun h => absurd h h3)
  rwa [hok.received] at this

example : let d : DateTime := ⟨2023, 11, 14, 22, 13, 20, 2, 1700000000, -3600⟩
    Calendar d ∧ QuarterZone d.timeZone ∧ 1601 ≤ d.year ∧ d.year ≤ 2623 :=
  ⟨⟨by decide, by decide, by decide, by decide, by decide, by decide⟩, ⟨-4, by decide, by decide, by decide⟩, by decide, by decide⟩

/-- **C10, as stated, is false.** At protocol 2.1 the timestamp 2^31 (January 2038) arrives as -2^31. -/
theorem C10_violated :
    let d : DateTime := ⟨2038, 1, 19, 3, 14, 8, 2, 2147483648, 0⟩
    getData <$> receive plainCfg .response [(sendResponse plainCfg.strOk ⟨2, 1⟩ (.dateTime d)).1.flatten] =
      .ok (.ok (.dateTime { d with unixTime := -2147483648 })) := rfl

/-- **C10 (partial).** At protocol 1 and 2 a timestamp of magnitude below `2^31` is received exactly, one of magnitude `2^32` or more
as -1.  Missing: magnitudes from `2^31` to `2^32 - 1` (`C10_violated`). -/
theorem C10_partial (cfg : Cfg) (hcfg : cfg.mktime = none) (ver : Version) (hv : ver.Known) (h2 : ver.major ≤ 2) (d : DateTime)
    (ht : IsI64 d.unixTime) (hmin : d.unixTime ≠ -(2 : Int) ^ 63) :
    ∃ ws d', sendResponse cfg.strOk ver (.dateTime d) = (ws, none) ∧
      (∀ ps, ps.flatten = ws.flatten → ∃ tb, receive cfg .response ps = .ok tb ∧ getData tb = .ok (.dateTime d')) ∧
      (d.unixTime.natAbs < 2 ^ 31 → d'.unixTime = d.unixTime) ∧ (2 ^ 32 ≤ d.unixTime.natAbs → d'.unixTime = -1) := by
  obtain ⟨ws, h1, h3⟩ := date_received cfg hcfg ver hv d ht (fun _ => hmin)
  refine ⟨ws, _, h1, h3, ?_, ?_⟩
  · intro h
    simp only [receivedDate, finishDate, unpacked, receivedTime]
    rw [if_neg (by simpa using h2), if_pos (by omega)]
    exact i32_u32 (by unfold IsI32; omega)
  · intro h
    simp only [receivedDate, finishDate, unpacked, receivedTime]
    rw [if_neg (by simpa using h2), if_neg (by omega)]

example : IsI64 (-(2 : Int) ^ 40) ∧ 2 ^ 32 ≤ (-(2 : Int) ^ 40).natAbs := by decide

/-! ### Null -/

/-- **C17 (marshaller).** Null is refused, with nothing written, exactly below protocol 2.1. -/
theorem C17_null_refused (strOk : Bytes → Bool) (ver : Version) :
    (pack strOk ver .packNull = ([], some .stream) ↔ ver.major < 2 ∨ (ver.major = 2 ∧ ver.minor < 1)) ∧
    ((pack strOk ver .packNull).2 = none ↔ ¬ (ver.major < 2 ∨ (ver.major = 2 ∧ ver.minor < 1))) := by
  have e : pack strOk ver .packNull = if (decide (ver.major < 2) || (ver.major == 2 && decide (ver.minor < 1))) = true
      then ([], some .stream) else ([[dataType T_NULL 0]], none) := rfl
  rw [e]
  by_cases h : ver.major < 2 ∨ (ver.major = 2 ∧ ver.minor < 1)
  · have h' : (decide (ver.major < 2) || (ver.major == 2 && decide (ver.minor < 1))) = true := by
      rw [Bool.or_eq_true, Bool.and_eq_true, decide_eq_true_eq, decide_eq_true_eq, beq_iff_eq]; exact h
    rw [if_pos h']
    exact ⟨⟨fun _ => h, fun _ => rfl⟩, ⟨(fun hx => by simp at hx), fun hn => absurd h hn⟩⟩
  · have h' : ¬ (decide (ver.major < 2) || (ver.major == 2 && decide (ver.minor < 1))) = true := by
      rw [Bool.or_eq_true, Bool.and_eq_true, decide_eq_true_eq, decide_eq_true_eq, beq_iff_eq]; exact h
    rw [if_neg h']
    exact ⟨⟨fun h => by simp at h, fun hn => absurd hn h⟩, ⟨fun _ => h, fun _ => rfl⟩⟩

/-- **C17 (round trip).** At 2.1 and above null is received as null. -/
theorem C17_null_roundtrip (cfg : Cfg) (ver : Version) (hv : ver.Known) (h : ¬ (ver.major < 2 ∨ (ver.major = 2 ∧ ver.minor < 1))) :
    ∃ ws, sendResponse cfg.strOk ver .null = (ws, none) ∧
      ∀ ps, ps.flatten = ws.flatten → ∃ tb, receive cfg .response ps = .ok tb ∧ getData tb = .ok .null :=
  response_received cfg ver hv .response (.inl rfl) .null h

/-- **C17 (unmarshaller).** At major version 1 no input whatsoever makes the decoder deliver a null. -/
theorem C17_null_not_in_v1 (req : Req) (ps : List Bytes) (b0 b1 b3 : UInt8) (rest : Bytes) (hps : ps.flatten = b0 :: b1 :: 1 :: b3 :: rest) :
    Event.null ∉ trace req ps := by
  obtain ⟨c, p, q, hs, _⟩ := trace_steps (req := req) (ps := ps)
  change Steps req false BinUnMarshaller.init.core ps.flatten (trace req ps) c (p ++ q) at hs
  rw [hps] at hs
  have hclose : ∀ s : List Frame, Event.null ∉ (closeUp s).2 := by
    intro s
    induction s with
    | nil => simp [closeUp]
    | cons f s ih =>
      simp only [closeUp]
      split
      · simp
      · have : closeEv f.kind ≠ .null := by cases f.kind <;> simp [closeEv]
        simp [ih, Ne.symm this]
  have hemit : ∀ {c c1 : Core} {e es}, e ≠ .null → emit c e = .ok (c1, es) → Event.null ∉ es := by
    intro c c1 e es hne h
    unfold emit at h
    split at h
    · cases h; simp [Ne.symm hne]
    · split at h
      · split at h
        · cases h
        · cases h; simp
      · split at h
        · cases h
        · cases h; simp
      · cases h
  have hop : ∀ k n, openEv k n ≠ .null := by intro k n; cases k <;> simp [openEv]
  have hcl : ∀ k, closeEv k ≠ .null := by intro k; cases k <;> simp [closeEv]
  have gen : ∀ {c p es c' p'}, Steps req false c p es c' p' → Ok c → c.ver.major = 1 → c.st ≠ .magic → Event.null ∉ es := by
    intro c p es c' p' h
    induction h with
    | refl => simp
    | @cons c p c1 es1 es2 c2 p2 h hs hr ih =>
      intro hok hv hm
      have key : c1.ver.major = 1 ∧ c1.st ≠ .magic ∧ Event.null ∉ es1 := by
        refine step_elim (P := fun c1 es1 => c1.ver.major = 1 ∧ c1.st ≠ .magic ∧ Event.null ∉ es1) hok (take_len h) hs
          ?_ ?_ ?_ ?_ ?_ ?_ ?_ ?_ ?_ ?_ ?_ ?_ ?_ ?_
        · intro maj min hst; exact absurd hst hm
        · intro _ _; simp [hv]
        · intro c1 es1 _ _ he
          exact ⟨by rw [(emit_stack he).2.2.2.1]; exact hv, by simp, hemit (by simp) he⟩
        · intro _ _; simp [hv]
        · intro w _ _ _; simp [hv]
        · intro c1 es1 _ he
          exact ⟨by rw [(emit_stack he).2.2.2.1]; exact hv, by simp, hemit (by simp) he⟩
        · intro w _ _ _ _; simp [hv]
        · intro c1 es1 _ he
          exact ⟨by rw [(emit_stack he).2.2.2.1]; exact hv, by simp, hemit (by simp) he⟩
        · intro st w _ _ hp
          refine ⟨hv, ?_, by simp⟩
          intro h; simp only at h; rw [h] at hp; exact hp.elim
        · intro e c1 es1 _ _ hn he
          refine ⟨by simp only [finalize]; rw [(emit_stack he).2.2.2.1]; exact hv, by simp [finalize], ?_⟩
          simp only [finalize, List.mem_append, not_or]
          exact ⟨hemit (fun h => hn h hv) he, hclose _⟩
        · intro st w hst _
          exact ⟨hv, by rcases hst with ⟨_, rfl⟩ | ⟨_, rfl⟩ <;> simp, by simp⟩
        · intro e c1 es1 _ _ hn he
          refine ⟨by simp only [finalize]; rw [(emit_stack he).2.2.2.1]; exact hv, by simp [finalize], ?_⟩
          simp only [finalize, List.mem_append, not_or]
          exact ⟨hemit (fun h => hn h hv) he, hclose _⟩
        · intro k n c1 es1 _ _ _ he
          exact ⟨by rw [(emit_stack he).2.2.2.1]; exact hv, by simp, hemit (hop k n) he⟩
        · intro k c1 es1 c2 es2 _ he he2
          refine ⟨by simp only [finalize]; rw [(emit_stack he2).2.2.2.1, (emit_stack he).2.2.2.1]; exact hv, by simp [finalize], ?_⟩
          simp only [finalize, List.mem_append, not_or]
          exact ⟨⟨hemit (hop k 0) he, hemit (hcl k) he2⟩, hclose _⟩
      rw [List.mem_append, not_or]
      exact ⟨key.2.2, ih (step_ok hok (take_len h) hs) key.1 key.2.1⟩
  generalize hc0 : BinUnMarshaller.init.core = c0 at hs
  generalize trace req ps = t at hs
  generalize hp0 : (b0 :: b1 :: (1 : UInt8) :: b3 :: rest) = p0 at hs
  cases hs with
  | refl => simp
  | @cons _ _ c1 es1 es2 _ _ h hs hr =>
    subst hc0; subst hp0
    have key : c1.ver.major = 1 ∧ c1.st ≠ .magic ∧ es1 = [] := by
      have hs' : step req false BinUnMarshaller.init.core [b0, b1, 1, b3] = .ok (some (c1, es1)) := hs
      simp only [step, BinUnMarshaller.init, rd, List.getElem?_cons_zero, List.getElem?_cons_succ, bind, Except.bind, pure, Except.pure,
        throw, throwThe, MonadExceptOf.throw] at hs'
      split at hs'
      · cases hs'
      · split at hs'
        · cases hs'
        · cases hs'; simp
    rw [key.2.2, List.nil_append]
    exact gen hr (step_ok Ok.init (take_len h) hs) key.1 key.2.1

example : trace .any [[0xCA, 0x11, 1, 0, 0x70, 0x60]] = [.methodResponse] := by rfl

end Frpc
