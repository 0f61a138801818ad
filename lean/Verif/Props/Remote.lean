import Verif.Proofs.Remote
/-!
# Remote calls through a proxy, in either protocol: C85
-/
namespace Frpc
open HttpIO HttpOut HttpServer Registry Spec.Registry Spec.XmlRpc Remote
open TreeBuilder (getData TB)
open Spec.Xml (IsXmlText)
open Spec (Held Small DatesAll plain HeldItems SmallItems DatesAllItems plainItemsWith plainWith StringsAll StringsAllItems)
variable {σ : Type}

/-- What becomes of a date-time on the way to a receiver with that configuration: the binary protocol carries all of it that fits its fields
(C09, C10), the text of XML neither the week day nor the time stamp; the receiver may compute these anew. -/
def carried (cfg : TreeBuilder.Cfg) (binary : Bool) (ver : Version) (d : DateTime) : DateTime :=
  cfg.date (if binary then receivedDate ver d else undated d)

/-- What a call must satisfy to be sent at the version, in the binary protocol or in XML. -/
def CallTravels (C : Client) (S : Server) (binary : Bool) (ver : Version) (name : Bytes) (args : List Value) : Prop :=
  HeldItems args ∧ SmallItems args ∧
  if binary then ∃ ws, sendCall C.side.cfg.strOk ver name args = (ws, none) ∧ ws.flatten.length < 2 ^ 32
  else (Message.call name args).Leaves (xmlNeed ver S.side.xml C.dbl) ∧ StringsAllItems (fun s => S.side.cfg.strOk s = true) args ∧
    ∀ ws, XmlMarshaller.run C.dbl ver (XmlMarshaller.ops (.call name args)) = (ws, none) → ws.flatten.length < 2 ^ 32

/-- What a method's value, or its exception, must satisfy to be sent back at the version in the server's protocol. -/
def AnswerTravels (C : Client) (S : Server) (ver : Version) : Except Exn Value → Prop
  | .ok v => Held v ∧ Small v ∧
    if S.http.useBinary then ∃ ws, sendResponse S.side.cfg.strOk ver v = (ws, none) ∧ ws.flatten.length < 2 ^ 32
    else Spec.XmlRpc.Leaves (xmlNeed ver C.side.xml S.dbl) v ∧ StringsAll (fun s => C.side.cfg.strOk s = true) v ∧
      ∀ ws, XmlMarshaller.run S.dbl ver (XmlMarshaller.ops (.response v)) = (ws, none) → ws.flatten.length < 2 ^ 32
  | .error e => ∃ c m, WireFault e c m ∧ IsI32 c ∧
    if S.http.useBinary then m.length < 2 ^ 30 ∧ S.side.cfg.strOk m = true ∧ ∀ ws, sendFault S.side.cfg.strOk ver c m = (ws, none) → ws.flatten.length < 2 ^ 32
    else IsXmlText m ∧ (13 : UInt8) ∉ m ∧ ∀ ws, XmlMarshaller.run S.dbl ver (XmlMarshaller.ops (.fault c m)) = (ws, none) → ws.flatten.length < 2 ^ 32

/-- The two sides can talk: their XML parsers conform, they validate strings in the same way, and the server's custom header is well formed. -/
structure Compatible (C : Client) (S : Server) : Prop where
  client : Spec.Xml.Conforms C.side.parser
  server : Spec.Xml.Conforms S.side.parser
  strings : C.side.cfg.strOk = S.side.cfg.strOk
  custom : ∀ f ∈ S.custom, FieldOk f
  length : ∀ f ∈ S.custom, f.1.map toLower ≠ asc "content-length"

/-- A network that delivers everything in both directions, in whatever pieces, and tells in time of connections the server has closed. -/
structure Delivers (net : Remote.Net) : Prop where
  late : net.late = false
  up : CalmOut true net.up
  arrive : Calm net.arrive
  down : CalmOut false net.down
  back : Calm net.back

/-- A version that calls with all types are made in. -/
def Version.Full (ver : Version) : Prop := ver.Known ∧ 2 ≤ ver.major

namespace Remote

theorem accepts_full {ver : Version} (h : ver.Full) : BinMarshaller.accepts ver = true ∧ XmlMarshaller.accepts ver = true := by
  refine ⟨Registry.accepts_known h.1, ?_⟩
  rcases h.1.cases with h | h | h <;> · unfold XmlMarshaller.accepts; rw [h]; rfl

theorem seen_or (ver : Version) (n : Nat) : XmlMarshaller.seenVersion ver n = ver ∨ XmlMarshaller.seenVersion ver n = ⟨2, 1⟩ := by
  unfold XmlMarshaller.seenVersion
  split
  · next h =>
    left
    cases ver; simp only at h; rw [h.1, h.2.1]
  · exact .inr rfl

/-- The call as it is written, and as the server reads it. -/
theorem call_decodes {C : Client} {S : Server} (hok : Compatible C S) {binary : Bool} {ver : Version} (hv : ver.Full) {name : Bytes} {args : List Value}
    (h : CallTravels C S binary ver name args) :
    ∃ ws, Proxy.packCall C.side.cfg.strOk C.dbl binary ver name args = (ws, none) ∧ ws.flatten.length < 2 ^ 32 ∧
      ∀ path, Decodes S.side .call path (if binary then .binary else .xml) ws.flatten (fun tb v => tb.methodName = name ∧
        getData tb = .ok (.array (plainItemsWith (carried S.side.cfg binary ver) args)) ∧ (v = ver ∨ v = ⟨2, 1⟩)) := by
  obtain ⟨hheld, hsmall, h⟩ := h
  cases binary with
  | true =>
    simp only [if_true] at h
    obtain ⟨ws, hsent, hlen⟩ := h
    refine ⟨ws, ?_, hlen, ?_⟩
    · unfold Proxy.packCall
      rw [(accepts_full hv).1]
      exact hsent
    · intro path
      have hsent' : sendCall S.side.cfg.strOk ver name args = (ws, none) := by rw [← hok.strings]; exact hsent
      have := decodes_binary S.side .call path ws (fun tb => tb.methodName = name ∧ getData tb = .ok (.array (plainItemsWith (carried S.side.cfg true ver) args)))
        (fun ps hps => C02_call_only_dates_change S.side.cfg ver hv.1 hv.2 name args hheld hsmall ws hsent' ps hps)
      refine this.mono (fun tb v hq => ⟨hq.1.1, hq.1.2, .inl ?_⟩)
      rw [hq.2, sendCall_magic hsent]
  | false =>
    simp only [Bool.false_eq_true, if_false] at h
    obtain ⟨hl, hs, hlen⟩ := h
    obtain ⟨ws, h1, h2⟩ := C30_call_partial S.side.parser hok.server S.side.xml S.side.cfg C.dbl ver (accepts_full hv).2 name args hheld hsmall hl hs
    refine ⟨ws, h1, hlen ws h1, fun path => ?_⟩
    refine decodes_xml S.side .call path ws.flatten (firstWrite_ne (xml_firstWrite _ _ _ _ h1)) _ (fun d ds hds hne => ?_)
    obtain ⟨u, tb, g1, g2, g3, g4⟩ := h2 d ds hds hne
    exact ⟨u, tb, g1, g2, g3, by rw [g4]; exact seen_or ver _⟩

/-- The type of the server's answers. -/
def outOf (S : Server) : OutType := if S.http.useBinary then .binary else .xml

/-- The marshaller of the server's answers. -/
def marOf (S : Server) (ver : Version) : Mar := if S.http.useBinary then .bin ver else .xml (XmlMarshaller.new ver)

theorem mar_new {S : Server} {ver : Version} (hv : ver.Full) : Mar.new (outOf S) ver = some (marOf S ver) := by
  unfold Mar.new outOf marOf
  obtain ⟨h1, h2⟩ := accepts_full hv
  cases S.http.useBinary <;> simp [h1, h2]

/-- The server's messages as the XML and binary models have them. -/
theorem mar_bin {S : Server} {ver : Version} {ops : List PackOp} {ws : List Bytes} (hb : S.http.useBinary = true)
    (h : BinMarshaller.run S.side.cfg.strOk ver ops = (ws, none)) :
    ∃ m, (marOf S ver).packAll S.side.cfg.strOk S.dbl ops = (ws, m, none) ∧ m.ending = [] := by
  refine ⟨.bin ver, ?_, rfl⟩
  unfold marOf
  rw [hb]
  show ((BinMarshaller.run S.side.cfg.strOk ver ops).1, Mar.bin ver, (BinMarshaller.run S.side.cfg.strOk ver ops).2) = _
  rw [h]

theorem mar_xml {S : Server} {ver : Version} {ops : List PackOp} {ws : List Bytes} (hb : S.http.useBinary = false)
    (h : XmlMarshaller.run S.dbl ver ops = (ws, none)) :
    ∃ ws' m, (marOf S ver).packAll S.side.cfg.strOk S.dbl ops = (ws', m, none) ∧ ws' ++ m.ending = ws := by
  unfold XmlMarshaller.run at h
  unfold marOf
  rw [hb]
  simp only [Bool.false_eq_true, if_false, Mar.packAll]
  split at h
  · generalize XmlMarshaller.packAll S.dbl (XmlMarshaller.new ver) ops = q at h
    obtain ⟨w, m, e⟩ := q
    cases e with
    | some e => simp at h
    | none =>
      simp only [Prod.mk.injEq, and_true] at h
      exact ⟨w, .xml m, rfl, h⟩
  · simp at h

/-- The answer of the server as it is written, and as the client reads it. -/
theorem answer_decodes {C : Client} {S : Server} (hok : Compatible C S) {ver : Version} (hv : ver.Full) (r : Reg σ) (st : σ) (name : Bytes) (args : List Value)
    (h : AnswerTravels C S ver (dispatch r st name args).1) :
    ∃ ws cbs, answerCall S r (marOf S ver) st name args = ⟨ws, none, (dispatch r st name args).2, cbs⟩ ∧ ws.flatten.length < 2 ^ 32 ∧ FirstWrite ws ∧
      ∀ path, Decodes C.side .response path (if S.http.useBinary then .binary else .xml) ws.flatten (fun tb v => (v = ver ∨ v = ⟨2, 1⟩) ∧
        match (dispatch r st name args).1 with
        | .ok x => getData tb = .ok (plainWith (carried C.side.cfg S.http.useBinary ver) x)
        | .error e => ∃ c m, WireFault e c m ∧ getData tb = .error (.fault c (if m = [] then asc "No data unmarshalled" else m))) := by
  generalize hd : dispatch r st name args = d at h
  obtain ⟨d, st'⟩ := d
  cases d with
  | ok v =>
    obtain ⟨hheld, hsmall, h⟩ := h
    have ha : ∀ ws m, (marOf S ver).packAll S.side.cfg.strOk S.dbl (.packMethodResponse :: Frpc.feed v) = (ws, m, none) →
        ∃ cbs, answerCall S r (marOf S ver) st name args = ⟨ws ++ m.ending, none, st', cbs⟩ := by
      intro ws m hp
      unfold answerCall
      rw [(processCall_eq r st name _).1 v st' hd]
      simp only [hp]
      exact ⟨_, rfl⟩
    cases hb : S.http.useBinary with
    | true =>
      rw [hb] at h
      simp only [if_true] at h
      obtain ⟨ws, hsent, hlen⟩ := h
      obtain ⟨m, hp, he⟩ := mar_bin hb hsent
      obtain ⟨cbs, ha⟩ := ha ws m hp
      rw [he, List.append_nil] at ha
      refine ⟨ws, cbs, ha, hlen, (C41_binary_first_write _ ver ws).2.1 v hsent, fun path => ?_⟩
      have hsent' : sendResponse C.side.cfg.strOk ver v = (ws, none) := by rw [hok.strings]; exact hsent
      have := decodes_binary C.side .response path ws (fun tb => getData tb = .ok (plainWith (carried C.side.cfg true ver) v))
        (fun ps hps => C01_response_only_dates_change C.side.cfg ver hv.1 hv.2 v hheld hsmall ws hsent' ps hps)
      refine this.mono (fun tb v hq => ⟨.inl ?_, hq.1⟩)
      rw [hq.2, Rpc.versionSeen_response hsent]
    | false =>
      rw [hb] at h
      simp only [Bool.false_eq_true, if_false] at h
      obtain ⟨hl, hs, hlen⟩ := h
      obtain ⟨ws, h1, h2⟩ := C30_response_partial C.side.parser hok.client C.side.xml C.side.cfg S.dbl ver (accepts_full hv).2 v hheld hsmall hl hs
      obtain ⟨ws', m, hp, he⟩ := mar_xml hb h1
      obtain ⟨cbs, ha⟩ := ha ws' m hp
      rw [he] at ha
      refine ⟨ws, cbs, ha, hlen ws h1, xml_firstWrite _ _ _ _ h1, fun path => ?_⟩
      refine decodes_xml C.side .response path ws.flatten (firstWrite_ne (xml_firstWrite _ _ _ _ h1)) _ (fun d ds hds hne => ?_)
      obtain ⟨u, tb, g1, g2, g3⟩ := h2 d ds hds hne
      exact ⟨u, tb, g1, by rw [g3]; exact seen_or ver _, g2⟩
  | error e =>
    obtain ⟨c, m, hw, hi, h⟩ := h
    obtain ⟨m', a1, a2⟩ := answerFault_wire hw
    have ha : ∀ ws k, (marOf S ver).packAll S.side.cfg.strOk S.dbl [.packFault c m] = (ws, k, none) →
        ∃ cbs, answerCall S r (marOf S ver) st name args = ⟨ws ++ k.ending, none, st', cbs⟩ := by
      intro ws k hp
      unfold answerCall
      rw [(processCall_eq r st name _).2 e st' hd]
      simp only [Remote.answerExn, a1, a2, hp, List.nil_append]
      exact ⟨_, rfl⟩
    cases hb : S.http.useBinary with
    | true =>
      rw [hb] at h
      simp only [if_true] at h
      obtain ⟨hm, hstr, hlen⟩ := h
      obtain ⟨ws, hsent, hrt⟩ := C03_fault_roundtrip C.side.cfg ver hv.1 .response (by decide) c hi m hm (by rw [hok.strings]; exact hstr)
      have hsent' : sendFault S.side.cfg.strOk ver c m = (ws, none) := by rw [← hok.strings]; exact hsent
      obtain ⟨k, hp, he⟩ := mar_bin hb hsent'
      obtain ⟨cbs, ha⟩ := ha ws k hp
      rw [he, List.append_nil] at ha
      refine ⟨ws, cbs, ha, hlen ws hsent', (C41_binary_first_write _ ver ws).2.2 c m hsent, fun path => ?_⟩
      have := decodes_binary C.side .response path ws (fun tb => getData tb = .error (.fault c (if m = [] then asc "No data unmarshalled" else m))) (fun ps hps => (hrt ps hps).2)
      refine this.mono (fun tb v hq => ⟨.inl ?_, c, m, hw, hq.1⟩)
      rw [hq.2, Rpc.versionSeen_fault hsent]
    | false =>
      rw [hb] at h
      simp only [Bool.false_eq_true, if_false] at h
      obtain ⟨hx, hcr, hlen⟩ := h
      obtain ⟨ws, h1, h2⟩ := C30_fault_partial C.side.parser hok.client C.side.xml C.side.cfg S.dbl ver (accepts_full hv).2 c hi
        (fun h => absurd hv.2 (UInt8.not_le.2 h)) m hx hcr
      obtain ⟨ws', k, hp, he⟩ := mar_xml hb h1
      obtain ⟨cbs, ha⟩ := ha ws' k hp
      rw [he] at ha
      refine ⟨ws, cbs, ha, hlen ws h1, xml_firstWrite _ _ _ _ h1, fun path => ?_⟩
      refine decodes_xml C.side .response path ws.flatten (firstWrite_ne (xml_firstWrite _ _ _ _ h1)) _ (fun d ds hds hne => ?_)
      obtain ⟨u, tb, g1, g2, g3⟩ := h2 d ds hds hne
      exact ⟨u, tb, g1, by rw [g3]; exact seen_or ver _, c, m, hw, g2⟩

/-- The proxy and the server agree on their connection: what the proxy keeps was read empty, and the numbers of connections are below the next. -/
structure Linked (p : Proxy.Proxy) (x : State σ) : Prop where
  clean : ∀ s, p.sock = some s → s.unread = [] ∧ s.id < p.made
  last : ∀ i c, x.last = some (i, c) → i < p.made

/-- The connection that a call uses is open on both sides, and nothing is in it. -/
theorem connect_linked {p : Proxy.Proxy} {x : State σ} (h : Linked p x) {net : Remote.Net} (hlate : net.late = false) :
    ∃ id made n, (∀ reply, Proxy.connectSocket p (turnWith p x net reply) = (some ⟨id, []⟩, made)) ∧ x.served id = some n ∧ id < made ∧ p.made ≤ made := by
  have hfresh : x.served p.made = some 0 := by
    unfold State.served
    split
    · next i c hl =>
      have := h.last i c hl
      rw [if_neg (by omega)]
    · rfl
  unfold Proxy.connectSocket turnWith
  simp only [if_true, List.append_nil]
  cases hs : p.sock with
  | none => exact ⟨p.made, p.made + 1, 0, fun _ => rfl, hfresh, by omega, by omega⟩
  | some s =>
    obtain ⟨h1, h2⟩ := h.clean s hs
    simp only [h1, true_and]
    by_cases hk : p.cfg.keepAlive = false
    · exact ⟨p.made, p.made + 1, 0, fun _ => by rw [if_pos hk], hfresh, by omega, by omega⟩
    · by_cases hb : net.broken = true
      · exact ⟨p.made, p.made + 1, 0, fun _ => by rw [if_neg hk, if_pos hb], hfresh, by omega, by omega⟩
      · by_cases hc : (net.lost || !net.late && goneBy p x) = true
        · exact ⟨p.made, p.made + 1, 0, fun _ => by rw [if_neg hk, if_neg hb, if_pos hc], hfresh, by omega, by omega⟩
        · simp only [hlate, Bool.not_false, Bool.true_and, Bool.or_eq_true, not_or, Bool.not_eq_true] at hc
          obtain ⟨n, hn⟩ : ∃ n, x.served s.id = some n := by
            have := hc.2
            unfold goneBy at this
            rw [hs] at this
            cases hx : x.served s.id with
            | none => simp [hx] at this
            | some n => exact ⟨n, rfl⟩
          exact ⟨s.id, p.made, n, fun _ => by rw [if_neg hk, if_neg hb, if_neg (by simp [hlate, hc])], hn, h2, by omega⟩

/-- One call, in detail. -/
theorem call_of {C : Client} {S : Server} (hok : Compatible C S) (r : Reg σ) (p : Proxy.Proxy) (x : State σ) (hl : Linked p x) (hp : ClientOk (Proxy.clientOf p))
    (hv : p.version.Full) (name : Bytes) (args : List Value) (hc : CallTravels C S (Proxy.chooseBinary p) p.version name args) (net : Remote.Net) (hn : Delivers net)
    (ha : ∀ ver, ver = p.version ∨ ver = ⟨2, 1⟩ →
      AnswerTravels C S ver (dispatch r x.st name (plainItemsWith (carried S.side.cfg (Proxy.chooseBinary p) p.version) args)).1) :
    ∃ o p' x' ver', remoteCall C S r p x name args net = (o, p', x') ∧ (ver' = p.version ∨ ver' = ⟨2, 1⟩) ∧
      x'.st = (dispatch r x.st name (plainItemsWith (carried S.side.cfg (Proxy.chooseBinary p) p.version) args)).2 ∧
      (match (dispatch r x.st name (plainItemsWith (carried S.side.cfg (Proxy.chooseBinary p) p.version) args)).1 with
        | .ok v => o = .value (plainWith (carried C.side.cfg S.http.useBinary ver') v)
        | .error e => ∃ c m, WireFault e c m ∧ o = .fault c (if m = [] then asc "No data unmarshalled" else m)) ∧
      Linked p' x' ∧ p'.url = p.url ∧ p'.cfg = p.cfg ∧ (p'.version = p.version ∨ p'.version = ⟨2, 1⟩) ∧ p'.once = [] ∧ p'.permanent = p.permanent := by
  have hfull21 : Version.Full ⟨2, 1⟩ := ⟨by unfold Version.Known; decide, by decide⟩
  obtain ⟨id, made, n, h1, hserved, hid, hmade⟩ := connect_linked hl hn.late
  have hconn : connection p x net = id := by unfold connection; rw [h1]
  obtain ⟨ws, h2, hlen, hdec⟩ := call_decodes hok hv hc
  have hdec := hdec (Proxy.clientOf p).path
  generalize hargs : plainItemsWith (carried S.side.cfg (Proxy.chooseBinary p) p.version) args = args' at hdec ha ⊢
  -- the request
  obtain ⟨w, qs, srv', s', g1, g2, g3, gne, -, -, -, gout, -⟩ := C64_request_delivered S.env x.srv (Proxy.clientOf p) hp ws (by
      unfold LengthOk
      exact hlen) (fun h => absurd h (by simp [Proxy.clientOf, clientFor])) net.up hn.up [] net.arrive hn.arrive hdec.feed hdec.finish
  rw [List.append_nil] at g2
  obtain ⟨b1, b2, b3⟩ := hdec.built qs gne g3
  generalize hver : version S.side .call (if Proxy.chooseBinary p = true then .binary else .xml) qs = ver at b3
  have hverf : ver.Full := by rcases b3 with h | h <;> rw [h] <;> assumption
  have gout' : srv'.outType = outOf S := gout
  -- the answer
  obtain ⟨out, cbs, a1, alen, afirst, adec⟩ := answer_decodes hok hverf r x.st name args' (ha ver b3)
  have adec := adec []
  obtain ⟨w2, qs2, s2, m1, m2, m3, mne, m4, -⟩ := C65_response_delivered (-1, -1) C.env.codec.feed C.env.codec.finish p.cfg.keepAlive
    ⟨outOf S, S.http.useBinary, S.http.keepAlive, srv'.chunks, S.custom⟩ ⟨hok.custom, fun _ => hok.length⟩ (if S.http.useBinary = true then .binary else .xml)
    (by unfold outOf; cases S.http.useBinary <;> simp) out (by
      unfold LengthOk
      show out.flatten.length < if srv'.chunks = true then _ else _
      split <;> omega) (fun _ => afirst) (.inl (by decide)) (.inl (by decide)) net.down hn.down [] net.back hn.back adec.feed adec.finish
  rw [List.append_nil] at m2
  obtain ⟨c1, c2⟩ := adec.built qs2 mne m3
  have hturn : turn S r x id w.wire.sent net.arrive net.down =
      (w2.wire.sent, ⟨(dispatch r x.st name args').2, srv', some (id, if stop S.http srv' (n + 1) then none else some (n + 1))⟩) := by
    unfold turn
    rw [hserved]
    simp only [g2]
    have e1 : built S.side .call (Proxy.clientOf p).path (if (Proxy.clientOf p).binary = true then HttpServer.Kind.binary else .xml) qs =
      built S.side .call (Proxy.clientOf p).path (if Proxy.chooseBinary p = true then .binary else .xml) qs := rfl
    have e2 : version S.side .call (if (Proxy.clientOf p).binary = true then HttpServer.Kind.binary else .xml) qs = ver := hver
    simp only [e1, e2, b2, gout', mar_new hverf, b1, a1]
    unfold send
    rw [gout', m1]
  have hcall : Proxy.call C.env p name args (turnWith p x net (fun b => (turn S r x id b net.arrive net.down).1)) =
      (.response ⟨if S.http.useBinary = true then .binary else .xml, qs2, some (true, S.http.useBinary), !(p.cfg.keepAlive && S.http.keepAlive)⟩,
       { p with once := [], made := made, sock := if !(p.cfg.keepAlive && S.http.keepAlive) then none else some ⟨id, s2.data⟩, supports := (true, S.http.useBinary),
                version := version C.side .response (if S.http.useBinary = true then .binary else .xml) qs2 },
       some (id, w.wire.sent)) := by
    unfold Proxy.call
    have h2' : Proxy.packCall C.env.strOk C.env.dbl (Proxy.chooseBinary p) p.version name args = (ws, none) := h2
    simp only [h2', h1]
    unfold Proxy.exchange
    have g1' : message (clientConf (Proxy.clientOf p)) ws (.init ⟨(turnWith p x net (fun b => (turn S r x id b net.arrive net.down).1)).up, []⟩) = (.ok (), w) := g1
    have m2' : readResponse (-1, -1) C.env.codec.feed C.env.codec.finish p.cfg.keepAlive
        ⟨[] ++ (turnWith p x net (fun b => (turn S r x id b net.arrive net.down).1)).reply w.wire.sent, (turnWith p x net (fun b => (turn S r x id b net.arrive net.down).1)).back, []⟩ =
        (.ok ⟨if S.http.useBinary = true then .binary else .xml, qs2, some (true, S.http.useBinary), !(p.cfg.keepAlive && S.http.keepAlive)⟩, s2) := by
      show readResponse _ _ _ _ ⟨(turn S r x id w.wire.sent net.arrive net.down).1, net.back, []⟩ = _
      rw [hturn]
      exact m2
    simp only [g1', m2']
    simp [Client.env]
  have hrc : remoteCall C S r p x name args net =
      (outcome C (.response ⟨if S.http.useBinary = true then .binary else .xml, qs2, some (true, S.http.useBinary), !(p.cfg.keepAlive && S.http.keepAlive)⟩),
       { p with once := [], made := made, sock := if !(p.cfg.keepAlive && S.http.keepAlive) then none else some ⟨id, s2.data⟩, supports := (true, S.http.useBinary),
                version := version C.side .response (if S.http.useBinary = true then .binary else .xml) qs2 },
       ⟨(dispatch r x.st name args').2, srv', some (id, if stop S.http srv' (n + 1) then none else some (n + 1))⟩) := by
    unfold remoteCall
    rw [hconn]
    simp only [hcall, hturn]
  rw [hrc]
  refine ⟨_, _, _, ver, rfl, b3, rfl, ?_, ?_, ?_⟩
  · unfold outcome
    simp only
    revert c2
    cases hd : (dispatch r x.st name args').1 with
    | ok v => intro c2; simp only at c2 ⊢; rw [c2]
    | error e =>
      intro c2
      simp only at c2 ⊢
      obtain ⟨c, m, hw, c2⟩ := c2
      exact ⟨c, m, hw, by rw [c2]⟩
  · refine ⟨fun s hs => ?_, fun i c hs => ?_⟩
    · simp only at hs
      split at hs
      · simp at hs
      · cases hs
        exact ⟨m4, hid⟩
    · simp only [Option.some.injEq, Prod.mk.injEq] at hs
      rw [← hs.1]; exact hid
  · refine ⟨rfl, rfl, ?_, rfl, rfl⟩
    rcases c1 with h | h
    · exact b3.imp (fun h' => h.trans h') (fun h' => h.trans h')
    · exact .inr h

end Remote

/-- **C85 (one call).** A proxy in any state that a history leaves it in (`Linked`: what it keeps of a connection was read to the end), in any mode
and so in either protocol, against a server that answers in either: over any network that delivers the bytes, in whatever pieces, with the kept connection
still there or lost or closed by the server, the caller gets what a local caller of the method gets, with date-times as far as the protocol
carries them: its value, or its fault. The method is run exactly once, in the state the server is in; it leaves the local state; and the proxy is
ready for the next call. Missing: results that the marshaller rejects (`C49_violated`), protocol errors, closing that is not seen in time. -/
theorem C85_call_partial {C : Client} {S : Server} (hok : Compatible C S) (r : Reg σ) (p : Proxy.Proxy) (x : State σ) (hl : Linked p x) (hp : ClientOk (Proxy.clientOf p))
    (hv : p.version.Full) (name : Bytes) (args : List Value) (hc : CallTravels C S (Proxy.chooseBinary p) p.version name args) (net : Remote.Net) (hn : Delivers net)
    (ha : ∀ ver, ver = p.version ∨ ver = ⟨2, 1⟩ →
      AnswerTravels C S ver (dispatch r x.st name (plainItemsWith (carried S.side.cfg (Proxy.chooseBinary p) p.version) args)).1) :
    ∃ o p' x', remoteCall C S r p x name args net = (o, p', x') ∧ Linked p' x' ∧
      ((∃ v ver', dispatch r x.st name (plainItemsWith (carried S.side.cfg (Proxy.chooseBinary p) p.version) args) = (.ok v, x'.st) ∧ (ver' = p.version ∨ ver' = ⟨2, 1⟩) ∧
          o = .value (plainWith (carried C.side.cfg S.http.useBinary ver') v)) ∨
       (∃ e c m, dispatch r x.st name (plainItemsWith (carried S.side.cfg (Proxy.chooseBinary p) p.version) args) = (.error e, x'.st) ∧ WireFault e c m ∧
          o = .fault c (if m = [] then asc "No data unmarshalled" else m))) := by
  obtain ⟨o, p', x', ver', h1, h2, h3, h4, h5, -⟩ := call_of hok r p x hl hp hv name args hc net hn ha
  refine ⟨o, p', x', h1, h5, ?_⟩
  generalize dispatch r x.st name (plainItemsWith (carried S.side.cfg (Proxy.chooseBinary p) p.version) args) = d at h3 h4
  obtain ⟨d, st'⟩ := d
  simp only at h3 h4
  subst h3
  cases d with
  | ok v => exact .inl ⟨v, ver', rfl, h2, h4⟩
  | error e =>
    obtain ⟨c, m, hw, h⟩ := h4
    exact .inr ⟨e, c, m, rfl, hw, h⟩

/-- The protocols that a proxy in the mode may use. -/
def Usable (mode : Nat) (binary : Bool) : Prop := (binary = true → mode ≠ Proxy.never) ∧ (binary = false → mode ≠ Proxy.always)

/-- The versions that a proxy configured for a version may use: what it is told by XML that does not say it is 2.1. -/
def Spoken (cfg : Proxy.Config) (ver : Version) : Prop := ver = cfg.version ∨ ver = ⟨2, 1⟩

/-- What the steps of a session must satisfy: calls can be sent in the protocols and versions the proxy may use, their date-times are ones that
arrive as they were, and header fields are well formed. -/
def StepOk (C : Client) (S : Server) (cfg : Proxy.Config) : Step → Prop
  | .call name args net => Delivers net ∧ ∀ binary ver, Usable cfg.mode binary → Spoken cfg ver →
      CallTravels C S binary ver name args ∧ DatesAllItems (fun d => carried S.side.cfg binary ver d = d) args
  | .addOnce f => FieldOk f
  | .addPermanent f => FieldOk f
  | .deleteHeaders => True

/-- The results of the calls, made locally one after another from the state, can be sent back, and their date-times arrive as they were. -/
def ResultsOk (C : Client) (S : Server) (cfg : Proxy.Config) (r : Reg σ) : σ → List Step → Prop
  | _, [] => True
  | st, .call name args _ :: cs =>
    (∀ ver, Spoken cfg ver → AnswerTravels C S ver (dispatch r st name (plainItemsWith id args)).1 ∧
      ∀ v, (dispatch r st name (plainItemsWith id args)).1 = .ok v → DatesAll (fun d => carried C.side.cfg S.http.useBinary ver d = d) v) ∧
    ResultsOk C S cfg r (dispatch r st name (plainItemsWith id args)).2 cs
  | st, _ :: cs => ResultsOk C S cfg r st cs

/-- The calls of a session, with the arguments as they arrive. -/
def callsOf : List Step → List (Bytes × List Value)
  | [] => []
  | .call name args _ :: cs => (name, plainItemsWith id args) :: callsOf cs
  | _ :: cs => callsOf cs

namespace Remote

theorem chooseBinary_usable (p : Proxy.Proxy) : Usable p.cfg.mode (Proxy.chooseBinary p) := by
  unfold Proxy.chooseBinary Usable
  refine ⟨fun h he => ?_, fun h he => ?_⟩
  · simp [he, Proxy.never, Proxy.onSupport] at h
  · simp [he, Proxy.always, Proxy.onSupport, Proxy.never] at h

/-- What stays true of the proxy of a session. -/
structure Ready (url : Url.Url) (cfg : Proxy.Config) (p : Proxy.Proxy) : Prop where
  hurl : p.url = url
  hcfg : p.cfg = cfg
  version : Spoken cfg p.version
  fields : ∀ f ∈ p.permanent ++ p.once, FieldOk f

theorem session_of {C : Client} {S : Server} (hok : Compatible C S) (url : Url.Url) (cfg : Proxy.Config) (hurl : ClientOk (clientFor url cfg.http10 true cfg.keepAlive false []))
    (hv : cfg.version.Full) (r : Reg σ) : ∀ (cs : List Step) (p : Proxy.Proxy) (x : State σ), Ready url cfg p → Linked p x → (∀ c ∈ cs, StepOk C S cfg c) →
      ResultsOk C S cfg r x.st cs → LocalCalls r x.st (callsOf cs) (session C S r p x cs).1 (session C S r p x cs).2.2.st
  | [], _, _, _, _, _, _ => .nil
  | .addOnce f :: cs, p, x, hr, hl, hs, ho => by
    refine session_of hok url cfg hurl hv r cs { p with once := p.once ++ [f] } x ⟨hr.hurl, hr.hcfg, hr.version, ?_⟩ ⟨hl.clean, hl.last⟩ (fun c hc => hs c (by simp [hc])) ho
    have hf : FieldOk f := hs (.addOnce f) (by simp)
    intro g hg
    simp only [List.mem_append, List.mem_singleton] at hg
    rcases hg with hg | hg | hg
    · exact hr.fields g (by simp [hg])
    · exact hr.fields g (by simp [hg])
    · rw [hg]; exact hf
  | .addPermanent f :: cs, p, x, hr, hl, hs, ho => by
    refine session_of hok url cfg hurl hv r cs { p with permanent := p.permanent ++ [f] } x ⟨hr.hurl, hr.hcfg, hr.version, ?_⟩ ⟨hl.clean, hl.last⟩ (fun c hc => hs c (by simp [hc])) ho
    have hf : FieldOk f := hs (.addPermanent f) (by simp)
    intro g hg
    simp only [List.mem_append, List.mem_singleton] at hg
    rcases hg with (hg | hg) | hg
    · exact hr.fields g (by simp [hg])
    · rw [hg]; exact hf
    · exact hr.fields g (by simp [hg])
  | .deleteHeaders :: cs, p, x, hr, hl, hs, ho =>
    session_of hok url cfg hurl hv r cs { p with once := [], permanent := [] } x ⟨hr.hurl, hr.hcfg, hr.version, by simp⟩ ⟨hl.clean, hl.last⟩ (fun c hc => hs c (by simp [hc])) ho
  | .call name args net :: cs, p, x, hr, hl, hs, ho => by
    obtain ⟨hn, hc⟩ : Delivers net ∧ _ := hs (.call name args net) (by simp)
    have hfull : ∀ ver, Spoken cfg ver → ver.Full := by
      rintro ver (h | h)
      · rw [h]; exact hv
      · rw [h]; exact ⟨by unfold Version.Known; decide, by decide⟩
    have hu := chooseBinary_usable p
    rw [hr.hcfg] at hu
    obtain ⟨hc1, hc2⟩ := hc (Proxy.chooseBinary p) p.version hu hr.version
    have hsp : ∀ ver, ver = p.version ∨ ver = ⟨2, 1⟩ → Spoken cfg ver := by
      rintro ver (h | h)
      · rw [h]; exact hr.version
      · exact .inr h
    have hargs : plainItemsWith (carried S.side.cfg (Proxy.chooseBinary p) p.version) args = plainItemsWith id args := plainWith_congrItems _ id args hc2
    have hclient : ClientOk (Proxy.clientOf p) := by
      have h0 : Proxy.clientOf p = { clientFor url cfg.http10 true cfg.keepAlive false [] with binary := Proxy.chooseBinary p, custom := p.permanent ++ p.once } := by
        unfold Proxy.clientOf clientFor; rw [hr.hurl, hr.hcfg]
      rw [h0]
      exact ⟨hurl.path, hurl.host, hr.fields, fun h => absurd h (by simp [clientFor])⟩
    obtain ⟨hres, hrest⟩ := ho
    obtain ⟨o, p', x', ver', h1, h2, h3, h4, h5, h6, h7, h8, h9, h10⟩ := call_of hok r p x hl hclient (hfull _ hr.version) name args hc1 net hn
      (fun ver hver => by rw [hargs]; exact (hres ver (hsp ver hver)).1)
    rw [hargs] at h3 h4
    rw [← h3] at hrest
    have ih := session_of hok url cfg hurl hv r cs p' x' ⟨h6.trans hr.hurl, h7.trans hr.hcfg, h8.elim (fun h => by rw [h]; exact hr.version) .inr, by
      rw [h9, h10, List.append_nil]
      exact fun f hf => hr.fields f (by simp [hf])⟩ h5 (fun c hc => hs c (by simp [hc])) hrest
    simp only [session, h1]
    refine .cons (st1 := x'.st) ?_ ih
    have hdates := (hres ver' (hsp ver' h2)).2
    generalize hd : dispatch r x.st name (plainItemsWith id args) = d at h3 h4 hdates
    obtain ⟨d, st'⟩ := d
    simp only at h3 h4
    subst h3
    cases d with
    | ok v =>
      simp only at h4
      rw [h4, plainWith_congr _ id v (hdates v rfl)]
      exact .value hd
    | error e =>
      obtain ⟨c, m, hw, h⟩ := h4
      rw [h]
      exact .fault hd hw

end Remote

/-- **C85 (a session).** Any number of calls through one proxy, whatever its mode, its keep-alive and its HTTP version, whatever protocol and limits the
server has, whatever header fields are set in between, and whatever connections are lost or closed between the calls, give the outcomes and the final
state of the same calls made locally one after another, if the calls and those results can be sent and their date-times arrive as they are. -/
theorem C85_session_partial {C : Client} {S : Server} (hok : Compatible C S) (url : Url.Url) (cfg : Proxy.Config)
    (hurl : ClientOk (clientFor url cfg.http10 true cfg.keepAlive false [])) (hv : cfg.version.Full) (r : Reg σ) (st : σ) (srv : Srv) (cs : List Step)
    (hs : ∀ c ∈ cs, StepOk C S cfg c) (ho : ResultsOk C S cfg r st cs) :
    let q := session C S r (Proxy.new url cfg) ⟨st, srv, none⟩ cs
    LocalCalls r st (callsOf cs) q.1 q.2.2.st :=
  session_of hok url cfg hurl hv r cs (Proxy.new url cfg) ⟨st, srv, none⟩ ⟨rfl, rfl, .inl rfl, by simp [Proxy.new]⟩ ⟨by simp [Proxy.new], by simp⟩ hs ho

/-! ## Witnesses -/

/-- Both sides of the example: no validation, the eager parser. -/
def exampleSide : Side := ⟨plainCfg, xmlExampleEnv, XmlParser.eager, plainEnv⟩

/-- The client of the example. -/
def exampleRemoteClient : Client := ⟨exampleSide, xmlExampleDbl⟩

/-- The server of the example: one request on a connection. -/
def exampleServer (useBinary : Bool) : Server := ⟨exampleSide, fun _ => asc "bad", xmlExampleDbl, { exampleEnv with useBinary := useBinary, maxKeepalive := 1 }, []⟩

/-- A proxy in the default mode. -/
def exampleRemoteCfg : Proxy.Config := ⟨1, 1, 1, true, Proxy.onSupportOnKeepAlive, false, ⟨2, 1⟩⟩

/-- A network that delivers everything at once. -/
def quickNet : Remote.Net := ⟨false, false, false, [], [], [], []⟩

/-- Two calls. -/
def exampleSteps : List Step := [.call (asc "add") [.int 1] quickNet, .addOnce (asc "X-A", asc "1"), .call (asc "get") [] quickNet]

example (b : Bool) : Compatible exampleRemoteClient (exampleServer b) :=
  ⟨XmlParser.eager_conforms, XmlParser.eager_conforms, rfl, by simp [exampleServer], by simp [exampleServer]⟩
example : Delivers quickNet := ⟨rfl, by intro e he; simp [quickNet] at he, by intro e he; simp [quickNet] at he, by intro e he; simp [quickNet] at he, by intro e he; simp [quickNet] at he⟩

/-- The URL of the example. -/
def exampleUrl : Url.Url := ⟨asc "h", 80, asc "/RPC2", false, false⟩

example : ClientOk (clientFor exampleUrl exampleRemoteCfg.http10 true exampleRemoteCfg.keepAlive false []) :=
  ⟨by decide +kernel, by decide +kernel, by simp [clientFor], by simp [clientFor]⟩
example : exampleRemoteCfg.version.Full := ⟨by unfold Version.Known; decide, by decide⟩

theorem example_length (dbl : BitVec 64 → Bytes) (ver : Version) (msg : Message) (h : (XmlMarshaller.run dbl ver (XmlMarshaller.ops msg)).1.flatten.length < 2 ^ 32) :
    ∀ ws, XmlMarshaller.run dbl ver (XmlMarshaller.ops msg) = (ws, none) → ws.flatten.length < 2 ^ 32 := by
  intro ws hw
  rw [hw] at h
  exact h

example (b : Bool) : ∀ c ∈ exampleSteps, StepOk exampleRemoteClient (exampleServer b) exampleRemoteCfg c := by
  have hq : Delivers quickNet := ⟨rfl, by intro e he; simp [quickNet] at he, by intro e he; simp [quickNet] at he, by intro e he; simp [quickNet] at he, by intro e he; simp [quickNet] at he⟩
  have hx : ∀ t : Bytes, (∀ c ∈ t, (c.toNat < 128 ∧ Spec.isXmlChar c.toNat = true) ∧ c ≠ 13) → IsXmlText t ∧ (13 : UInt8) ∉ t :=
    fun t ht => ⟨XmlMarshaller.xmlText_ascii (fun c hc => (ht c hc).1), fun hc => (ht _ hc).2 rfl⟩
  intro c hc
  simp only [exampleSteps, List.mem_cons, List.not_mem_nil, or_false] at hc
  rcases hc with rfl | rfl | rfl
  · refine ⟨hq, fun binary ver _ hver => ?_⟩
    have hver : ver = ⟨2, 1⟩ := hver.elim id id
    subst hver
    refine ⟨⟨by simp [HeldItems, Held, IsI64], by simp [SmallItems, Small], ?_⟩, by simp [DatesAllItems, DatesAll]⟩
    cases binary with
    | true => exact ⟨_, rfl, by decide +kernel⟩
    | false =>
      refine ⟨⟨by decide +kernel, hx _ (by decide +kernel), ⟨⟨⟨by decide, by decide⟩, by decide, fun _ => by decide⟩, trivial⟩⟩, by simp [StringsAllItems, StringsAll], ?_⟩
      exact example_length _ _ _ (by decide +kernel)
  · show FieldOk (asc "X-A", asc "1")
    unfold FieldOk
    decide +kernel
  · refine ⟨hq, fun binary ver _ hver => ?_⟩
    have hver : ver = ⟨2, 1⟩ := hver.elim id id
    subst hver
    refine ⟨⟨by simp [HeldItems], by simp [SmallItems], ?_⟩, by simp [DatesAllItems]⟩
    cases binary with
    | true => exact ⟨_, rfl, by decide +kernel⟩
    | false =>
      refine ⟨⟨by decide +kernel, hx _ (by decide +kernel), trivial⟩, by simp [StringsAllItems], ?_⟩
      exact example_length _ _ _ (by decide +kernel)

example (b : Bool) : ResultsOk exampleRemoteClient (exampleServer b) exampleRemoteCfg (Registry.built false true sampleOps) 7 exampleSteps := by
  have hx : ∀ t : Bytes, (∀ c ∈ t, (c.toNat < 128 ∧ Spec.isXmlChar c.toNat = true) ∧ c ≠ 13) → IsXmlText t ∧ (13 : UInt8) ∉ t :=
    fun t ht => ⟨XmlMarshaller.xmlText_ascii (fun c hc => (ht c hc).1), fun hc => (ht _ hc).2 rfl⟩
  refine ⟨fun ver hver => ⟨?_, ?_⟩, fun ver hver => ⟨?_, ?_⟩, trivial⟩
  · have hver : ver = ⟨2, 1⟩ := hver.elim id id
    subst hver
    show AnswerTravels _ _ _ (.ok (.int 1))
    refine ⟨by simp [Held, IsI64], by simp [Small], ?_⟩
    cases b with
    | true => exact ⟨_, rfl, by decide +kernel⟩
    | false => exact ⟨⟨⟨by decide, by decide⟩, by decide, by decide⟩, by simp [StringsAll], example_length _ _ _ (by decide +kernel)⟩
  · intro v hv
    have : v = .int 1 := by cases hv; rfl
    subst this
    simp [DatesAll]
  · have hver : ver = ⟨2, 1⟩ := hver.elim id id
    subst hver
    show AnswerTravels _ _ _ (.error (.index (asc "no")))
    refine ⟨_, _, .index _, by unfold IsI32; omega, ?_⟩
    cases b with
    | true => exact ⟨by decide +kernel, rfl, by intro ws hw; cases hw; decide +kernel⟩
    | false =>
      obtain ⟨h1, h2⟩ := hx (visible (asc "no")) (by decide +kernel)
      exact ⟨h1, h2, example_length _ _ _ (by decide +kernel)⟩
  · intro v hv
    cases hv

/-- What kind of outcome. -/
def kindOf : Rpc.Outcome → Nat
  | .value _ => 0
  | .fault _ _ => 1
  | .failed => 2

example : ((session exampleRemoteClient (exampleServer true) (Registry.built false true sampleOps) (Proxy.new exampleUrl exampleRemoteCfg) ⟨7, ⟨.xml, false, false, false⟩, none⟩ exampleSteps).1.map kindOf,
    (session exampleRemoteClient (exampleServer true) (Registry.built false true sampleOps) (Proxy.new exampleUrl exampleRemoteCfg) ⟨7, ⟨.xml, false, false, false⟩, none⟩ exampleSteps).2.2.st) = ([0, 1], 8) := by
  decide +kernel

/-- **C85 is violated** when the proxy does not see in time that the server has closed the kept connection: a call that would succeed fails, though the server is
there and new connections can be made; the method has not been run. -/
theorem C85_late_violated :
    let r := Registry.built false true sampleOps
    let q := session exampleRemoteClient (exampleServer true) r (Proxy.new exampleUrl exampleRemoteCfg) ⟨7, ⟨.xml, false, false, false⟩, none⟩
      [.call (asc "add") [.int 1] quickNet, .call (asc "add") [.int 1] { quickNet with late := true }]
    q.1.map kindOf = [0, 2] ∧ q.2.2.st = 8 := by
  decide +kernel

end Frpc
