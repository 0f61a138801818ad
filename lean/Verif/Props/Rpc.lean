import Verif.Model.Rpc
import Verif.Props.HttpMessages
import Verif.Props.RegistryStream
/-!
# Remote calls: C72
-/
namespace Frpc
open Registry Spec.Registry HttpIO HttpOut HttpServer Rpc
open TreeBuilder (getData)
open Spec (Held Small DatesAll plain HeldItems SmallItems DatesAllItems plainItemsWith)
variable {σ : Type}

/-- What a local call of the method gives: its value (without views and secret marks, which a message does
not have), or the fault its exception stands for. -/
inductive Spec.Registry.Local (r : Reg σ) (st : σ) (name : Bytes) (args : List Value) : Outcome → σ → Prop
  | value {v st'} : dispatch r st name args = (.ok v, st') → Local r st name args (.value (plain v)) st'
  | fault {e st' c m} : dispatch r st name args = (.error e, st') → WireFault e c m →
      Local r st name args (.fault c (if m = [] then asc "No data unmarshalled" else m)) st'

/-- What the value or the exception must satisfy to be sent back at the version, within the client's limit. -/
def Sendable (s : Setup) (ver : Version) (x : Except Exn Value) : Prop :=
  match x with
  | .ok v => Held v ∧ Small v ∧ DatesAll (DateOk ver) v ∧ ∃ ws, sendResponse s.server.strOk ver v = (ws, none) ∧ ws.flatten.length < 2 ^ 32 ∧
      (s.limits.2 < 0 ∨ (ws.flatten.length : Int) ≤ s.limits.2 ∧ s.limits.2 < 2 ^ 31)
  | .error e => ∃ c m ws, WireFault e c m ∧ IsI32 c ∧ m.length < 2 ^ 30 ∧ s.server.strOk m = true ∧ sendFault s.server.strOk ver c m = (ws, none) ∧
      ws.flatten.length < 2 ^ 32 ∧ (s.limits.2 < 0 ∨ (ws.flatten.length : Int) ≤ s.limits.2 ∧ s.limits.2 < 2 ^ 31)

/-- A network that delivers everything in both directions, in whatever pieces. -/
structure CalmNet (net : Net) : Prop where
  up : CalmOut true net.up
  arrive : Calm net.arrive
  down : CalmOut false net.down
  back : Calm net.back

/-- The two sides can talk: the binary protocol on both sides, the client's header is well formed, the
client and the server validate strings in the same way and do not recompute dates. -/
structure SetupOk (s : Setup) : Prop where
  client : ClientOk s.http
  binary : s.http.binary = true
  server : s.env.useBinary = true
  custom : ServerOk ⟨.binary, s.env.useBinary, s.env.keepAlive, true, s.custom⟩ ∧ ServerOk ⟨.binary, s.env.useBinary, s.env.keepAlive, false, s.custom⟩
  strings : s.client.strOk = s.server.strOk
  dates : s.client.mktime = none ∧ s.server.mktime = none
  line : s.limits.1 < 0 ∨ 17 ≤ s.limits.1

/-- What a call must satisfy to be sent at the version. -/
def CallOk (s : Setup) (ver : Version) (name : Bytes) (args : List Value) : Prop :=
  HeldItems args ∧ SmallItems args ∧ DatesAllItems (DateOk ver) args ∧
  ∃ ws, sendCall s.client.strOk ver name args = (ws, none) ∧ LengthOk s.http.chunks ws

namespace Rpc

theorem versionSeen_response {strOk : Bytes → Bool} {ver : Version} {v : Value} {ws : List Bytes} (h : sendResponse strOk ver v = (ws, none)) :
    versionSeen ws.flatten = ver := by
  unfold sendResponse at h
  simp only [BinMarshaller.run, BinMarshaller.pack] at h
  simp only [Prod.mk.injEq] at h
  rw [← h.1]
  rfl

theorem versionSeen_fault {strOk : Bytes → Bool} {ver : Version} {c : Int} {m : Bytes} {ws : List Bytes} (h : sendFault strOk ver c m = (ws, none)) :
    versionSeen ws.flatten = ver := by
  unfold sendFault at h
  simp only [BinMarshaller.run, BinMarshaller.pack, BinMarshaller.packString] at h
  by_cases hs : strOk m = true
  · simp only [hs, if_true, Prod.mk.injEq] at h
    rw [← h.1]
    rfl
  · simp [hs] at h

/-- What comes back of writes that `receive` accepts. -/
theorem answer_of (s : Setup) (hok : SetupOk s) (chunks : Bool) (ws : List Bytes) (hl : ws.flatten.length < 2 ^ 32) (hfirst : chunks = true → FirstWrite ws)
    (hfit : s.limits.2 < 0 ∨ (ws.flatten.length : Int) ≤ s.limits.2 ∧ s.limits.2 < 2 ^ 31) (down : List SEv) (hd : CalmOut false down) (back : List Ev)
    (hb : Calm back) (ver : Version) (x : Except Err Value)
    (hrt : ∀ ps : List Bytes, ps.flatten = ws.flatten → ∃ tb, receive s.client .response ps = .ok tb ∧ getData tb = x) :
    ∃ w', message (serverConf ⟨.binary, s.env.useBinary, s.env.keepAlive, chunks, s.custom⟩) ws (.init ⟨down, []⟩) = (.ok (), w') ∧
      answer s w'.wire.sent back ver = (match x with
        | .ok v => .value v
        | .error (.fault c m) => .fault c m
        | .error _ => .failed, versionSeen ws.flatten) := by
  obtain ⟨hf, hfin⟩ := HttpServer.receive_ok (cfg := s.client) (req := .response) (ds := ws) (fun ps hps => (hrt ps hps).imp (fun _ h => h.1))
  obtain ⟨w', qs, s', g1, g2, g3, -, g4, -⟩ := C65_response_delivered s.limits
    (fun k l => if k = .binary then binFeed s.client .response l else some .other)
    (fun k l => if k = .binary then binFinish s.client .response l else some .other) s.http.keepAlive
    ⟨.binary, s.env.useBinary, s.env.keepAlive, chunks, s.custom⟩ (by cases chunks <;> first | exact hok.custom.1 | exact hok.custom.2) .binary (.inl ⟨rfl, rfl⟩) ws
    (by unfold LengthOk; show ws.flatten.length < if chunks = true then _ else _; split <;> omega) hfirst hok.line hfit down hd [] back hb
    (fun l _ hl => by simpa using hf l hl) (fun l _ hl => by simpa using hfin l hl)
  refine ⟨w', g1, ?_⟩
  obtain ⟨tb, t1, t2⟩ := hrt qs g3
  obtain ⟨o, h6⟩ := Registry.receive_ok t1
  unfold answer
  rw [List.append_nil] at g2
  rw [g2]
  simp only [h6, t2, g3]
  cases x with
  | ok v => rfl
  | error e => cases e <;> rfl

/-- The server's turn on a request of the client. -/
theorem serverTurn_of (s : Setup) (hok : SetupOk s) (ver : Version) (hv : ver.Known) (h2 : 2 ≤ ver.major) (r : Reg σ) (st : σ) (srv : Srv) (name : Bytes)
    (args : List Value) (hc : CallOk s ver name args) (net : Net) (hn : CalmNet net) :
    ∃ ws w srv', BinMarshaller.run s.client.strOk ver (.packMethodCall name :: feedItems args) = (ws, none) ∧
      message (clientConf s.http) ws (.init ⟨net.up, []⟩) = (.ok (), w) ∧
      serverTurn s r st srv w.wire.sent net.arrive net.down =
        (let a := processCallOut r s.server.strOk ver s.txt st name (plainItemsWith id args)
         match a.thrown with
         | some _ => (none, a.state, srv')
         | none =>
          match message (serverConf ⟨.binary, s.env.useBinary, s.env.keepAlive, srv'.chunks, s.custom⟩) a.writes (.init ⟨net.down, []⟩) with
          | (.ok _, w) => (some w.wire.sent, a.state, srv')
          | (.error _, _) => (none, a.state, srv')) := by
  obtain ⟨hheld, hsmall, hdates, ws, hsent, hlen⟩ := hc
  have hsent' : sendCall s.server.strOk ver name args = (ws, none) := by rw [← hok.strings]; exact hsent
  have hrt := fun ps hps => C02_call_roundtrip s.server hok.dates.2 ver hv h2 name args hheld hsmall hdates ws hsent' ps hps
  obtain ⟨hf, hfin⟩ := HttpServer.receive_ok (cfg := s.server) (req := .call) (ds := ws) (fun ps hps => (hrt ps hps).imp (fun _ h => h.1))
  have hbin := hok.binary
  obtain ⟨w', qs, srv', s', g1, g2, g3, -, g4, -, -, g5, -⟩ := C64_request_delivered (binEnv s.server s.env) srv s.http hok.client ws hlen
    (fun _ => (C41_binary_first_write s.client.strOk ver ws).1 name args hsent) net.up hn.up [] net.arrive hn.arrive
    (by rw [hbin]; exact fun l _ => hf l) (by rw [hbin]; exact fun l _ => hfin l)
  refine ⟨ws, w', srv', hsent, g1, ?_⟩
  obtain ⟨tb, t1, t2, t3⟩ := hrt qs g3
  obtain ⟨o, h6⟩ := Registry.receive_ok t1
  rw [hbin, List.append_nil] at g2
  have g5' : srv'.outType = .binary := by
    rw [g5]
    show (if s.env.useBinary = true then _ else _) = _
    rw [hok.server]; rfl
  unfold serverTurn
  rw [g2]
  simp only [h6, t3, g5', t2, g3, sendCall_magic hsent]
  rfl

end Rpc

/-- **C72 (one call).** Over any network that delivers the bytes in both directions, in whatever pieces, and in chunks or not, a call
of any method with any arguments gives the caller what the method gives a local caller: its value, or its fault; the method is run exactly
once, in the state the server is in, and the state it leaves is the local one. The next call uses the same version. Missing: results that
the marshaller rejects (see `C49_violated`), protocol errors, XML. -/
theorem C72_call_partial (s : Setup) (hok : SetupOk s) (ver : Version) (hv : ver.Known) (h2 : 2 ≤ ver.major) (r : Reg σ) (st : σ) (srv : Srv) (name : Bytes)
    (args : List Value) (hc : CallOk s ver name args) (hs : Sendable s ver (dispatch r st name (plainItemsWith id args)).1) (net : Net) (hn : CalmNet net) :
    ∃ o st' srv', remoteCall s r st srv ver name args net = (o, st', srv', ver) ∧ Spec.Registry.Local r st name (plainItemsWith id args) o st' := by
  obtain ⟨ws, w, srv', h1, h3, h4⟩ := serverTurn_of s hok ver hv h2 r st srv name args hc net hn
  generalize hd : dispatch r st name (plainItemsWith id args) = d at hs
  obtain ⟨d, st'⟩ := d
  cases d with
  | ok v =>
    obtain ⟨hheld, hsmall, hdates, out, hsent, hlen, hfit⟩ := hs
    have ha : processCallOut r s.server.strOk ver s.txt st name (plainItemsWith id args) =
        ⟨out, none, st', if r.callbacks then [.pre name (plainItemsWith id args), .postOk name (plainItemsWith id args) v] else []⟩ := by
      unfold processCallOut
      rw [(processCall_eq r st name _).1 v st' hd]
      have hsent' := hsent
      unfold sendResponse at hsent'
      simp only [hsent']
    have hsentc : sendResponse s.client.strOk ver v = (out, none) := by rw [hok.strings]; exact hsent
    obtain ⟨w', m1, m2⟩ := answer_of s hok srv'.chunks out hlen (fun _ => (C41_binary_first_write s.server.strOk ver out).2.1 v hsent) hfit net.down hn.down net.back
      hn.back ver (.ok (plain v)) (fun ps hps => C01_response_roundtrip s.client hok.dates.1 ver hv h2 v hheld hsmall hdates out hsentc ps hps)
    refine ⟨.value (plain v), st', srv', ?_, .value hd⟩
    unfold remoteCall
    rw [h1]
    simp only [h3, h4, ha, m1, m2, versionSeen_response hsent]
  | error e =>
    obtain ⟨c, m, out, hw, hi, hm, hstr, hsent, hlen, hfit⟩ := hs
    obtain ⟨m', a1, a2⟩ := answerFault_wire hw
    have hsent' := hsent
    unfold sendFault at hsent'
    have ha : ∃ cbs, processCallOut r s.server.strOk ver s.txt st name (plainItemsWith id args) = ⟨out, none, st', cbs⟩ := by
      unfold processCallOut
      rw [(processCall_eq r st name _).2 e st' hd]
      simp only [answerExn, a1, a2, hsent']
      exact ⟨_, rfl⟩
    obtain ⟨cbs, ha⟩ := ha
    have hrt : ∀ ps : List Bytes, ps.flatten = out.flatten → ∃ tb, receive s.client .response ps = .ok tb ∧
        getData tb = .error (.fault c (if m = [] then asc "No data unmarshalled" else m)) := by
      intro ps hps
      obtain ⟨out', q1, q2⟩ := C03_fault_roundtrip s.client ver hv .response (by decide) c hi m hm (by rw [hok.strings]; exact hstr)
      rw [hok.strings, hsent] at q1
      cases q1
      exact (q2 ps hps).2
    obtain ⟨w', m1, m2⟩ := answer_of s hok srv'.chunks out hlen (fun _ => (C41_binary_first_write s.server.strOk ver out).2.2 c m hsent) hfit net.down hn.down net.back
      hn.back ver _ hrt
    refine ⟨_, st', srv', ?_, .fault hd hw⟩
    unfold remoteCall
    rw [h1]
    simp only [h3, h4, ha, m1, m2, versionSeen_fault hsent]

/-- Local calls one after another. -/
inductive Spec.Registry.LocalCalls (r : Reg σ) : σ → List (Bytes × List Value) → List Outcome → σ → Prop
  | nil {st} : LocalCalls r st [] [] st
  | cons {st st1 st2 name args cs o os} : Spec.Registry.Local r st name args o st1 → LocalCalls r st1 cs os st2 →
      LocalCalls r st ((name, args) :: cs) (o :: os) st2

/-- Every result the calls give, made locally one after another from the state, can be sent back. -/
def AllSendable (s : Setup) (ver : Version) (r : Reg σ) : σ → List (Bytes × List Value × Net) → Prop
  | _, [] => True
  | st, (name, args, _) :: cs =>
    Sendable s ver (dispatch r st name (plainItemsWith id args)).1 ∧ AllSendable s ver r (dispatch r st name (plainItemsWith id args)).2 cs

/-- **C72 (a session).** Any number of calls through one proxy, whatever the network does to each, give the outcomes and the
final state of the same calls made locally one after another, if every result of those can be sent back. -/
theorem C72_session_partial (s : Setup) (hok : SetupOk s) (ver : Version) (hv : ver.Known) (h2 : 2 ≤ ver.major) (r : Reg σ) :
    ∀ (cs : List (Bytes × List Value × Net)) (st : σ) (srv : Srv), (∀ c ∈ cs, CallOk s ver c.1 c.2.1 ∧ CalmNet c.2.2) →
      AllSendable s ver r st cs →
      Spec.Registry.LocalCalls r st (cs.map (fun c => (c.1, plainItemsWith id c.2.1))) (session s r st srv ver cs).1 (session s r st srv ver cs).2
  | [], st, srv, _, _ => .nil
  | (name, args, net) :: cs, st, srv, h, hs => by
    obtain ⟨hc, hn⟩ := h (name, args, net) (by simp)
    obtain ⟨o, st1, srv1, h1, h3⟩ := C72_call_partial s hok ver hv h2 r st srv name args hc hs.1 net hn
    have ih := C72_session_partial s hok ver hv h2 r cs st1 srv1 (fun c hc => h c (by simp [hc])) (by
      have := hs.2
      cases h3 with
      | value hd => rw [hd] at this; exact this
      | fault hd _ => rw [hd] at this; exact this)
    simp only [session, h1]
    exact .cons h3 ih

/-- The example: the client and the server of the other examples. -/
def exampleSetup : Setup := ⟨plainCfg, plainCfg, fun _ => asc "bad", exampleEnv, [], (-1, -1), exampleClient true⟩

example : SetupOk exampleSetup :=
  ⟨exampleClient_ok true, rfl, rfl, ⟨⟨by simp [exampleSetup], by simp [exampleSetup]⟩, ⟨by simp [exampleSetup], by simp [exampleSetup]⟩⟩, rfl, ⟨rfl, rfl⟩, .inl (by decide)⟩
example : CalmNet ⟨[], [.bytes 3], [⟨false, .sent 5⟩], []⟩ :=
  ⟨by intro e he; simp at he, by intro e he; simp at he; exact ⟨_, he⟩, by intro e he; simp at he; subst he; simp, by intro e he; simp at he⟩
example : Sendable exampleSetup ⟨2, 1⟩ (.ok (.int 2)) :=
  ⟨by simp [Held, IsI64], by simp [Small], by simp [DatesAll], _, rfl, by decide +kernel, .inl (by decide)⟩
example : Sendable exampleSetup ⟨2, 1⟩ (.error (.index (asc "no"))) :=
  ⟨_, _, _, .index _, by unfold IsI32; omega, by decide +kernel, rfl, rfl, by decide +kernel, .inl (by decide)⟩
example : CallOk exampleSetup ⟨2, 1⟩ (asc "add") [.int 1, .string (asc "x")] :=
  ⟨by simp [HeldItems, Held, IsI64], by simp only [SmallItems, Small]; decide +kernel, by simp [DatesAllItems, DatesAll], _, rfl,
    by unfold LengthOk; decide +kernel⟩

example : AllSendable exampleSetup ⟨2, 1⟩ (built false true sampleOps) 7 [(asc "add", [.int 1], ⟨[], [], [], []⟩), (asc "get", [], ⟨[], [.bytes 1], [], []⟩)] :=
  ⟨⟨by simp [Held, IsI64, plainItemsWith], by simp [Small], by simp [DatesAll], _, rfl, by decide +kernel, .inl (by decide)⟩,
   ⟨_, _, _, .index _, by unfold IsI32; omega, by decide +kernel, rfl, rfl, by decide +kernel, .inl (by decide)⟩, trivial⟩

end Frpc
