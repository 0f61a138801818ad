import Verif.Model.Mixed
import Verif.Props.RemoteAny
import Verif.Props.PyRemoteAny
/-!
# The Python client and the C++ server over any network: C130
-/
namespace Frpc
open HttpIO HttpOut HttpServer Registry Spec Spec.Http Spec.Registry Spec.XmlRpc Remote
open Python (Py)
open PyProxy (Outcome Raised)
open TreeBuilder (getData TB)
open Spec.Xml (IsXmlText)
open Spec.Python (shows showsItems Loadable LoadableItems)
variable {σ τ : Type}

/-- What a Python client has in common with a C++ one: how it validates strings, how it writes doubles, and its XML parser. -/
def pyAsClient (C : PyProxy.Conf τ) (S : Server) : Client := ⟨⟨⟨C.strOk, none⟩, C.xml, C.parser, S.side.url⟩, C.dbl⟩

/-- The Python call can be sent to the C++ server: its name is a C string, and its arguments stand for values that a C++ client could send. -/
structure PyCppCall (C : PyProxy.Conf τ) (S : Server) (binary : Bool) (ver : Version) (name : Bytes) (args : List Py) (vs : List Value) : Prop where
  noNul : (0 : UInt8) ∉ name
  means : Spec.Python.meansItems args = some vs
  small : Spec.Python.SmallItems args ∧ args.length < 2 ^ 30
  travels : CallTravels (pyAsClient C S) S binary ver name vs

/-- What a method's value, or its exception, must satisfy to be sent to a Python client at the version in the server's protocol: its strings are UTF-8, and the marshaller takes it. -/
def CppPyAnswer (C : PyProxy.Conf τ) (S : Server) (ver : Version) : Except Registry.Exn Value → Prop
  | .ok v => Held v ∧ Small v ∧ Loadable v ∧
    if S.http.useBinary then ∃ ws, sendResponse S.side.cfg.strOk ver v = (ws, none) ∧ ws.flatten.length < 2 ^ 32
    else Spec.XmlRpc.Leaves (xmlNeed ver C.xml S.dbl) v ∧ ∀ ws, XmlMarshaller.run S.dbl ver (XmlMarshaller.ops (.response v)) = (ws, none) → ws.flatten.length < 2 ^ 32
  | .error e => ∃ c m, WireFault e c m ∧ IsI32 c ∧ isUtf8 m = true ∧
    if S.http.useBinary then m.length < 2 ^ 30 ∧ S.side.cfg.strOk m = true ∧ ∀ ws, sendFault S.side.cfg.strOk ver c m = (ws, none) → ws.flatten.length < 2 ^ 32
    else IsXmlText m ∧ (13 : UInt8) ∉ m ∧ ∀ ws, XmlMarshaller.run S.dbl ver (XmlMarshaller.ops (.fault c m)) = (ws, none) → ws.flatten.length < 2 ^ 32

/-- What the Python caller gets for what the C++ method returned or threw: the object that stands for the value, or the fault as an exception. -/
inductive CppPyGets (date : DateTime → DateTime) : Except Registry.Exn Value → Outcome → Prop
  | value {v} : CppPyGets date (.ok v) (.value (shows (plainWith date v)))
  | fault {e c m} : WireFault e c m → CppPyGets date (.error e) (.raised (.fault c m))

/-- The two sides can talk: their XML parsers conform, they validate strings in the same way, the client's builder has no special options, and the server's custom header is well
formed. -/
structure PyCppCompatible (C : PyProxy.Conf τ) (S : Server) : Prop where
  client : Spec.Xml.Conforms C.parser
  server : Spec.Xml.Conforms S.side.parser
  clientOpts : Python.Plain C.opts
  strings : C.strOk = S.side.cfg.strOk
  custom : ∀ f ∈ S.custom, FieldOk f
  length : ∀ f ∈ S.custom, f.1.map toLower ≠ asc "content-length"

namespace Remote

/-- What the C++ server makes of the bytes of a request of any client that were sent. -/
theorem turn_heard {S : Server} (r : Reg σ) (x : State σ) (c : ClientCfg) (hp : ClientOk c) (ver0 : Version) (hv : ver0.Full) (name : Bytes) (args' : List Value) (up : List SEv)
    (ws : List Bytes) (hlen : ws.flatten.length < 2 ^ 32) (hfirst : FirstWrite ws)
    (hdec : Decodes S.side .call c.path (if c.binary then .binary else .xml) ws.flatten (fun tb v => tb.methodName = name ∧ getData tb = .ok (.array args') ∧ (v = ver0 ∨ v = ⟨2, 1⟩)))
    (m : Except SErr Unit) (w : Writer) (hm : message (clientConf c) ws (.init ⟨up, []⟩) = (m, w)) (id : Nat) (arrive : List Ev) (down : List SEv) :
    (∃ x', turn S r x id w.wire.sent arrive down = ([], x') ∧ x'.st = x.st ∧ (x' = x ∨ ∃ c, x'.last = some (id, c))) ∨
    (∃ srv n ver, x.served id = some n ∧ (ver = ver0 ∨ ver = ⟨2, 1⟩) ∧ srv.outType = outOf S ∧
      turn S r x id w.wire.sent arrive down = match (answerCall S r (marOf S ver) x.st name args').thrown with
        | some _ => ([], ⟨(answerCall S r (marOf S ver) x.st name args').state, srv, some (id, none)⟩)
        | none => send S (answerCall S r (marOf S ver) x.st name args').state srv id (n + 1) S.custom (answerCall S r (marOf S ver) x.st name args').writes down) := by
  have hfull21 : Version.Full ⟨2, 1⟩ := ⟨by unfold Version.Known; decide, by decide⟩
  unfold turn
  cases hserved : x.served id with
  | none => exact .inl ⟨x, rfl, rfl, .inl rfl⟩
  | some n =>
    obtain ⟨total, text, lost, hd, hpl, hch⟩ := PyRemote.sent_framed c ws hlen hfirst up m w hm
    have hheard := readRequest_framed S.env x.srv c hp total ws.flatten text lost hpl hch ⟨w.wire.sent, arrive, []⟩ hd (by omega) hdec.feed hdec.finish
    simp only
    rcases hheard with ⟨qs, srv, s, g1, g2, g3, g4, -⟩ | ⟨e, srv, s, g1, g2, g3⟩
    · right
      obtain ⟨b1, b2, b3⟩ := hdec.built qs g3 g2
      generalize hver : version S.side .call (if c.binary = true then .binary else .xml) qs = ver at b3
      have hverf : ver.Full := by rcases b3 with h | h <;> rw [h] <;> assumption
      refine ⟨srv, n, ver, rfl, b3, g4, ?_⟩
      rw [g1]
      have gout' : srv.outType = outOf S := g4
      simp only [hver, b2, gout', mar_new hverf, b1]
      rfl
    · left
      rw [g1]
      cases e with
      | stream => exact absurd rfl g2
      | http code => exact absurd rfl (g3 code)
      | io e => exact ⟨_, rfl, rfl, .inr ⟨_, rfl⟩⟩
      | other e => exact ⟨_, rfl, rfl, .inr ⟨_, rfl⟩⟩
      | noRequest => exact ⟨_, rfl, rfl, .inr ⟨_, rfl⟩⟩

end Remote

namespace PyToCpp

theorem compatible {C : PyProxy.Conf τ} {S : Server} (h : PyCppCompatible C S) : Compatible (pyAsClient C S) S := ⟨h.client, h.server, h.strings, h.custom, h.length⟩

/-- The answer of the server as it is written, and as the Python client takes it. -/
theorem answer_told {C : PyProxy.Conf τ} {S : Server} {ver : Version} (hv : ver.Full) (r : Reg σ) (st : σ) (name : Bytes) (args : List Value)
    (h : CppPyAnswer C S ver (dispatch r st name args).1) :
    ∃ ws cbs o, answerCall S r (marOf S ver) st name args = ⟨ws, none, (dispatch r st name args).2, cbs⟩ ∧ ws.flatten.length < 2 ^ 32 ∧ FirstWrite ws ∧
      PyTells C (if S.http.useBinary then .binary else .xml) ws.flatten o ver ∧ CppPyGets (pyCarried C.opts S.http.useBinary ver) (dispatch r st name args).1 o := by
  generalize hd : dispatch r st name args = d at h
  obtain ⟨d, st'⟩ := d
  have a := accepts_full hv
  cases d with
  | ok v =>
    obtain ⟨hheld, hsmall, hload, h⟩ := h
    have ha : ∀ ws m, (marOf S ver).packAll S.side.cfg.strOk S.dbl (.packMethodResponse :: Frpc.feed v) = (ws, m, none) →
        ∃ cbs, answerCall S r (marOf S ver) st name args = ⟨ws ++ m.ending, none, st', cbs⟩ := by
      intro ws m hp
      unfold answerCall
      rw [(processCall_eq r st name _).1 v st' hd]
      simp only [hp]
      exact ⟨_, rfl⟩
    cases hb : S.http.useBinary with
    | true =>
      rw [hb] at h
      simp only [if_true] at h
      obtain ⟨ws, hsent, hlen⟩ := h
      obtain ⟨m, hp, he⟩ := mar_bin hb hsent
      obtain ⟨cbs, ha⟩ := ha ws m hp
      rw [he, List.append_nil] at ha
      exact ⟨ws, cbs, _, ha, hlen, (C41_binary_first_write _ ver ws).2.1 v hsent, .binary hv hheld hsmall hload hsent, .value⟩
    | false =>
      rw [hb] at h
      simp only [Bool.false_eq_true, if_false] at h
      obtain ⟨hl, hlen⟩ := h
      obtain ⟨ws, root, h1, -⟩ := C29_document S.dbl ver a.2 (.response v) hsmall
        (XmlMarshaller.messageLeaves_mono (N := xmlNeed ver C.xml S.dbl) (fun _ h => h.1) (fun _ _ => trivial) (fun _ h => h.1) (fun _ _ => trivial) _ hl)
      obtain ⟨ws', m, hp, he⟩ := mar_xml hb h1
      obtain ⟨cbs, ha⟩ := ha ws' m hp
      rw [he] at ha
      exact ⟨ws, cbs, _, ha, hlen ws h1, xml_firstWrite _ _ _ _ h1, .xml S.dbl hv hsmall hload hl h1, .value⟩
  | error e =>
    obtain ⟨c, m, hw, hi, hu, h⟩ := h
    obtain ⟨m', a1, a2⟩ := answerFault_wire hw
    have ha : ∀ ws k, (marOf S ver).packAll S.side.cfg.strOk S.dbl [.packFault c m] = (ws, k, none) →
        ∃ cbs, answerCall S r (marOf S ver) st name args = ⟨ws ++ k.ending, none, st', cbs⟩ := by
      intro ws k hp
      unfold answerCall
      rw [(processCall_eq r st name _).2 e st' hd]
      simp only [Remote.answerExn, a1, a2, hp, List.nil_append]
      exact ⟨_, rfl⟩
    cases hb : S.http.useBinary with
    | true =>
      rw [hb] at h
      simp only [if_true] at h
      obtain ⟨hm, hstr, hlen⟩ := h
      obtain ⟨ws, hsent, -⟩ := C03_fault_roundtrip S.side.cfg ver hv.1 .response (by decide) c hi m hm hstr
      obtain ⟨k, hp, he⟩ := mar_bin hb hsent
      obtain ⟨cbs, ha⟩ := ha ws k hp
      rw [he, List.append_nil] at ha
      exact ⟨ws, cbs, _, ha, hlen ws hsent, (C41_binary_first_write _ ver ws).2.2 c m hsent, .binaryFault hv hi hm hstr hu hsent, .fault hw⟩
    | false =>
      rw [hb] at h
      simp only [Bool.false_eq_true, if_false] at h
      obtain ⟨hx, hcr, hlen⟩ := h
      have hmin : (Message.fault c m).Leaves (xmlNeed ver C.xml S.dbl) := by
        refine ⟨⟨⟨?_, fun h => absurd hv.2 (UInt8.not_le.2 h)⟩, ?_⟩, hx, hcr⟩
        · unfold IsI32 at hi; omega
        · unfold IsI32 at hi
          exact ⟨by unfold IsI64; omega, fun _ => by omega⟩
      obtain ⟨ws, root, h1, -⟩ := C29_document S.dbl ver a.2 (.fault c m) trivial
        (XmlMarshaller.messageLeaves_mono (N := xmlNeed ver C.xml S.dbl) (fun _ h => h.1) (fun _ _ => trivial) (fun _ h => h.1) (fun _ _ => trivial) _ hmin)
      obtain ⟨ws', k, hp, he⟩ := mar_xml hb h1
      obtain ⟨cbs, ha⟩ := ha ws' k hp
      rw [he] at ha
      exact ⟨ws, cbs, _, ha, hlen ws h1, xml_firstWrite _ _ _ _ h1, .xmlFault S.dbl hv hi hu hmin h1, .fault hw⟩

/-- What the server does with a call that it has read. -/
def answered (S : Server) (r : Reg σ) (x : State σ) (srv : Srv) (id n : Nat) (ver : Version) (name : Bytes) (args : List Value) (down : List SEv) : Bytes × State σ :=
  match (answerCall S r (marOf S ver) x.st name args).thrown with
  | some _ => ([], ⟨(answerCall S r (marOf S ver) x.st name args).state, srv, some (id, none)⟩)
  | none => send S (answerCall S r (marOf S ver) x.st name args).state srv id (n + 1) S.custom (answerCall S r (marOf S ver) x.st name args).writes down

/-- One call over any network, in detail. -/
theorem call_split {C : PyProxy.Conf τ} {S : Server} (hok : PyCppCompatible C S) (r : Reg σ) (p : PyProxy.State τ) (x : State σ) (hl : Joined p.px x)
    (hp : ClientOk (PyProxy.clientOf C p.px)) (hv : p.px.version.Full) (name : Bytes) (args : List Py) (vs : List Value)
    (hc : PyCppCall C S (Proxy.chooseBinary p.px) p.px.version name args vs) (net : Remote.Net) :
    ∃ o p' x' made, remoteCall C S r p x name args net = (o, p', x') ∧ p.px.made ≤ made ∧
    ((PyFailed o ∧ p'.px = { p.px with once := [], sock := none, made := made } ∧ x'.st = x.st ∧ (x' = x ∨ ∃ id c, x'.last = some (id, c) ∧ id < made)) ∨
     (∃ (sk : Proxy.Sock) (n : Nat) (srv : Srv) (ver : Version) (t : Bytes × State σ), sk.id < made ∧ Tail sk.unread ∧ (ver = p.px.version ∨ ver = ⟨2, 1⟩) ∧ srv.outType = outOf S ∧
        t = answered S r x srv sk.id n ver name (plainItemsWith (carried S.side.cfg (Proxy.chooseBinary p.px) p.px.version) vs) net.down ∧ x' = t.2 ∧
        ((PyFailed o ∧ p'.px = { p.px with once := [], sock := none, made := made }) ∨
         (∃ q conn2 early, readResponse (-1, -1) (PyProxy.feed C) (PyProxy.finish C) p.px.cfg.keepAlive ⟨sk.unread ++ t.1, net.back, []⟩ = (.ok q, conn2) ∧
           o = PyProxy.ofBuilder (PyProxy.built C q.kind q.body) ∧
           p'.px =
             { p.px with once := [], made := made, sock := if q.close || early then none else some ⟨sk.id, conn2.data⟩, supports := q.accepts.getD (true, false), version := PyProxy.version C q.kind q.body })))) := by
  obtain ⟨ws, hpack, hlen, hdec⟩ := call_decodes (compatible hok) hv hc.travels
  have hdec := hdec (PyProxy.clientOf C p.px).path
  have hpack : Proxy.packCall C.strOk C.dbl (Proxy.chooseBinary p.px) p.px.version name vs = (ws, none) := hpack
  obtain ⟨_, _, _, _, _, _, hfirst⟩ := PyProxy.pack_call C hv hpack
  have hcall := PyRemote.call_any hv hc.noNul hc.means hc.small hpack
  obtain ⟨sk, made, h1, hid, hmade, hun⟩ := connect_joined hl net
  have hconn : connection p.px x net = sk.id := by unfold connection; rw [h1]
  obtain ⟨user', hu⟩ := hcall (turnWith p.px x net (fun b => (turn S r x sk.id b net.arrive net.down).1))
  rw [h1] at hu
  simp only at hu
  obtain ⟨mm, hm⟩ : ∃ mm, message (clientConf (PyProxy.clientOf C p.px)) ws (.init ⟨net.up, []⟩) = mm := ⟨_, rfl⟩
  have hm' : message (clientConf (PyProxy.clientOf C p.px)) ws (.init ⟨(turnWith p.px x net (fun b => (turn S r x sk.id b net.arrive net.down).1)).up, []⟩) = mm := hm
  rw [hm'] at hu
  obtain ⟨m, w⟩ := mm
  have ht := Remote.turn_heard r x (PyProxy.clientOf C p.px) hp p.px.version hv name _ net.up ws hlen hfirst hdec m w hm sk.id net.arrive net.down
  have hrc : ∀ o q, PyProxy.afterSend C { p.px with once := [], made := made } sk (m, w) none (turnWith p.px x net (fun b => (turn S r x sk.id b net.arrive net.down).1)) =
      (o, q, some (sk.id, w.wire.sent)) → remoteCall C S r p x name args net = (o, ⟨q, name, user' o⟩, (turn S r x sk.id w.wire.sent net.arrive net.down).2) := by
    intro o q h
    unfold remoteCall
    rw [hconn]
    simp only [hu, h]
  rcases PyRemote.afterSend_any C { p.px with once := [], made := made } sk (m, w) (turnWith p.px x net (fun b => (turn S r x sk.id b net.arrive net.down).1)) with
    ⟨o, ho, hs⟩ | ⟨q, conn2, early, hq, hs⟩
  · have := hrc _ _ hs
    rcases ht with ⟨x', t1, t2, t3⟩ | ⟨srv, n, ver, t1, t2, t3, t4⟩
    · rw [t1] at this
      exact ⟨_, _, _, made, this, hmade, .inl ⟨ho, rfl, t2, t3.imp id (fun ⟨c, h⟩ => ⟨sk.id, c, h, hid⟩)⟩⟩
    · have htail : Tail sk.unread := by
        rcases hun with h | h
        · exact h
        · rw [t1] at h; cases h.1
      exact ⟨_, _, _, made, this, hmade, .inr ⟨sk, n, srv, ver, _, hid, htail, t2, t3, rfl, by rw [t4]; rfl, .inl ⟨ho, rfl⟩⟩⟩
  · have := hrc _ _ hs
    have hq : readResponse (-1, -1) (PyProxy.feed C) (PyProxy.finish C) p.px.cfg.keepAlive
      ⟨sk.unread ++ (turn S r x sk.id w.wire.sent net.arrive net.down).1, net.back, []⟩ = (.ok q, conn2) := hq
    rcases ht with ⟨x', t1, t2, t3⟩ | ⟨srv, n, ver, t1, t2, t3, t4⟩
    · rw [t1, List.append_nil] at hq
      exact absurd hq (readResponse_nothing _ _ _ _ _ (hun.imp id (fun h => h.2)) _ _ _ _)
    · have htail : Tail sk.unread := by
        rcases hun with h | h
        · exact h
        · rw [t1] at h; cases h.1
      rw [t4] at hq
      exact ⟨_, _, _, made, this, hmade, .inr ⟨sk, n, srv, ver, _, hid, htail, t2, t3, rfl, by rw [t4]; rfl, .inr ⟨q, conn2, early, hq, rfl, rfl⟩⟩⟩

theorem answered_state (S : Server) (r : Reg σ) (x : State σ) (srv : Srv) (id n : Nat) (ver : Version) (name : Bytes) (args : List Value) (down : List SEv) :
    (answered S r x srv id n ver name args down).2.st = (dispatch r x.st name args).2 := by
  have := answerCall_state S r (marOf S ver) x.st name args
  unfold answered
  split
  · exact this
  · rw [send_state]; exact this

end PyToCpp

/-- **C130 (at most once).** One call of `fastrpc.ServerProxy` to a C++ server over any network (bytes lost in either direction at any place, timeouts, failures of system calls,
connections that the server has closed without the proxy seeing it), whatever the method returns or throws and whether or not that can be sent: the method is run once with the values
that the caller's arguments stand for, or it is not run; and if it is not run the caller gets neither an object nor a fault. -/
theorem C130_at_most_once {C : PyProxy.Conf τ} {S : Server} (hok : PyCppCompatible C S) (r : Reg σ) (p : PyProxy.State τ) (x : State σ) (hl : Joined p.px x)
    (hp : ClientOk (PyProxy.clientOf C p.px)) (hv : p.px.version.Full) (name : Bytes) (args : List Py) (vs : List Value)
    (hc : PyCppCall C S (Proxy.chooseBinary p.px) p.px.version name args vs) (net : Remote.Net) :
    let q := PyToCpp.remoteCall C S r p x name args net
    (q.2.2.st = x.st ∧ PyFailed q.1) ∨ q.2.2.st = (dispatch r x.st name (plainItemsWith (carried S.side.cfg (Proxy.chooseBinary p.px) p.px.version) vs)).2 := by
  obtain ⟨o, p', x', made, h1, -, h3⟩ := PyToCpp.call_split hok r p x hl hp hv name args vs hc net
  simp only [h1]
  rcases h3 with ⟨g1, -, g3, -⟩ | ⟨sk, n, srv, ver, t, -, -, -, -, g5, g6, -⟩
  · exact .inl ⟨g3, g1⟩
  · right
    rw [g6, g5, PyToCpp.answered_state]

namespace PyToCpp

/-- What stays true of the proxy and the server after a call. -/
structure After (p : Proxy.Proxy) (p' : Proxy.Proxy) (x' : State σ) : Prop where
  joined : Joined p' x'
  hurl : p'.url = p.url
  hcfg : p'.cfg = p.cfg
  version : p'.version = p.version ∨ p'.version = ⟨2, 1⟩
  once : p'.once = []
  permanent : p'.permanent = p.permanent

/-- One call over any network, with a result that can be sent. -/
theorem call_told {C : PyProxy.Conf τ} {S : Server} (hok : PyCppCompatible C S) (r : Reg σ) (p : PyProxy.State τ) (x : State σ) (hl : Joined p.px x)
    (hp : ClientOk (PyProxy.clientOf C p.px)) (hv : p.px.version.Full) (name : Bytes) (args : List Py) (vs : List Value)
    (hc : PyCppCall C S (Proxy.chooseBinary p.px) p.px.version name args vs) (net : Remote.Net)
    (ha : ∀ ver, ver = p.px.version ∨ ver = ⟨2, 1⟩ →
      CppPyAnswer C S ver (dispatch r x.st name (plainItemsWith (carried S.side.cfg (Proxy.chooseBinary p.px) p.px.version) vs)).1) :
    ∃ o p' x', remoteCall C S r p x name args net = (o, p', x') ∧ After p.px p'.px x' ∧
      ((PyFailed o ∧ x'.st = x.st) ∨
       (∃ d, dispatch r x.st name (plainItemsWith (carried S.side.cfg (Proxy.chooseBinary p.px) p.px.version) vs) = (d, x'.st) ∧
         (PyFailed o ∨ ∃ ver', (ver' = p.px.version ∨ ver' = ⟨2, 1⟩) ∧ CppPyGets (pyCarried C.opts S.http.useBinary ver') d o))) := by
  obtain ⟨o, p', x', made, h1, h2, h3⟩ := call_split hok r p x hl hp hv name args vs hc net
  refine ⟨o, p', x', h1, ?_⟩
  generalize hargs : plainItemsWith (carried S.side.cfg (Proxy.chooseBinary p.px) p.px.version) vs = args' at ha h3 ⊢
  rcases h3 with ⟨g1, g2, g3, g4⟩ | ⟨sk, n, srv, ver, t, g1, g2, g3, g4, g5, g6, g7⟩
  · refine ⟨?_, .inl ⟨g1, g3⟩⟩
    rw [g2]
    refine ⟨⟨fun s hs => (by cases hs), fun i c hi => ?_⟩, rfl, rfl, .inl rfl, rfl, rfl⟩
    rcases g4 with rfl | ⟨id, c', hx, hid⟩
    · have := hl.last i c hi
      show i < made
      omega
    · rw [hx] at hi; cases hi; exact hid
  · have hvf : ver.Full := by
      rcases g3 with h | h <;> rw [h]
      · exact hv
      · exact Web.full21
    obtain ⟨out, cbs, o2, a1, alen, afirst, atell, agets⟩ := answer_told hvf r x.st name args' (ha ver g3)
    obtain ⟨ms, hms⟩ : ∃ ms, message (serverConf ⟨srv.outType, S.http.useBinary, S.http.keepAlive, srv.chunks, S.custom⟩) out (.init ⟨net.down, []⟩) = ms := ⟨_, rfl⟩
    obtain ⟨ms, w2⟩ := ms
    have hturn : t = (w2.wire.sent, ⟨(dispatch r x.st name args').2, srv,
        some (sk.id, if ms = .ok () then (if stop S.http srv (n + 1) then none else some (n + 1)) else none)⟩) := by
      rw [g5]
      unfold answered
      rw [a1]
      simp only
      unfold send
      rw [hms]
      cases ms <;> rfl
    subst hturn
    have hx' : dispatch r x.st name args' = ((dispatch r x.st name args').1, x'.st) := by rw [g6]
    have hlst : ∀ i c, x'.last = some (i, c) → i < made := by
      intro i c hi
      rw [g6] at hi
      cases hi
      exact g1
    rcases g7 with ⟨f1, f2⟩ | ⟨q, conn2, early, f1, f2, f3⟩
    · refine ⟨?_, .inr ⟨_, hx', .inl f1⟩⟩
      rw [f2]
      exact ⟨⟨fun s hs => (by cases hs), hlst⟩, rfl, rfl, .inl rfl, rfl, rfl⟩
    · rw [g4] at hms
      obtain ⟨k1, k2, k3, k4, k5⟩ := response_cut (-1, -1) (PyProxy.feed C) (PyProxy.finish C) p.px.cfg.keepAlive
        ⟨outOf S, S.http.useBinary, S.http.keepAlive, srv.chunks, S.custom⟩ ⟨hok.custom, fun _ => hok.length⟩ (if S.http.useBinary = true then .binary else .xml)
        (by unfold outOf; cases S.http.useBinary <;> simp) out (by
          unfold LengthOk
          show out.flatten.length < if srv.chunks = true then _ else _
          split <;> omega) afirst net.down ms w2 hms sk.unread g2 net.back q conn2 f1
      obtain ⟨t1, t2⟩ := (PyProxy.tells_told hok.clientOpts hok.client atell).built q.body k3 k2
      rw [← k1] at t1 t2
      refine ⟨?_, .inr ⟨_, hx', .inr ⟨ver, g3, by rw [f2, t1]; exact agets⟩⟩⟩
      rw [f3]
      refine ⟨⟨fun s hs => ?_, hlst⟩, rfl, rfl, ?_, rfl, rfl⟩
      · simp only at hs ⊢
        split at hs
        · cases hs
        · cases hs
          refine ⟨g1, ?_⟩
          rcases k5 with h | ⟨h, h'⟩
          · exact .inl h
          · right
            refine ⟨?_, h'⟩
            rw [g6]
            unfold State.served
            simp [h]
      · show PyProxy.version C q.kind q.body = _ ∨ PyProxy.version C q.kind q.body = _
        rcases t2 with h | h
        · rw [h]; exact g3
        · exact .inr h

end PyToCpp

/-- **C130 (never a wrong answer).** One call of a Python client to a C++ server over any network, if what the method returns or throws can be sent: it is not run, and the caller gets
neither an object nor a fault; or it is run once with the values that the arguments stand for, and the caller gets neither, or the object that stands for the value that it returned
(date-times as far as the protocol carries them), or the fault for what it threw. The proxy and the server are again in a state from which this holds. -/
theorem C130_never_wrong {C : PyProxy.Conf τ} {S : Server} (hok : PyCppCompatible C S) (r : Reg σ) (p : PyProxy.State τ) (x : State σ) (hl : Joined p.px x)
    (hp : ClientOk (PyProxy.clientOf C p.px)) (hv : p.px.version.Full) (name : Bytes) (args : List Py) (vs : List Value)
    (hc : PyCppCall C S (Proxy.chooseBinary p.px) p.px.version name args vs) (net : Remote.Net)
    (ha : ∀ ver, ver = p.px.version ∨ ver = ⟨2, 1⟩ →
      CppPyAnswer C S ver (dispatch r x.st name (plainItemsWith (carried S.side.cfg (Proxy.chooseBinary p.px) p.px.version) vs)).1) :
    ∃ o p' x', PyToCpp.remoteCall C S r p x name args net = (o, p', x') ∧ Joined p'.px x' ∧
      ((PyFailed o ∧ x'.st = x.st) ∨
       (∃ d, dispatch r x.st name (plainItemsWith (carried S.side.cfg (Proxy.chooseBinary p.px) p.px.version) vs) = (d, x'.st) ∧
         (PyFailed o ∨ ∃ ver', (ver' = p.px.version ∨ ver' = ⟨2, 1⟩) ∧ CppPyGets (pyCarried C.opts S.http.useBinary ver') d o))) := by
  obtain ⟨o, p', x', h1, h2, h3⟩ := PyToCpp.call_told hok r p x hl hp hv name args vs hc net ha
  exact ⟨o, p', x', h1, h2.joined, h3⟩

/-! ## Sessions -/

/-- As `PyStepAny`, for a C++ server. -/
def PyCppStep (C : PyProxy.Conf τ) (S : Server) (cfg : Proxy.Config) : PyRemote.Step → Prop
  | .call name args headers _ => (∀ h ∈ headers, ∃ f, h = .pair f ∧ PyFieldOk f) ∧ ∃ vs, ∀ binary ver, Usable cfg.mode binary → Spoken cfg ver →
      PyCppCall C S binary ver name args vs ∧ DatesAllItems (fun d => carried S.side.cfg binary ver d = d) vs
  | .close => True

/-- The values that the arguments stand for, as they arrive. -/
def cppArrived (args : List Py) : List Value := plainItemsWith id ((Spec.Python.meansItems args).getD [])

/-- As `ResultsAny`, for a Python client. -/
def PyCppResults (C : PyProxy.Conf τ) (S : Server) (cfg : Proxy.Config) (r : Reg σ) : σ → List PyRemote.Step → Prop
  | _, [] => True
  | st, .call name args _ _ :: cs =>
    (∀ ver, Spoken cfg ver → CppPyAnswer C S ver (dispatch r st name (cppArrived args)).1 ∧
      ∀ v, (dispatch r st name (cppArrived args)).1 = .ok v → DatesAll (fun d => pyCarried C.opts S.http.useBinary ver d = d) v) ∧
    PyCppResults C S cfg r st cs ∧ PyCppResults C S cfg r (dispatch r st name (cppArrived args)).2 cs
  | st, .close :: cs => PyCppResults C S cfg r st cs

/-- The calls of a session. -/
def pyCppCalls : List PyRemote.Step → List (Bytes × List Value)
  | [] => []
  | .call name args _ _ :: cs => (name, cppArrived args) :: pyCppCalls cs
  | .close :: cs => pyCppCalls cs

/-- What the Python caller of several C++ methods sees, and the state they leave, when each is run at most once: a call that is lost is not run and fails; of a call that is not heard
of the method is run once, and the call fails; a call that is done gives what the local call gives. -/
inductive PyCppAtMostOnce (r : Reg σ) : σ → List (Bytes × List Value) → List Outcome → σ → Prop
  | nil {st} : PyCppAtMostOnce r st [] [] st
  | lost {st st2 name args o cs os} : PyFailed o → PyCppAtMostOnce r st cs os st2 → PyCppAtMostOnce r st ((name, args) :: cs) (o :: os) st2
  | unheard {st st1 st2 name args d o cs os} : dispatch r st name args = (d, st1) → PyFailed o → PyCppAtMostOnce r st1 cs os st2 →
      PyCppAtMostOnce r st ((name, args) :: cs) (o :: os) st2
  | done {st st1 st2 name args d o cs os} : dispatch r st name args = (d, st1) → CppPyGets id d o → PyCppAtMostOnce r st1 cs os st2 →
      PyCppAtMostOnce r st ((name, args) :: cs) (o :: os) st2

namespace PyToCpp

theorem session_any {C : PyProxy.Conf τ} {S : Server} (hok : PyCppCompatible C S) (url : Url.Url) (cfg : Proxy.Config)
    (hurl : ClientOk (clientFor url cfg.http10 true cfg.keepAlive false [])) (hv : cfg.version.Full) (r : Reg σ) : ∀ (cs : List PyRemote.Step) (p : PyProxy.State τ) (x : State σ),
      PyRemote.Ready url cfg p.px → Joined p.px x → (∀ c ∈ cs, PyCppStep C S cfg c) → PyCppResults C S cfg r x.st cs →
      PyCppAtMostOnce r x.st (pyCppCalls cs) (session C S r p x cs).1 (session C S r p x cs).2.2.st
  | [], _, _, _, _, _, _ => .nil
  | .close :: cs, p, x, hr, hl, hs, ho => by
    have ih := session_any hok url cfg hurl hv r cs { p with px := { p.px with sock := none } } x ⟨hr.hurl, hr.hcfg, hr.version, hr.fields⟩
      ⟨fun s h => (by cases h), hl.last⟩ (fun c hc => hs c (by simp [hc])) ho
    exact ih
  | .call name args headers net :: cs, p, x, hr, hl, hs, ho => by
    obtain ⟨hh, vs, hc⟩ : PyCppStep C S cfg (.call name args headers net) := hs _ (by simp)
    obtain ⟨f1, f2⟩ := PyRemote.feedHeaders_ok headers hh p.px.once (fun f hf => hr.fields f (by simp [hf]))
    generalize hy : ({ p with px := { p.px with once := (PyProxy.feedHeaders headers p.px.once).2 } } : PyProxy.State τ) = y
    have hry : PyRemote.Ready url cfg y.px := by
      rw [← hy]
      refine ⟨hr.hurl, hr.hcfg, hr.version, fun f hf => ?_⟩
      rcases List.mem_append.1 hf with hf | hf
      · exact hr.fields f (List.mem_append.2 (.inl hf))
      · exact f2 f hf
    have hly : Joined y.px x := by
      rw [← hy]
      exact ⟨hl.clean, hl.last⟩
    have hu := chooseBinary_usable y.px
    rw [hry.hcfg] at hu
    obtain ⟨hc1, hc2⟩ := hc (Proxy.chooseBinary y.px) y.px.version hu hry.version
    have hsp : ∀ ver, ver = y.px.version ∨ ver = ⟨2, 1⟩ → Spoken cfg ver := by
      rintro ver (h | h)
      · rw [h]; exact hry.version
      · exact .inr h
    have hfull : y.px.version.Full := by
      rcases hry.version with h | h
      · rw [h]; exact hv
      · rw [h]; exact Web.full21
    have hargs : plainItemsWith (carried S.side.cfg (Proxy.chooseBinary y.px) y.px.version) vs = cppArrived args := by
      unfold cppArrived
      rw [hc1.means, Option.getD_some, plainWith_congrItems _ id vs hc2]
    have hclient : ClientOk (PyProxy.clientOf C y.px) := by
      refine ⟨?_, ?_, fun f hf => (hry.fields f hf).1, fun _ f hf => (hry.fields f hf).2⟩
      · have := hurl.path
        unfold PyProxy.clientOf
        rw [hry.hurl]
        exact this
      · have := hurl.host
        unfold PyProxy.clientOf
        rw [hry.hurl]
        exact this
    obtain ⟨hres, hrest0, hrest1⟩ := ho
    obtain ⟨o, p', x', h2, h3, h4⟩ := call_told hok r y x hly hclient hfull name args vs hc1 net
      (fun ver hver => by rw [hargs]; exact (hres ver (hsp ver hver)).1)
    rw [hargs] at h4
    have ih := session_any hok url cfg hurl hv r cs p' x' ⟨h3.hurl.trans hry.hurl, h3.hcfg.trans hry.hcfg, h3.version.elim (fun h => by rw [h]; exact hry.version) .inr, by
      rw [h3.once, h3.permanent, List.append_nil]
      exact fun f hf => hry.fields f (by simp [hf])⟩ h3.joined (fun c hc => hs c (by simp [hc]))
    simp only [session, step, f1, if_true, hy, h2, List.singleton_append]
    rcases h4 with ⟨g1, g2⟩ | ⟨d, g1, g2⟩
    · rw [← g2] at hrest0 ⊢
      exact .lost g1 (ih hrest0)
    · rw [g1] at hrest1 hres
      rcases g2 with g2 | ⟨ver', hver', g2⟩
      · exact .unheard g1 g2 (ih hrest1)
      · refine .done g1 ?_ (ih hrest1)
        cases g2 with
        | fault hw => exact .fault hw
        | value =>
          rw [plainWith_congr _ id _ ((hres ver' (hsp ver' hver')).2 _ rfl)]
          exact .value

end PyToCpp

/-- **C130 (a session).** Any number of calls through one Python proxy to a C++ server, over a network that may do anything to each of them, whatever its mode, its keep-alive and its
HTTP version, whatever header fields are given with calls, and wherever the user closes the connection: each call is run at most once, in the order of the calls; each gives neither an
object nor a fault, or what the local call gives at that place; none that was not run gives an object or a fault. -/
theorem C130_session {C : PyProxy.Conf τ} {S : Server} (hok : PyCppCompatible C S) (url : Url.Url) (cfg : Proxy.Config)
    (hurl : ClientOk (clientFor url cfg.http10 true cfg.keepAlive false [])) (hv : cfg.version.Full) (r : Reg σ) (last : Bytes) (user : τ) (st : σ) (srv : Srv) (cs : List PyRemote.Step)
    (hs : ∀ c ∈ cs, PyCppStep C S cfg c) (ho : PyCppResults C S cfg r st cs) :
    let q := PyToCpp.session C S r ⟨Proxy.new url cfg, last, user⟩ ⟨st, srv, none⟩ cs
    PyCppAtMostOnce r st (pyCppCalls cs) q.1 q.2.2.st :=
  PyToCpp.session_any hok url cfg hurl hv r cs ⟨Proxy.new url cfg, last, user⟩ ⟨st, srv, none⟩ ⟨rfl, rfl, .inl rfl, by simp [Proxy.new]⟩ ⟨by simp [Proxy.new], by simp⟩ hs ho

/-! ## Witnesses -/

/-- A call that goes well, one that is lost, one that is not heard of, one whose answer is cut, and one whose method throws. -/
def pyCppSteps : List PyRemote.Step :=
  [.call (asc "add") [.int 1] [] quickNet, .call (asc "add") [.int 1] [.pair (asc "X-A", asc "1")] lostNet, .call (asc "add") [.int 1] [] unheardNet, .close,
   .call (asc "add") [.int 1] [] cutNet, .call (asc "get") [] [] quickNet]

theorem pyCpp_add (b : Bool) (headers : List PyProxy.Given) (hh : ∀ h ∈ headers, ∃ f, h = .pair f ∧ PyFieldOk f) (net : Remote.Net) :
    PyCppStep pyProxyConf (exampleServer b) exampleRemoteCfg (.call (asc "add") [.int 1] headers net) := by
  refine ⟨hh, [.int 1], fun binary ver hu hver => ?_⟩
  obtain ⟨h1, h2⟩ : CallTravels exampleRemoteClient (exampleServer b) binary ver (asc "add") [.int 1] ∧ _ := step_add b net binary ver hu hver
  exact ⟨⟨by decide +kernel, by simp [Spec.Python.means, Spec.Python.meansItems], by simp [Spec.Python.Small, Spec.Python.SmallItems], h1⟩, h2⟩

theorem pyCpp_get (b : Bool) (net : Remote.Net) : PyCppStep pyProxyConf (exampleServer b) exampleRemoteCfg (.call (asc "get") [] [] net) := by
  refine ⟨by simp, [], fun binary ver hu hver => ?_⟩
  obtain ⟨h1, h2⟩ : CallTravels exampleRemoteClient (exampleServer b) binary ver (asc "get") [] ∧ _ := step_get b net binary ver hu hver
  exact ⟨⟨by decide +kernel, by simp [Spec.Python.meansItems], by simp [Spec.Python.SmallItems], h1⟩, h2⟩

theorem pyCpp_steps (b : Bool) : ∀ c ∈ pyCppSteps, PyCppStep pyProxyConf (exampleServer b) exampleRemoteCfg c := by
  intro c hc
  simp only [pyCppSteps, List.mem_cons, List.not_mem_nil, or_false] at hc
  rcases hc with rfl | rfl | rfl | rfl | rfl | rfl
  · exact pyCpp_add b [] (by simp) _
  · refine pyCpp_add b _ ?_ _
    intro h hh
    rw [List.mem_singleton] at hh
    subst hh
    exact ⟨_, rfl, by unfold PyFieldOk FieldOk; decide +kernel⟩
  · exact pyCpp_add b [] (by simp) _
  · trivial
  · exact pyCpp_add b [] (by simp) _
  · exact pyCpp_get b _

theorem pyCpp_results (b : Bool) (st : Nat) : PyCppResults pyProxyConf (exampleServer b) exampleRemoteCfg (Registry.built false true sampleOps) st pyCppSteps := by
  have hadd : ∀ st ver, Spoken exampleRemoteCfg ver → CppPyAnswer pyProxyConf (exampleServer b) ver (dispatch (Registry.built false true sampleOps) st (asc "add") (cppArrived [.int 1])).1 ∧
      ∀ v, (dispatch (Registry.built false true sampleOps) st (asc "add") (cppArrived [.int 1])).1 = .ok v →
        DatesAll (fun d => pyCarried pyProxyConf.opts (exampleServer b).http.useBinary ver d = d) v := by
    intro st ver hver
    have ha : cppArrived [.int 1] = [.int 1] := by simp [cppArrived, Spec.Python.means, Spec.Python.meansItems, plainItemsWith, plainWith]
    rw [ha]
    obtain ⟨⟨h1, h2, h3⟩, -⟩ : AnswerTravels exampleRemoteClient (exampleServer b) ver (.ok (.int 1)) ∧ _ := results_add b st ver hver
    refine ⟨?_, ?_⟩
    · show CppPyAnswer _ _ _ (.ok (.int 1))
      refine ⟨h1, h2, by simp [Loadable], ?_⟩
      cases b with
      | true => exact h3
      | false => exact ⟨h3.1, h3.2.2⟩
    · intro v hv
      have : v = .int 1 := by cases hv; rfl
      subst this
      simp [DatesAll]
  have hget : ∀ st ver, Spoken exampleRemoteCfg ver → CppPyAnswer pyProxyConf (exampleServer b) ver (dispatch (Registry.built false true sampleOps) st (asc "get") (cppArrived [])).1 ∧
      ∀ v, (dispatch (Registry.built false true sampleOps) st (asc "get") (cppArrived [])).1 = .ok v →
        DatesAll (fun d => pyCarried pyProxyConf.opts (exampleServer b).http.useBinary ver d = d) v := by
    intro st ver hver
    have ha : cppArrived [] = [] := by simp [cppArrived, Spec.Python.meansItems, plainItemsWith]
    rw [ha]
    obtain ⟨⟨c, m, h1, h2, h3⟩, -⟩ : AnswerTravels exampleRemoteClient (exampleServer b) ver (.error (.index (asc "no"))) ∧ _ := results_get b st ver hver
    refine ⟨?_, fun v hv => by cases hv⟩
    show CppPyAnswer _ _ _ (.error (.index (asc "no")))
    refine ⟨c, m, h1, h2, ?_, h3⟩
    cases h1
    decide +kernel
  have h0 : ∀ st, PyCppResults pyProxyConf (exampleServer b) exampleRemoteCfg (Registry.built false true sampleOps) st [.call (asc "get") [] [] quickNet] :=
    fun st => ⟨hget st, trivial, trivial⟩
  have h1 : ∀ hs net cs, (∀ st, PyCppResults pyProxyConf (exampleServer b) exampleRemoteCfg (Registry.built false true sampleOps) st cs) →
      ∀ st, PyCppResults pyProxyConf (exampleServer b) exampleRemoteCfg (Registry.built false true sampleOps) st (.call (asc "add") [.int 1] hs net :: cs) :=
    fun hs net cs h st => ⟨hadd st, h _, h _⟩
  have h2 : ∀ cs, (∀ st, PyCppResults pyProxyConf (exampleServer b) exampleRemoteCfg (Registry.built false true sampleOps) st cs) →
      ∀ st, PyCppResults pyProxyConf (exampleServer b) exampleRemoteCfg (Registry.built false true sampleOps) st (.close :: cs) := fun cs h st => h st
  exact h1 _ _ _ (h1 _ _ _ (h1 _ _ _ (h2 _ (h1 _ _ _ h0)))) st

theorem pyCpp_compatible (b : Bool) : PyCppCompatible pyProxyConf (exampleServer b) :=
  ⟨XmlParser.eager_conforms, XmlParser.eager_conforms, ⟨rfl, rfl⟩, rfl, fun f h => (by cases h), fun f h => (by cases h)⟩

example (b : Bool) : PyCppAtMostOnce (Registry.built false true sampleOps) 7 (pyCppCalls pyCppSteps)
    (PyToCpp.session pyProxyConf (exampleServer b) (Registry.built false true sampleOps) ⟨Proxy.new exampleUrl exampleRemoteCfg, [], 0⟩ ⟨7, ⟨.xml, false, false, false⟩, none⟩ pyCppSteps).1
    (PyToCpp.session pyProxyConf (exampleServer b) (Registry.built false true sampleOps) ⟨Proxy.new exampleUrl exampleRemoteCfg, [], 0⟩ ⟨7, ⟨.xml, false, false, false⟩, none⟩ pyCppSteps).2.2.st :=
  C130_session (pyCpp_compatible b) exampleUrl exampleRemoteCfg
    (by refine ⟨?_, ?_, ?_, ?_⟩ <;> first | decide +kernel | (intro f hf; cases hf) | (intro h; cases h)) ⟨by unfold Version.Known; decide, by decide⟩ _ [] 0 7 _ pyCppSteps (pyCpp_steps b)
    (pyCpp_results b 7)

/-- What a caller got, for the witness: 0 an object, 1 a fault, 2 another exception. -/
def pyKind : Outcome → Nat
  | .value _ => 0
  | .raised (.fault _ _) => 1
  | .raised _ => 2
  | _ => 3

/-- The first call is done; the second is lost; the third and the fourth are run and not heard of; the last is done, and gives the fault. -/
example (b : Bool) : ((PyToCpp.session pyProxyConf (exampleServer b) (Registry.built false true sampleOps) ⟨Proxy.new exampleUrl exampleRemoteCfg, [], 0⟩ ⟨7, ⟨.xml, false, false, false⟩, none⟩
      pyCppSteps).1.map pyKind,
    (PyToCpp.session pyProxyConf (exampleServer b) (Registry.built false true sampleOps) ⟨Proxy.new exampleUrl exampleRemoteCfg, [], 0⟩ ⟨7, ⟨.xml, false, false, false⟩, none⟩ pyCppSteps).2.2.st) =
    ([0, 2, 2, 2, 1], 10) := by
  cases b <;> decide +kernel

end Frpc
