import Verif.Proofs.PyProxy
import Verif.Props.Proxy
/-!
# The Python client: C116, C117, C118
-/
namespace Frpc
open HttpIO HttpOut HttpServer Spec Spec.Http Spec.Web Spec.Proxy Spec.XmlRpc Remote
open Python (Py PB)
open PyProxy (Outcome Raised)
open Spec.Python (shows Loadable)
open Spec.Xml (IsDocument)
variable {σ : Type}

/-- What the data of a response say, in that format, to a Python caller. The server may be this library, at any version with all types, in the binary protocol or in XML, or any
XML-RPC server whose document says nothing of a version. The strings are UTF-8; a value becomes the object that stands for it, a fault an exception. -/
inductive PyTells (S : PyProxy.Conf σ) : HttpServer.Kind → Bytes → Outcome → Version → Prop
  | binary {strOk ver v ws} : ver.Full → Held v → Small v → Loadable v → sendResponse strOk ver v = (ws, none) →
      PyTells S .binary ws.flatten (.value (shows (plainWith (Python.gotDate S.opts ver) v))) ver
  | binaryFault {strOk ver code msg ws} : ver.Full → IsI32 code → msg.length < 2 ^ 30 → strOk msg = true → isUtf8 msg = true → sendFault strOk ver code msg = (ws, none) →
      PyTells S .binary ws.flatten (.raised (.fault code msg)) ver
  | xml {ver v ws} (dbl : BitVec 64 → Bytes) : ver.Full → Small v → Loadable v → (Message.response v).Leaves (xmlNeed ver S.xml dbl) →
      XmlMarshaller.run dbl ver (XmlMarshaller.ops (.response v)) = (ws, none) →
      PyTells S .xml ws.flatten (.value (shows (plainWith (Python.xmlDate S.opts) v))) ver
  | xmlFault {ver code msg ws} (dbl : BitVec 64 → Bytes) : ver.Full → IsI32 code → isUtf8 msg = true → (Message.fault code msg).Leaves (xmlNeed ver S.xml dbl) →
      XmlMarshaller.run dbl ver (XmlMarshaller.ops (.fault code msg)) = (ws, none) →
      PyTells S .xml ws.flatten (.raised (.fault code msg)) ver
  | document {v doc root} : Loadable v → IsDocument Spec.Xml.xmlChar doc root → (Message.response v).Is (XmlUnMarshaller.understood S.xml.strtod) root →
      (Message.response v).IntsAll (XmlUnMarshaller.readable S.xml.erange) → Web.Unversioned doc →
      PyTells S .xml doc (.value (shows (plainWith (Python.xmlDate S.opts) v))) ⟨2, 1⟩
  | documentFault {code msg doc root} : IsI32 code → isUtf8 msg = true → IsDocument Spec.Xml.xmlChar doc root →
      (Message.fault code msg).Is (XmlUnMarshaller.understood S.xml.strtod) root → Web.Unversioned doc →
      PyTells S .xml doc (.raised (.fault code msg)) ⟨2, 1⟩

/-- A call that can be sent as the proxy is: what it keeps of a connection was read to the end, its version has all types, its URL and header fields can be written in a header,
the arguments stand for values that the marshaller of the protocol takes, and that gives `ws`. -/
structure PyCanCall (S : PyProxy.Conf σ) (x : PyProxy.State σ) (name : Bytes) (args : List Py) (vs : List Value) (ws : List Bytes) : Prop where
  clean : ∀ s, x.px.sock = some s → s.unread = []
  version : x.px.version.Full
  header : ClientOk (PyProxy.clientOf S x.px)
  noNul : (0 : UInt8) ∉ name
  means : Spec.Python.meansItems args = some vs
  small : Spec.Python.SmallItems args ∧ args.length < 2 ^ 30
  packed : Proxy.packCall S.strOk S.dbl (Proxy.chooseBinary x.px) x.px.version name vs = (ws, none)
  length : LengthOk (PyProxy.clientOf S x.px).chunks ws

/-- The network connects, takes all bytes, in whatever pieces, and brings nothing but the reply, in whatever pieces. -/
structure PyDelivers (t : Proxy.Turn) : Prop where
  connect : t.connect = true
  arrived : t.arrived = []
  up : CalmOut true t.up
  back : Calm t.back

/-- The bytes are a request of the proxy for a call that is marshalled as `ws`: well formed, for the proxy's path, in its protocol and version of HTTP, with its header fields at
the end of the header. -/
def PyIsRequest (S : PyProxy.Conf σ) (x : PyProxy.State σ) (ws : List Bytes) (bytes : Bytes) : Prop :=
  ∃ q : Post, bytes = q.text ∧ q.Ok ∧ q.Kind (if Proxy.chooseBinary x.px then .binary else .xml) ∧ q.data = ws.flatten ∧ q.path = (PyProxy.clientOf S x.px).path ∧
    q.http11 = !x.px.cfg.http10 ∧ (q.Stays ↔ x.px.cfg.keepAlive = true) ∧ field (asc "Accept") q.fields = some (asc "text/xml, application/x-frpc") ∧
    (x.px.permanent ++ x.px.once).map (fun f => (f.1, trim f.2)) <:+ q.fields

namespace PyProxy

theorem tells_told {S : PyProxy.Conf σ} (hp : Python.Plain S.opts) (hP : Spec.Xml.Conforms S.parser) {k : HttpServer.Kind} {data : Bytes} {o : Outcome} {ver : Version}
    (h : PyTells S k data o ver) : Told S k data o (fun v => v = ver ∨ v = ⟨2, 1⟩) := by
  cases h with
  | binary h1 h2 h3 h4 h5 => exact (told_binary S hp h1 h2 h3 h4 h5).mono (fun _ h => .inl h)
  | binaryFault h1 h2 h3 h4 h5 h6 => exact (told_fault S h1 h2 h3 h4 h5 h6).mono (fun _ h => .inl h)
  | xml dbl h1 h2 h3 h4 h5 =>
    rename_i v ws
    obtain ⟨pb, a1, a2⟩ := xml_response hp v h3
    exact told_own S hP h1 (msg := .response v) (.inl rfl) h2 dbl h4 (XmlMarshaller.ints_of (N := xmlNeed ver S.xml dbl) (fun n h => h.2) v h4) h5 a1 a2
  | xmlFault dbl h1 h2 h3 h4 h5 =>
    rename_i code msg ws
    obtain ⟨pb, a1, a2⟩ := xml_fault S.opts code msg h3
    exact told_own S hP h1 (msg := .fault code msg) (.inl rfl) trivial dbl h4 h2 h5 a1 a2
  | document h1 h2 h3 h4 h5 =>
    rename_i v root
    obtain ⟨pb, a1, a2⟩ := xml_response hp v h1
    exact (told_document S hP (msg := .response v) (.inl rfl) h2 h3 h4 h5 a1 a2).mono (fun _ h => .inr h)
  | documentFault h1 h2 h3 h4 h5 =>
    rename_i code msg root
    obtain ⟨pb, a1, a2⟩ := xml_fault S.opts code msg h2
    exact (told_document S hP (msg := .fault code msg) (.inl rfl) h3 h4 h1 h5 a1 a2).mono (fun _ h => .inr h)

theorem tells_full {S : PyProxy.Conf σ} {k : HttpServer.Kind} {data : Bytes} {o : Outcome} {ver : Version} (h : PyTells S k data o ver) : ver.Full := by
  cases h <;> first | assumption | exact Web.full21

/-- The connection that a call uses is empty. -/
theorem connect_clean {p : Proxy.Proxy} (h : ∀ s, p.sock = some s → s.unread = []) {t : Proxy.Turn} (hc : t.connect = true) (ha : t.arrived = []) :
    ∃ id made, Proxy.connectSocket p t = (some ⟨id, []⟩, made) := by
  unfold Proxy.connectSocket
  simp only [hc, if_true, ha, List.append_nil]
  cases hs : p.sock with
  | none => exact ⟨_, _, rfl⟩
  | some s =>
    simp only [h s hs, true_and]
    by_cases h1 : p.cfg.keepAlive = false
    · exact ⟨_, _, by rw [if_pos h1]⟩
    · by_cases h2 : t.broken = true
      · exact ⟨_, _, by rw [if_neg h1, if_pos h2]⟩
      · by_cases h3 : t.closed = true
        · exact ⟨_, _, by rw [if_neg h1, if_neg h2, if_pos h3]⟩
        · exact ⟨_, _, by rw [if_neg h1, if_neg h2, if_neg h3]⟩

/-- A call that can be sent is sent, and then the answer is read. -/
theorem call_sent (S : PyProxy.Conf σ) (x : PyProxy.State σ) {name : Bytes} {args : List Py} {vs : List Value} {ws : List Bytes} (h : PyCanCall S x name args vs ws) (t : Proxy.Turn)
    (hc : t.connect = true) (ha : t.arrived = []) (hup : CalmOut true t.up) :
    ∃ id made w', Proxy.connectSocket { x.px with once := [] } t = (some ⟨id, []⟩, made) ∧ PyIsRequest S x ws w'.wire.sent ∧
      let r := afterSend S { x.px with once := [], made := made } ⟨id, []⟩ (.ok (), w') none t
      let d := runPre S x.user name args
      PyProxy.call S x name args t = (r.1, ⟨r.2.1, name, runPost S d.2 name args d.1 r.1⟩, r.2.2) := by
  obtain ⟨id, made, h1⟩ := connect_clean (p := { x.px with once := [] }) h.clean hc ha
  obtain ⟨m, ws', k, p1, p2, p3, p4⟩ := pack_call S h.version h.packed
  obtain ⟨w', q, g1, g2⟩ := client_post (clientOf S x.px) h.header ws h.length (fun _ => p4) t.up hup
  refine ⟨id, made, w', h1, ⟨q, g2⟩, ?_⟩
  simp only
  unfold PyProxy.call
  simp only [p1, script_means S h.noNul h.means h.small.1 h.small.2, p2, failure, Option.isSome_none, Bool.false_eq_true, if_false, p3]
  unfold PyProxy.exchange
  simp only [Option.isSome_none, Bool.false_eq_true, if_false, g1, h1]

end PyProxy

/-- **C116 (the request).** A call that can be sent sends one request, the whole of it and nothing else, whatever comes back: the call, in the proxy's protocol, in chunks or not. -/
theorem C116_request (S : PyProxy.Conf σ) (x : PyProxy.State σ) {name : Bytes} {args : List Py} {vs : List Value} {ws : List Bytes} (h : PyCanCall S x name args vs ws) (t : Proxy.Turn)
    (hc : t.connect = true) (ha : t.arrived = []) (hup : CalmOut true t.up) :
    ∃ id bytes, (PyProxy.call S x name args t).2.2 = some (id, bytes) ∧ PyIsRequest S x ws bytes := by
  obtain ⟨id, made, w', h1, h2, h3⟩ := PyProxy.call_sent S x h t hc ha hup
  refine ⟨id, w'.wire.sent, ?_, h2⟩
  simp only [h3]
  unfold PyProxy.afterSend
  simp only
  generalize readResponse (-1, -1) (PyProxy.feed S) (PyProxy.finish S) x.px.cfg.keepAlive _ = q
  obtain ⟨r, c⟩ := q
  cases r <;> rfl

namespace PyProxy

/-- The call and the reading of its answer in detail. -/
theorem call_read (S : PyProxy.Conf σ) (x : PyProxy.State σ) {name : Bytes} {args : List Py} {vs : List Value} {ws : List Bytes} (h : PyCanCall S x name args vs ws)
    (t : Proxy.Turn) (hn : PyDelivers t) :
    ∃ id made bytes, Proxy.connectSocket { x.px with once := [] } t = (some ⟨id, []⟩, made) ∧ PyIsRequest S x ws bytes ∧
      ∀ (d : Reply), d.Ok → d.status = 200 → ∀ (kind : HttpServer.Kind), ResponseIn ((field (asc "Content-Type") d.fields).getD []) kind →
      ∀ (o : Outcome) (V : Version → Prop), Told S kind d.data o V → ∀ rest : Bytes, t.reply bytes = d.text ++ rest →
      ∃ v supports, V v ∧ (field (asc "Accept") d.fields = none → supports = (true, false)) ∧
      (∀ a, field (asc "Accept") d.fields = some a → (supports.1 = true ↔ Contains (asc "text/xml") a) ∧ (supports.2 = true ↔ Contains (asc "application/x-frpc") a)) ∧
      ∃ sock, (x.px.cfg.keepAlive = true ∧ Persists d.http11 (field (asc "Connection") d.fields) → sock = some ⟨id, rest⟩) ∧
      (¬ (x.px.cfg.keepAlive = true ∧ Persists d.http11 (field (asc "Connection") d.fields)) → sock = none) ∧
      PyProxy.call S x name args t = (o, ⟨{ x.px with once := [], made := made, sock := sock, supports := supports, version := v }, name,
        runPost S (runPre S x.user name args).2 name args (runPre S x.user name args).1 o⟩, some (id, bytes)) := by
  obtain ⟨id, made, w', h1, h2, h3⟩ := PyProxy.call_sent S x h t hn.connect hn.arrived hn.up
  refine ⟨id, made, w'.wire.sent, h1, h2, fun d hd h200 kind hk o V tt rest hr => ?_⟩
  obtain ⟨r, s', g1, g2, g3, gne, g4, g5, g6, g7, g8⟩ := C74_any_response (-1, -1) (PyProxy.feed S) (PyProxy.finish S) x.px.cfg.keepAlive d.blank d.http11 d.reason hd.reason.1 hd.reason.2.1
    hd.reason.2.2 d.lines hd.lines d.fields hd.fields d.data d.body rest hd.framed hd.length (.inl (by decide)) (.inl (by decide))
    ⟨[] ++ t.reply w'.wire.sent, t.back, []⟩ hn.back (by
      show [] ++ t.reply w'.wire.sent = _
      rw [hr, List.nil_append]; unfold Reply.text; rw [h200, List.append_assoc]) kind hk tt.feed tt.finish
  obtain ⟨b1, b2⟩ := tt.built r.body gne g3
  rw [← g2] at b1 b2
  refine ⟨PyProxy.version S r.kind r.body, r.accepts.getD (true, false), b2, ?_, ?_, if r.close || false then none else some ⟨id, s'.data⟩, ?_, ?_, ?_⟩
  · intro hh
    simp [g7.2 hh]
  · intro a hh
    cases hx : r.accepts with
    | none => rw [g7.1 hx] at hh; cases hh
    | some q =>
      obtain ⟨a', e1, e2, e3⟩ := g8 q.1 q.2 hx
      rw [hh] at e1
      cases e1
      exact ⟨e2, e3⟩
  · intro hh
    simp [g6.2 hh, g4]
  · intro hh
    have : r.close = true := by
      cases hc : r.close with
      | true => rfl
      | false => exact absurd (g6.1 hc) hh
    simp [this]
  · simp only [h3]
    unfold PyProxy.afterSend
    simp only [g1, b1]

/-- The same for a given answer. -/
theorem call_answered (S : PyProxy.Conf σ) (x : PyProxy.State σ) {name : Bytes} {args : List Py} {vs : List Value} {ws : List Bytes} (h : PyCanCall S x name args vs ws)
    (t : Proxy.Turn) (hn : PyDelivers t) (d : Reply) (hd : d.Ok) (h200 : d.status = 200) {kind : HttpServer.Kind}
    (hk : ResponseIn ((field (asc "Content-Type") d.fields).getD []) kind) {o : Outcome} {V : Version → Prop} (tt : Told S kind d.data o V) (rest : Bytes)
    (hr : ∀ sent, PyIsRequest S x ws sent → t.reply sent = d.text ++ rest) :
    ∃ id made bytes v supports, Proxy.connectSocket { x.px with once := [] } t = (some ⟨id, []⟩, made) ∧ PyIsRequest S x ws bytes ∧ V v ∧
      (field (asc "Accept") d.fields = none → supports = (true, false)) ∧
      (∀ a, field (asc "Accept") d.fields = some a → (supports.1 = true ↔ Contains (asc "text/xml") a) ∧ (supports.2 = true ↔ Contains (asc "application/x-frpc") a)) ∧
      ∃ sock, (x.px.cfg.keepAlive = true ∧ Persists d.http11 (field (asc "Connection") d.fields) → sock = some ⟨id, rest⟩) ∧
      (¬ (x.px.cfg.keepAlive = true ∧ Persists d.http11 (field (asc "Connection") d.fields)) → sock = none) ∧
      PyProxy.call S x name args t = (o, ⟨{ x.px with once := [], made := made, sock := sock, supports := supports, version := v }, name,
        runPost S (runPre S x.user name args).2 name args (runPre S x.user name args).1 o⟩, some (id, bytes)) := by
  obtain ⟨id, made, bytes, h1, h2, h3⟩ := call_read S x h t hn
  obtain ⟨v, supports, g1, g2, g3, g4⟩ := h3 d hd h200 kind hk o V tt rest (hr bytes h2)
  exact ⟨id, made, bytes, v, supports, h1, h2, g1, g2, g3, g4⟩

end PyProxy

/-- **C116 (the answer).** The reply of any server to a call that can be sent: the caller gets what it says, a value as the objects that stand for it, a fault as an exception.
The proxy is ready for the next call: what it keeps of the connection is what came after the reply; its fields for one call are gone; it speaks the server's version. -/
theorem C116_answer (S : PyProxy.Conf σ) (hp : Python.Plain S.opts) (hP : Spec.Xml.Conforms S.parser) (x : PyProxy.State σ) {name : Bytes} {args : List Py} {vs : List Value} {ws : List Bytes}
    (h : PyCanCall S x name args vs ws) (t : Proxy.Turn) (hn : PyDelivers t) (d : Reply) (hd : d.Ok) (h200 : d.status = 200) {kind : HttpServer.Kind}
    (hk : ResponseIn ((field (asc "Content-Type") d.fields).getD []) kind) {o : Outcome} {ver : Version} (ht : PyTells S kind d.data o ver) (rest : Bytes)
    (hr : ∀ sent, PyIsRequest S x ws sent → t.reply sent = d.text ++ rest) :
    ∃ id bytes y, PyProxy.call S x name args t = (o, y, some (id, bytes)) ∧ PyIsRequest S x ws bytes ∧ y.last = name ∧ y.px.once = [] ∧ y.px.permanent = x.px.permanent ∧
      y.px.url = x.px.url ∧ y.px.cfg = x.px.cfg ∧ (y.px.version = ver ∨ y.px.version = ⟨2, 1⟩) ∧
      (x.px.cfg.keepAlive = true ∧ Persists d.http11 (field (asc "Connection") d.fields) → y.px.sock = some ⟨id, rest⟩) ∧
      (¬ (x.px.cfg.keepAlive = true ∧ Persists d.http11 (field (asc "Connection") d.fields)) → y.px.sock = none) ∧
      (field (asc "Accept") d.fields = none → y.px.supports = (true, false)) ∧
      (∀ a, field (asc "Accept") d.fields = some a → (y.px.supports.1 = true ↔ Contains (asc "text/xml") a) ∧ (y.px.supports.2 = true ↔ Contains (asc "application/x-frpc") a)) := by
  obtain ⟨id, made, bytes, v, supports, h1, h2, h3, h4, h5, sock, h6, h7, h8⟩ := PyProxy.call_answered S x h t hn d hd h200 hk (PyProxy.tells_told hp hP ht) rest hr
  exact ⟨id, bytes, _, h8, h2, rfl, rfl, rfl, rfl, rfl, h3, h6, h7, h4, h5⟩

/-- **C116 (errors of HTTP).** Any other status is an exception with that number; the connection is closed. -/
theorem C116_status (S : PyProxy.Conf σ) (x : PyProxy.State σ) {name : Bytes} {args : List Py} {vs : List Value} {ws : List Bytes} (h : PyCanCall S x name args vs ws) (t : Proxy.Turn)
    (hn : PyDelivers t) (d : Reply) (hd : d.Ok) (hno : d.status ≠ 200) (rest : Bytes) (hr : ∀ sent, PyIsRequest S x ws sent → t.reply sent = d.text ++ rest) :
    ∃ id bytes y, PyProxy.call S x name args t = (.raised (.protocol (some d.status)), y, some (id, bytes)) ∧ PyIsRequest S x ws bytes ∧ y.px.once = [] ∧ y.px.sock = none ∧
      y.px.version = x.px.version ∧ y.px.supports = x.px.supports := by
  obtain ⟨id, made, w', h1, h2, h3⟩ := PyProxy.call_sent S x h t hn.connect hn.arrived hn.up
  have g := C74_other_status (-1, -1) (PyProxy.feed S) (PyProxy.finish S) x.px.cfg.keepAlive d.blank d.http11 d.status hd.status hno d.reason hd.reason.1 hd.reason.2.1
    hd.reason.2.2 (.inl (by decide)) d.lines (d.body ++ rest) ⟨[] ++ t.reply w'.wire.sent, t.back, []⟩ hn.back (by
      show [] ++ t.reply w'.wire.sent = _
      rw [hr _ h2, List.nil_append]; unfold Reply.text; rw [List.append_assoc])
  generalize hq : readResponse (-1, -1) (PyProxy.feed S) (PyProxy.finish S) x.px.cfg.keepAlive ⟨[] ++ t.reply w'.wire.sent, t.back, []⟩ = q at g
  obtain ⟨q1, q2⟩ := q
  simp only at g
  subst g
  refine ⟨id, w'.wire.sent, ⟨{ x.px with once := [], made := made, sock := none }, name,
    PyProxy.runPost S (PyProxy.runPre S x.user name args).2 name args (PyProxy.runPre S x.user name args).1 (.raised (.protocol (some d.status)))⟩, ?_, h2, rfl, rfl, rfl, rfl⟩
  simp only [h3]
  unfold PyProxy.afterSend
  simp only [hq, PyProxy.ofRespErr]

/-! ## C117: what a failed call leaves behind -/

namespace HttpOut

/-- Writes that fit into the buffer are kept there. -/
theorem writes_within (c : Conf) : ∀ (ds : List Bytes) (w : Writer), w.back.length + ds.flatten.length ≤ 64512 →
    ∃ w', writes c ds w = (.ok (), w') ∧ w'.back = w.back ++ ds.flatten ∧ w'.headersSent = w.headersSent ∧ w'.wire = w.wire
  | [], w, _ => ⟨w, rfl, by simp, rfl, rfl⟩
  | d :: ds, w, h => by
    simp only [List.flatten_cons, List.length_append] at h
    have hov : oversize d.length w.back.length = false := by unfold oversize BUFFER; simp; omega
    obtain ⟨w', h1, h2, h3, h4⟩ := writes_within c ds { w with total := (w.total + d.length) % 2 ^ 32, back := w.back ++ d } (by simp only [List.length_append]; omega)
    refine ⟨w', ?_, by simpa using h2, h3, h4⟩
    rw [writes]
    unfold write
    simp only [hov, h1]

/-- Writes that fit, then one that does not, in chunks: the header and one chunk are sent. -/
theorem writes_begun (c : Conf) (hch : c.chunks = true) (H : Bytes) (hH : ∀ n, c.head n = H) (d : Bytes) (hd : 64512 ≤ d.length ∧ d.length < 2 ^ 63) : ∀ (ds : List Bytes) (w : Writer),
    w.back.length + ds.flatten.length ≤ 64512 → w.back ++ ds.flatten ≠ [] → w.headersSent = false → CalmOut c.watch w.wire.sched →
    ∃ w', writes c (ds ++ [d]) w = (.ok (), w') ∧ w'.headersSent = true ∧ w'.wire.sent = w.wire.sent ++ (H ++ chunk (w.back ++ ds.flatten))
  | [], w, h, hne, hs, hc => by
    simp only [List.flatten_nil, List.append_nil, List.length_nil, Nat.add_zero] at h hne
    have h0 : w.back.length ≠ 0 := by simpa using hne
    have hov : oversize d.length w.back.length = true := by unfold oversize BUFFER; simp; omega
    have hq : ∃ w1, sendChunk c false { w with total := (w.total + d.length) % 2 ^ 32 } = (.ok (), w1) ∧ w1.headersSent = true ∧ w1.wire.sent = w.wire.sent ++ (H ++ chunk w.back) := by
      obtain ⟨wire', k1, k2, -⟩ := sendData_calm c.watch (headOnce c { w with total := (w.total + d.length) % 2 ^ 32 } ++ hex w.back.length ++ asc "\r\n" ++ w.back ++ (if false then asc "\r\n0\r\n\r\n" else asc "\r\n")) w.wire hc
      unfold sendChunk
      simp only [k1]
      refine ⟨_, rfl, rfl, ?_⟩
      simp only [k2, headOnce, hs, Bool.false_eq_true, if_false, hH]
      have h1 : asc "\r\n" = crlf := by decide
      rw [h1]
      simp [chunk]
    obtain ⟨w1, k1, k2, k3⟩ := hq
    refine ⟨{ w1 with back := w1.back ++ d }, ?_, k2, by simpa using k3⟩
    simp only [List.nil_append, writes]
    unfold write
    simp only [hov, hch, k1]
  | e :: ds, w, h, hne, hs, hc => by
    simp only [List.flatten_cons, List.length_append] at h
    have hov : oversize e.length w.back.length = false := by unfold oversize BUFFER; simp; omega
    obtain ⟨w', h1, h2, h3⟩ := writes_begun c hch H hH d hd ds { w with total := (w.total + e.length) % 2 ^ 32, back := w.back ++ e } (by simp only [List.length_append]; omega)
      (by simpa using hne) hs hc
    refine ⟨w', ?_, h2, by simpa using h3⟩
    rw [List.cons_append, writes]
    unfold write
    simp only [hov, h1]

end HttpOut

/-- The call cannot be marshalled: the marshaller refuses something, or an argument is, or has in it, an object that stands for no value. `ws` was written before; `e` is what the marshaller has thrown. -/
def PyUnsendable (S : PyProxy.Conf σ) (x : PyProxy.State σ) (name : Bytes) (args : List Py) (ws : List Bytes) (e : Option Err) : Prop :=
  ∃ m k, Mar.new (PyProxy.format (Proxy.chooseBinary x.px)) x.px.version = some m ∧ m.packAll S.strOk S.dbl (PyProxy.script S name args).1 = (ws, k, e) ∧
    ((PyProxy.script S name args).2 ≠ none ∨ e ≠ none)

/-- **C117 (a call that cannot be sent), partial.** If a call cannot be marshalled, then the caller gets an exception (`TypeError` or `ResponseError` for what the marshaller refuses, `RuntimeError` for an object), nothing is sent, the connection stays as it was, the header
fields for the call are gone, and so on: the next call is as if this one had not been made. Missing: binary calls of more than 63 kB in chunks, where it is not so, see
`C117_chunks_violated`. -/
theorem C117_unsendable_partial (S : PyProxy.Conf σ) (x : PyProxy.State σ) {name : Bytes} {args : List Py} {ws : List Bytes} {e : Option Err} (h : PyUnsendable S x name args ws e)
    (hsmall : (PyProxy.clientOf S x.px).chunks = true → ws.flatten.length ≤ 64512) (t : Proxy.Turn) :
    ∃ o y, PyProxy.call S x name args t = (o, y, none) ∧ (∀ v, o ≠ .value v) ∧ o ≠ .terminate ∧ y.px = { x.px with once := [] } ∧
      (e = some .stream → o = .raised .response) ∧ (e = some .type ∨ e = some .len → o = .raised .type) ∧ (e = none → o = .raised .runtime) := by
  obtain ⟨m, k, h1, h2, h3⟩ := h
  obtain ⟨o, ho, ho2, ho3, ho4, ho5, ho6⟩ : ∃ o, PyProxy.failure e (PyProxy.script S name args).2 = some o ∧ (∀ v, o ≠ .value v) ∧ o ≠ .terminate ∧
      (e = some .stream → o = .raised .response) ∧ (e = some .type ∨ e = some .len → o = .raised .type) ∧ (e = none → o = .raised .runtime) := by
    unfold PyProxy.failure
    cases e with
    | some e =>
      refine ⟨_, rfl, ?_⟩
      cases e <;> simp [PyProxy.ofErr]
    | none =>
      cases hx : (PyProxy.script S name args).2 with
      | none => simp [hx] at h3
      | some e => exact ⟨_, rfl, by simp, by simp, by simp, by simp, fun _ => rfl⟩
  have hw : ∃ w', writes (clientConf (PyProxy.clientOf S x.px)) ws (.init ⟨t.up, []⟩) = (.ok (), w') ∧ w'.headersSent = false := by
    cases hc : (PyProxy.clientOf S x.px).chunks with
    | false =>
      obtain ⟨w', a1, -, -, a4, -⟩ := writes_plain (clientConf (PyProxy.clientOf S x.px)) hc ws (.init ⟨t.up, []⟩)
      exact ⟨w', a1, a4⟩
    | true =>
      obtain ⟨w', a1, -, a4, -⟩ := writes_within (clientConf (PyProxy.clientOf S x.px)) ws (.init ⟨t.up, []⟩) (by simpa [Writer.init] using hsmall hc)
      exact ⟨w', a1, a4⟩
  obtain ⟨w', hw1, hw2⟩ := hw
  refine ⟨o, ⟨{ x.px with once := [] }, name, PyProxy.runPost S (PyProxy.runPre S x.user name args).2 name args (PyProxy.runPre S x.user name args).1 o⟩, ?_, ho2, ho3, rfl, ho4, ho5, ho6⟩
  unfold PyProxy.call
  simp only [h1, h2, ho, Option.isSome_some, if_true]
  unfold PyProxy.exchange
  simp only [Option.isSome_some, if_true, hw1, hw2]

/-- **C117 is violated in chunks** (they are the default with the binary protocol and HTTP/1.1). A call with a text of 63 kB or more and, after it, an object that cannot be sent: the
caller gets a `RuntimeError`, but the beginning of the request has been sent, and the connection is kept. The next call is sent there, in the middle of the unfinished request. -/
theorem C117_chunks_violated (S : PyProxy.Conf σ) (x : PyProxy.State σ) (hclean : ∀ s, x.px.sock = some s → s.unread = []) (hv : x.px.version.Full)
    (hch : (PyProxy.clientOf S x.px).chunks = true) (hkeep : x.px.cfg.keepAlive = true) (name : Bytes) (hn : 1 ≤ name.length ∧ name.length ≤ 255) (hn0 : (0 : UInt8) ∉ name)
    (s : Bytes) (hs : 64512 ≤ s.length ∧ s.length < 2 ^ 30) (hok : S.strOk s = true) (t : Proxy.Turn) (hc : t.connect = true) (ha : t.arrived = []) (hup : CalmOut true t.up) :
    ∃ id y begun, PyProxy.call S x name [.str s, .other] t = (.raised .runtime, y, some (id, clientHead (PyProxy.clientOf S x.px) 0 ++ chunk begun)) ∧ begun ≠ [] ∧
      y.px.sock = some ⟨id, []⟩ ∧
      ∀ name2 args2 vs2 ws2, PyCanCall S y name2 args2 vs2 ws2 → ∀ t2 : Proxy.Turn, t2.closed = false → t2.broken = false → t2.connect = true → t2.arrived = [] → CalmOut true t2.up →
        ∃ bytes2, (PyProxy.call S y name2 args2 t2).2.2 = some (id, bytes2) ∧ PyIsRequest S y ws2 bytes2 := by
  have hb : Proxy.chooseBinary x.px = true := by
    have : (S.chunks && Proxy.chooseBinary x.px && !x.px.cfg.http10) = true := hch
    simp only [Bool.and_eq_true] at this
    exact this.1.2
  obtain ⟨id, made, h1⟩ := PyProxy.connect_clean (p := { x.px with once := [] }) hclean hc ha
  have hsz : sz32 s.length = s.length := by unfold sz32; omega
  have hscript : PyProxy.script S name [.str s, .other] = ([.packMethodCall name, .packString s], some .type) := by
    unfold PyProxy.script
    have : (Python.argc ([Py.str s, .other] : List Py).length).toNat = 2 := by show (Python.argc 2).toNat = 2; decide
    rw [this, show Registry.cstr name = name from PyServer.cstr_eq hn0]
    simp [Python.feedItems, Python.feedValue, Python.andThen, hsz]
  have hp1 : BinMarshaller.pack S.strOk x.px.version (.packMethodCall name) =
      ([BinMarshaller.packMagic x.px.version, [BinMarshaller.dataType T_CALL 0], [UInt8.ofNat name.length], name], none) := by
    have hk : (decide (name.length > 255) || name.length == 0) = false := by rw [Bool.or_eq_false_iff, decide_eq_false_iff_not, beq_eq_false_iff_ne]; omega
    simp only [BinMarshaller.pack, hk, Bool.false_eq_true, if_false]
  have hp2 : BinMarshaller.pack S.strOk x.px.version (.packString s) = (BinMarshaller.sized x.px.version T_STRING s.length ++ [s], none) := by
    simp only [BinMarshaller.pack, BinMarshaller.packString, hok, if_true]
  have hpack : (Mar.bin x.px.version).packAll S.strOk S.dbl [.packMethodCall name, .packString s] =
      (([BinMarshaller.packMagic x.px.version, [BinMarshaller.dataType T_CALL 0], [UInt8.ofNat name.length], name] ++ BinMarshaller.sized x.px.version T_STRING s.length) ++ [s],
        .bin x.px.version, none) := by
    simp only [Mar.packAll]
    rw [run_cons _ _ _ _ _ hp1, run_one hp2]
    simp
  generalize hpre : [BinMarshaller.packMagic x.px.version, [BinMarshaller.dataType T_CALL 0], [UInt8.ofNat name.length], name] ++ BinMarshaller.sized x.px.version T_STRING s.length = pre at hpack
  have hlen : 0 < pre.flatten.length ∧ pre.flatten.length ≤ 64512 := by
    rw [← hpre]
    simp only [BinMarshaller.sized, BinMarshaller.number, BinMarshaller.packMagic, List.flatten_append, List.flatten_cons, List.flatten_nil, List.append_nil, List.length_append, List.length_cons,
      List.length_nil, List.length_take]
    have : (leBytes 8 (u64 (s.length : Int))).length = 8 := by simp
    omega
  obtain ⟨w', g1, g2, g3⟩ := writes_begun (clientConf (PyProxy.clientOf S x.px)) hch (clientHead (PyProxy.clientOf S x.px) 0) (fun n => clientHead_const _ hch n) s
    ⟨hs.1, by omega⟩ pre (.init ⟨t.up, []⟩) (by simpa [Writer.init] using hlen.2) (by
      intro h0
      have : pre.flatten = [] := by simpa [Writer.init] using h0
      rw [this] at hlen; simp at hlen) rfl hup
  have g3 : w'.wire.sent = clientHead (PyProxy.clientOf S x.px) 0 ++ chunk pre.flatten := by simpa [Writer.init] using g3
  refine ⟨id, ⟨{ x.px with once := [], made := made, sock := some ⟨id, []⟩ }, name,
    PyProxy.runPost S (PyProxy.runPre S x.user name [.str s, .other]).2 name [.str s, .other] (PyProxy.runPre S x.user name [.str s, .other]).1 (.raised .runtime)⟩, pre.flatten, ?_, ?_, rfl, ?_⟩
  · unfold PyProxy.call
    have hm : Mar.new (PyProxy.format (Proxy.chooseBinary x.px)) x.px.version = some (.bin x.px.version) := by simp [Mar.new, PyProxy.format, hb, (accepts_full hv).1]
    simp only [hm, hscript, hpack, PyProxy.failure, Option.isSome_some, if_true]
    unfold PyProxy.exchange
    simp only [Option.isSome_some, if_true, g1, g2, h1]
    unfold PyProxy.afterSend
    simp only [g3]
  · intro h0; rw [h0] at hlen; simp at hlen
  · intro name2 args2 vs2 ws2 h2 t2 hcl hbr hco har hup2
    obtain ⟨id2, made2, w2, k1, k2, k3⟩ := PyProxy.call_sent S _ h2 t2 hco har hup2
    have hid : id2 = id := by
      unfold Proxy.connectSocket at k1
      simp only [hkeep, hbr, hcl, har] at k1
      simp at k1
      exact k1.1.symm
    refine ⟨w2.wire.sent, ?_, k2⟩
    simp only [k3]
    rw [hid]
    unfold PyProxy.afterSend
    simp only
    generalize readResponse (-1, -1) (PyProxy.feed S) (PyProxy.finish S) x.px.cfg.keepAlive _ = q
    obtain ⟨r, c⟩ := q
    cases r <;> rfl

/-- **C117 (the connection).** A call, whatever it is and whatever happens on the network, that ends with a `ProtocolError` leaves no connection behind: the next one makes its own. -/
theorem C117_closed (S : PyProxy.Conf σ) (x : PyProxy.State σ) (name : Bytes) (args : List Py) (t : Proxy.Turn) {c : Option Int} {y : PyProxy.State σ} {sent : Proxy.Sent}
    (h : PyProxy.call S x name args t = (.raised (.protocol c), y, sent)) : y.px.sock = none := by
  have hof : ∀ e, PyProxy.ofErr e ≠ .raised (.protocol c) := by intro e; cases e <;> simp [PyProxy.ofErr]
  have hob : ∀ pb, PyProxy.ofBuilder pb ≠ .raised (.protocol c) := by
    intro pb hb
    unfold PyProxy.ofBuilder at hb
    split at hb
    · simp at hb
    · split at hb
      · split at hb <;> simp at hb
      · split at hb <;> simp at hb
  have hfail : ∀ e x', PyProxy.failure e x' ≠ some (.raised (.protocol c)) := by
    intro e x'
    unfold PyProxy.failure
    cases e with
    | some e => simpa using hof e
    | none => cases x' <;> simp
  have hafter : ∀ p s m failed o q z, PyProxy.afterSend S p s m failed t = (o, q, z) → failed ≠ some (.raised (.protocol c)) → o = .raised (.protocol c) → q.sock = none := by
    intro p s m failed o q z ha hf ho
    unfold PyProxy.afterSend at ha
    simp only at ha
    split at ha
    · split at ha
      · next o' => injection ha with a1 a2; subst a1; subst ho; exact absurd rfl hf
      · revert ha
        generalize readResponse (-1, -1) (PyProxy.feed S) (PyProxy.finish S) p.cfg.keepAlive _ = r
        obtain ⟨r, s'⟩ := r
        intro ha
        cases r with
        | error e => injection ha with a1 a2; injection a2 with a2 a3; rw [← a2]
        | ok r => injection ha with a1 a2; exact absurd (a1.trans ho) (hob _)
    · revert ha
      generalize readResponse (-1, -1) (PyProxy.feed S) (PyProxy.finish S) p.cfg.keepAlive _ = r
      obtain ⟨r, s'⟩ := r
      intro ha
      cases r with
      | error e => injection ha with a1 a2; injection a2 with a2 a3; rw [← a2]
      | ok r => injection ha with a1 a2; exact absurd (a1.trans ho) (hob _)
    · injection ha with a1 a2; injection a2 with a2 a3; rw [← a2]
  unfold PyProxy.call at h
  simp only at h
  split at h
  · simp at h
  · next m hm =>
    injection h with h1 h2
    injection h2 with h2 h3
    rw [← h2]
    revert h1
    generalize hf : PyProxy.failure _ _ = failed
    intro h1
    have hf' : failed ≠ some (.raised (.protocol c)) := by rw [← hf]; exact hfail _ _
    unfold PyProxy.exchange at h1 ⊢
    cases failed with
    | some o =>
      revert h1
      generalize (if (some o).isSome = true then _ else _) = m2
      intro h1
      cases hh : m2.2.headersSent with
      | false => simp only [hh] at h1; exact absurd (congrArg some h1) hf'
      | true =>
        simp only [hh] at h1 ⊢
        revert h1
        generalize Proxy.connectSocket { x.px with once := [] } t = k
        obtain ⟨s, made⟩ := k
        intro h1
        cases s with
        | none => rfl
        | some s => exact hafter _ s m2 (some o) _ _ _ rfl hf' h1
    | none =>
      revert h1
      generalize (if (none : Option Outcome).isSome = true then _ else _) = m2
      intro h1
      simp only at h1 ⊢
      revert h1
      generalize Proxy.connectSocket { x.px with once := [] } t = k
      obtain ⟨s, made⟩ := k
      intro h1
      cases s with
      | none => rfl
      | some s => exact hafter _ s m2 none _ _ _ rfl hf' h1

/-- **C116 (versions).** The first call of a proxy made with a version, in the binary protocol, begins with the marks of the protocol and that version, whatever comes back; versions below 1.0 are
taken as 1 and 0. -/
theorem C116_version (S : PyProxy.Conf σ) (url : Url.Url) (cfg : Proxy.Config) (major minor : Nat) (hM : major < 256) (hm : minor < 256) (st : σ) {name : Bytes} {args : List Py}
    {vs : List Value} {ws : List Bytes} (hb : Proxy.chooseBinary (PyProxy.new url cfg major minor st).px = true) (h : PyCanCall S (PyProxy.new url cfg major minor st) name args vs ws)
    (t : Proxy.Turn) (hc : t.connect = true) (ha : t.arrived = []) (hup : CalmOut true t.up) :
    ∃ id, ∃ q : Post, ∃ rest, (PyProxy.call S (PyProxy.new url cfg major minor st) name args t).2.2 = some (id, q.text) ∧ q.Ok ∧
      q.data = [0xCA, 0x11, UInt8.ofNat (if major = 0 then 1 else major), UInt8.ofNat minor] ++ rest := by
  obtain ⟨id, bytes, h1, q, rfl, h2, -, h4, -⟩ := C116_request S _ h t hc ha hup
  have hp := h.packed
  have hver : (PyProxy.new url cfg major minor st).px.version = ⟨UInt8.ofNat (if major = 0 then 1 else major), UInt8.ofNat minor⟩ := by
    show Python.versionOf _ _ = _
    have e1 : (if (major : Int) < 1 then (1 : Int) else major) = ((if major = 0 then 1 else major : Nat) : Int) := by
      by_cases c : major = 0
      · subst c; rfl
      · rw [if_neg (by omega), if_neg c]
    have e2 : (if (minor : Int) < 0 then (0 : Int) else minor) = ((minor : Nat) : Int) := by rw [if_neg (by omega)]
    rw [e1, e2]
    unfold Python.versionOf u32
    congr 2
    · split <;> omega
    · omega
  generalize UInt8.ofNat (if major = 0 then 1 else major) = M at hver ⊢
  rw [hb, Proxy.packCall, if_pos rfl, hver] at hp
  split at hp
  · rw [BinMarshaller.run] at hp
    unfold BinMarshaller.pack at hp
    simp only at hp
    by_cases c : (name.length > 255 || name.length == 0) = true
    · rw [if_pos c] at hp
      injection hp with _ hp
      cases hp
    · rw [if_neg c] at hp
      simp only at hp
      injection hp with hp _
      refine ⟨id, q, ([[BinMarshaller.dataType T_CALL 0], [UInt8.ofNat name.length], name] ++
        (BinMarshaller.run S.strOk ⟨M, UInt8.ofNat minor⟩ (feedItems vs)).1).flatten, h1, h2, ?_⟩
      rw [h4, ← hp]
      rfl
  · injection hp with _ hp
    cases hp

/-- How a call ended, for the second hook: with this exception, or without. -/
def PyEndedWith : Outcome → Option Raised → Prop
  | .raised e, r => r = some e
  | _, r => r = none

/-- **C116 (hooks).** Whatever the call and the network: the first hook gets the name and the arguments, before anything is sent; the second one gets the name, the arguments, what the first
one has given, and the exception, if there is one. -/
theorem C116_hooks (S : PyProxy.Conf σ) (x : PyProxy.State σ) (name : Bytes) (hn : (0 : UInt8) ∉ name) (args : List Py) (t : Proxy.Turn)
    {f : σ → Bytes → List Py → Option Py × σ} {g : σ → Bytes → List Py → Option Py → Option Raised → σ} (hf : S.pre = some f) (hg : S.post = some g)
    (hv : x.px.version.major ≤ 3) :
    ∃ r, PyEndedWith (PyProxy.call S x name args t).1 r ∧ (PyProxy.call S x name args t).2.1.user = g (f x.user name args).2 name args (f x.user name args).1 r ∧
      (PyProxy.call S x name args t).2.1.last = name := by
  have hm : ∃ m, Mar.new (PyProxy.format (Proxy.chooseBinary x.px)) x.px.version = some m := by
    have h1 : BinMarshaller.accepts x.px.version = true := by unfold BinMarshaller.accepts; simpa using hv
    have h2 : XmlMarshaller.accepts x.px.version = true := by unfold XmlMarshaller.accepts; simpa using hv
    unfold PyProxy.format
    cases Proxy.chooseBinary x.px <;> simp [Mar.new, h1, h2]
  obtain ⟨m, hm⟩ := hm
  unfold PyProxy.call
  simp only [hm]
  have hc : Registry.cstr name = name := PyServer.cstr_eq hn
  have he : ∀ o : Outcome, PyEndedWith o o.exn := by intro o; cases o <;> rfl
  refine ⟨_, he _, ?_, trivial⟩
  simp only [PyProxy.runPost, PyProxy.runPre, hf, hg, hc]

/-- **C117 is violated for header fields.** A call is given header fields of which one is bad: the caller gets a `TypeError`, and nothing is sent; but the good fields before the bad
one stay, and are sent with the next call. -/
theorem C117_fields_violated (S : PyProxy.Conf σ) (x : PyProxy.State σ) (name : Bytes) (args : List Py) (f : Bytes × Bytes) (t : Proxy.Turn) :
    ∃ y, PyProxy.step S x (.call name args [.pair f, .bad] t) = (some (.raised .type, none), y) ∧
      ∀ name2 args2 vs2 ws2, PyCanCall S y name2 args2 vs2 ws2 → ∀ t2 : Proxy.Turn, t2.connect = true → t2.arrived = [] → CalmOut true t2.up →
        ∃ id2, ∃ q : Post, (PyProxy.step S y (.call name2 args2 [] t2)).1.map (fun r => r.2) = some (some (id2, q.text)) ∧ q.Ok ∧ q.data = ws2.flatten ∧
          q.fields.getLast? = some (f.1, trim f.2) := by
  refine ⟨{ x with px := { x.px with once := x.px.once ++ [f] } }, rfl, fun name2 args2 vs2 ws2 h t2 hc ha hup => ?_⟩
  obtain ⟨id, bytes, h1, q, rfl, h2, -, h4, -, -, -, -, fs, h9⟩ := C116_request S _ h t2 hc ha hup
  refine ⟨id, q, ?_, h2, h4, ?_⟩
  · simp only [PyProxy.step, PyProxy.feedHeaders, if_true, Option.map_some]
    exact congrArg some h1
  · rw [← h9]
    simp only [← List.append_assoc, List.map_append, List.map_cons, List.map_nil, List.getLast?_append, List.getLast?_singleton, Option.some_or]

/-- **C117 is violated for versions.** A proxy at a version that is not known (it was made with it, or a server has said so in a response, see below): a call ends the process. -/
theorem C117_version_violated (S : PyProxy.Conf σ) (x : PyProxy.State σ) (h : 3 < x.px.version.major) (name : Bytes) (args : List Py) (t : Proxy.Turn) :
    (PyProxy.call S x name args t).1 = .terminate := by
  have h1 : BinMarshaller.accepts x.px.version = false := by
    unfold BinMarshaller.accepts
    simpa using h
  have h2 : XmlMarshaller.accepts x.px.version = false := by
    unfold XmlMarshaller.accepts
    simpa using h
  have : Mar.new (PyProxy.format (Proxy.chooseBinary x.px)) x.px.version = none := by
    unfold PyProxy.format
    split <;> simp [Mar.new, h1, h2]
  unfold PyProxy.call
  simp only [this]

/-! ## Witnesses -/

/-- A client with hooks that count. -/
def pyProxyConf : PyProxy.Conf Nat := ⟨Python.plainOpts, fun _ => true, xmlExampleDbl, xmlExampleEnv, XmlParser.eager, true,
  some (fun n _ _ => (some (.int 1), n + 1)), some (fun n _ _ _ e => n + if e.isSome then 100 else 10)⟩

/-- A proxy that keeps connections. -/
def pyProxy (mode : Nat) : PyProxy.State Nat := PyProxy.new Proxy.aUrl (Proxy.aConfig true mode) 2 1 0

/-- A turn in which the server replies so. -/
def pyTurn (d : Bytes) : Proxy.Turn := ⟨[], false, false, true, [], fun _ => d, []⟩

/-- What can be compared of the result of a call: how it ended, and whether something was sent; the state; whether a connection is kept. -/
def pyEnd (r : Outcome × PyProxy.State Nat × Proxy.Sent) : (Option Raised × Bool × Bool × Bool) × Bool × Nat × Option Nat :=
  ((r.1.exn, (match r.1 with | .value _ => true | _ => false), (match r.1 with | .terminate => true | _ => false), (match r.1 with | .crash => true | _ => false)),
    r.2.2.isSome, r.2.1.user, r.2.1.px.sock.map (·.id))

/-- A reply with those fields. -/
def pyReply (fields : List (Bytes × Bytes)) (data : Bytes) : Reply := ⟨0, true, 200, asc "OK", fields.map (fun f => .field f.1 f.2), fields, data, data⟩

theorem pyReply_ok (fields : List (Bytes × Bytes)) (data : Bytes)
    (h : ∀ f ∈ fields, ((10 : UInt8) ∉ f.1 ++ 58 :: f.2 ∧ (f.1 ++ 58 :: f.2).getLast? ≠ some 13) ∧ f.1 ≠ [] ∧ f.1.head?.all (fun c => !isSpace c) = true ∧ (58 : UInt8) ∉ f.1)
    (ht : ∀ f ∈ fields, Spec.trim f.2 = f.2) (hl : field (asc "Content-Length") fields = some (dec data.length)) (hd : data.length < 2 ^ 63) : (pyReply fields data).Ok := by
  have := webPost_ok "/" fields data (by unfold Spec.Http.IsWord; decide +kernel) h ht hl hd
  exact ⟨by show 200 < 2 ^ 31; decide, by show asc "OK" ≠ [] ∧ (10 : UInt8) ∉ asc "OK" ∧ (asc "OK").getLast? ≠ some 13; decide +kernel, this.lines, this.fields, this.framed, hd⟩

/-- The value 7 and the fault 3 in the binary protocol. -/
def pySeven : Reply := pyReply [(asc "Content-Type", asc "application/x-frpc"), (asc "Content-Length", asc "7")] (sendResponse (fun _ => true) ⟨2, 1⟩ (.int 7)).1.flatten
@[inherit_doc pySeven] def pyThree : Reply := pyReply [(asc "Content-Type", asc "application/x-frpc"), (asc "Content-Length", asc "10")] (sendFault (fun _ => true) ⟨2, 1⟩ 3 (asc "x")).1.flatten

theorem pySeven_ok : pySeven.Ok := pyReply_ok _ _ (by decide +kernel) (by decide +kernel) (by decide +kernel) (by decide +kernel)

theorem pyProxy_calls (mode : Nat) (hm : mode = Proxy.always ∨ mode = Proxy.never) :
    ∃ ws, PyCanCall pyProxyConf (pyProxy mode) (asc "f") [.int 1] [.int 1] ws := by
  have hs : ∀ s, (pyProxy mode).px.sock = some s → s.unread = [] := by intro s h; cases h
  have hmn : Spec.Python.meansItems [.int 1] = some [.int 1] := by simp [Spec.Python.means, Spec.Python.meansItems]
  have hsm : Spec.Python.SmallItems [.int 1] ∧ ([.int 1] : List Py).length < 2 ^ 30 := by simp [Spec.Python.Small, Spec.Python.SmallItems]
  rcases hm with rfl | rfl
  · exact ⟨(Proxy.packCall pyProxyConf.strOk pyProxyConf.dbl true ⟨2, 1⟩ (asc "f") [.int 1]).1, hs, Web.full21,
      ⟨by decide +kernel, by decide +kernel, (by intro f hf; cases hf), (by intro _ f hf; cases hf)⟩, by decide +kernel, hmn, hsm, rfl, by unfold LengthOk; decide +kernel⟩
  · exact ⟨(Proxy.packCall pyProxyConf.strOk pyProxyConf.dbl false ⟨2, 1⟩ (asc "f") [.int 1]).1, hs, Web.full21,
      ⟨by decide +kernel, by decide +kernel, (by intro f hf; cases hf), (by intro _ f hf; cases hf)⟩, by decide +kernel, hmn, hsm, rfl, by unfold LengthOk; decide +kernel⟩

example : PyTells pyProxyConf .binary pySeven.data (.value (.int 7)) ⟨2, 1⟩ :=
  .binary (S := pyProxyConf) (strOk := fun _ => true) (v := .int 7) Web.full21 (by simp [Held, IsI64]) (by simp [Small]) (by simp [Loadable]) rfl

example : ResponseIn ((field (asc "Content-Type") pySeven.fields).getD []) .binary := by
  unfold ResponseIn
  rw [← hasSub_iff, ← hasSub_iff]
  decide +kernel

/-- A call in chunks: the request. -/
example : (PyProxy.call pyProxyConf (pyProxy Proxy.always) (asc "f") [.int 1] (pyTurn pySeven.text)).2.2 =
    some (0, asc "POST /RPC2 HTTP/1.1\r\nHost: h:80\r\nContent-Type: application/x-frpc\r\nAccept: text/xml, application/x-frpc\r\nConnection: keep-alive\r\nTransfer-Encoding: chunked\r\n\r\n9\r\n" ++
      [0xCA, 0x11, 2, 1, 0x68, 1, 102, 0x38, 1] ++ asc "\r\n0\r\n\r\n") := by decide +kernel

/-- A value, a fault, a status, a connection that is not made; both hooks have run. -/
example : pyEnd (PyProxy.call pyProxyConf (pyProxy Proxy.always) (asc "f") [.int 1] (pyTurn pySeven.text)) = ((none, true, false, false), true, 11, some 0) ∧
    pyEnd (PyProxy.call pyProxyConf (pyProxy Proxy.never) (asc "f") [.int 1] (pyTurn pyThree.text)) = ((some (.fault 3 (asc "x")), false, false, false), true, 101, some 0) ∧
    pyEnd (PyProxy.call pyProxyConf (pyProxy Proxy.always) (asc "f") [.int 1] (pyTurn (asc "HTTP/1.1 404 Not Found\r\n\r\n"))) =
      ((some (.protocol (some 404)), false, false, false), true, 101, none) ∧
    pyEnd (PyProxy.call pyProxyConf (pyProxy Proxy.always) (asc "f") [.int 1] { pyTurn [] with connect := false }) = ((some (.protocol none), false, false, false), false, 101, none) :=
  ⟨by decide +kernel, by decide +kernel, by decide +kernel, by decide +kernel⟩

/-- Calls that cannot be sent. -/
example : PyUnsendable pyProxyConf (pyProxy Proxy.always) (asc "f") [.other] [[202, 17, 2, 1], [104], [1], [102]] none ∧ PyUnsendable pyProxyConf (pyProxy Proxy.never) [] [] [] (some .len) :=
  ⟨⟨_, _, rfl, rfl, .inl (by decide)⟩, ⟨_, _, rfl, rfl, .inr (by decide)⟩⟩

/-- A text of 64512 bytes and a proxy that sends in chunks. -/
example : (64512 ≤ (List.replicate 64512 (97 : UInt8)).length ∧ (List.replicate 64512 (97 : UInt8)).length < 2 ^ 30) ∧
    (PyProxy.clientOf pyProxyConf (pyProxy Proxy.always).px).chunks = true ∧ (pyProxy Proxy.always).px.cfg.keepAlive = true ∧ (pyProxy Proxy.always).px.version.Full :=
  ⟨by rw [List.length_replicate]; decide, rfl, rfl, Web.full21⟩

/-- **C117 is violated for versions**: a server says in a response that it is of protocol 9.1. The value arrives; the next call ends the process. -/
theorem C117_server_version_violated :
    let nine := pyReply [(asc "Content-Type", asc "text/xml"), (asc "Content-Length", asc "141")]
      (asc "<?xml version=\"1.0\"?><!--protocolVersion=\"9.1\"--><methodResponse><params><param><value><int>7</int></value></param></params></methodResponse>")
    let first := PyProxy.call pyProxyConf (pyProxy Proxy.never) (asc "f") [] (pyTurn nine.text)
    nine.Ok ∧ pyEnd first = ((none, true, false, false), true, 11, some 0) ∧
      pyEnd (PyProxy.call pyProxyConf first.2.1 (asc "f") [] (pyTurn pySeven.text)) = ((none, false, true, false), false, 11, some 0) :=
  ⟨pyReply_ok _ _ (by decide +kernel) (by decide +kernel) (by decide +kernel) (by decide +kernel), by decide +kernel, by decide +kernel⟩

/-- **C117 is violated for texts that are not UTF-8**: a value with one is a `RuntimeError`; a fault with one is undefined behaviour. -/
theorem C117_text_violated :
    let text := pyReply [(asc "Content-Type", asc "application/x-frpc"), (asc "Content-Length", asc "8")] (sendResponse (fun _ => true) ⟨2, 1⟩ (.string [255])).1.flatten
    let fault := pyReply [(asc "Content-Type", asc "application/x-frpc"), (asc "Content-Length", asc "10")] (sendFault (fun _ => true) ⟨2, 1⟩ 3 [255]).1.flatten
    text.Ok ∧ fault.Ok ∧ pyEnd (PyProxy.call pyProxyConf (pyProxy Proxy.always) (asc "f") [] (pyTurn text.text)) = ((some .runtime, false, false, false), true, 101, some 0) ∧
      pyEnd (PyProxy.call pyProxyConf (pyProxy Proxy.always) (asc "f") [] (pyTurn fault.text)) = ((none, false, false, true), true, 11, none) :=
  ⟨pyReply_ok _ _ (by decide +kernel) (by decide +kernel) (by decide +kernel) (by decide +kernel),
   pyReply_ok _ _ (by decide +kernel) (by decide +kernel) (by decide +kernel) (by decide +kernel), by decide +kernel, by decide +kernel⟩

end Frpc
