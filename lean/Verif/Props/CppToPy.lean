import Verif.Props.PyToCpp
/-!
# The C++ client and the Python server over any network: C131
-/
namespace Frpc
open HttpIO HttpOut HttpServer Spec Spec.Http Spec.Web Spec.XmlRpc Remote
open PyServer (Reg World)
open Python (Py PB)
open TreeBuilder (getData TB)
open Spec.Python (shows showsItems Loadable LoadableItems)
variable {σ : Type}

/-- The C++ call can be sent to the Python server: its name is a C string, its strings are UTF-8, and the marshaller of the protocol takes it. -/
structure CppPyCall (C : Client) (S : PyWeb.Conf σ) (binary : Bool) (ver : Version) (name : Bytes) (args : List Value) : Prop where
  noNul : (0 : UInt8) ∉ name
  held : HeldItems args ∧ SmallItems args ∧ LoadableItems args
  inBinary : binary = true → ∃ ws, sendCall C.side.cfg.strOk ver name args = (ws, none) ∧ ws.flatten.length < 2 ^ 32
  inXml : binary = false → (Message.call name args).Leaves (xmlNeed ver S.xml C.dbl) ∧
    ∀ ws, XmlMarshaller.run C.dbl ver (XmlMarshaller.ops (.call name args)) = (ws, none) → ws.flatten.length < 2 ^ 32

/-- The result of a Python function, an object or a fault, can be sent to a C++ client and read there. -/
structure PyCppAnswer (C : Client) (S : PyWeb.Conf σ) (ver : Version) (v : Py) : Prop where
  what : (∃ c m, v = .fault c m ∧ IsI32 c ∧ m.length < 2 ^ 30 ∧ (S.useBinary = true → S.strOk m = true) ∧
      (S.useBinary = false → (Message.fault c m).Leaves (xmlNeed ver C.side.xml S.dbl))) ∨
    (∃ val, Spec.Python.means v = some val ∧ Spec.Python.Small v ∧ Held val ∧ Small val ∧ (S.useBinary = true → ∃ ws, sendResponse S.strOk ver val = (ws, none)) ∧
      (S.useBinary = false → (Message.response val).Leaves (xmlNeed ver C.side.xml S.dbl) ∧ StringsAll (fun s => C.side.cfg.strOk s = true) val))
  short : ∀ ds, PyWeb.Packed S ver v (pyOut S) ds → ds.flatten.length < 2 ^ 63

/-- What the C++ caller gets for the result of a Python function: the value that the object stands for, or the fault. -/
inductive PyCppGets (date : DateTime → DateTime) : Py → Rpc.Outcome → Prop
  | value {v val} : Spec.Python.means v = some val → PyCppGets date v (.value (plainWith date val))
  | fault {c m} : PyCppGets date (.fault c m) (.fault c (if m = [] then asc "No data unmarshalled" else m))

/-- The two sides can talk: the XML parsers conform, they validate strings in the same way, the server's builder has no special options, and the hook adds proper header fields. -/
structure CppPyCompatible (C : Client) (S : PyWeb.Conf σ) (r : Reg σ) : Prop where
  client : Spec.Xml.Conforms C.side.parser
  server : Spec.Xml.Conforms S.parser
  serverOpts : Python.Plain S.opts
  strings : C.side.cfg.strOk = S.strOk
  hook : ∀ f, r.preRead = some f → ∀ st, ∀ g ∈ (S.added (f st []).2).1, Spec.PyWeb.MayAdd g

namespace CppToPy

/-- What the caller gets from a builder. -/
def heard (tb : TB) : Rpc.Outcome :=
  match getData tb with
  | .ok v => .value v
  | .error (.fault c m) => .fault c m
  | .error _ => .failed

theorem call_carried {C : Client} {S : PyWeb.Conf σ} {binary : Bool} {ver : Version} (hv : ver.Full) {name : Bytes} {args : List Value} (h : CppPyCall C S binary ver name args) :
    ∃ ws, Proxy.packCall C.env.strOk C.env.dbl binary ver name args = (ws, none) ∧ ws.flatten.length < 2 ^ 32 ∧ FirstWrite ws ∧
      PyCarries S (if binary then .binary else .xml) ws.flatten name (showsItems (plainItemsWith (pyCarried S.opts binary ver) args)) ver := by
  cases binary with
  | true =>
    obtain ⟨ws, h1, h2⟩ := h.inBinary rfl
    refine ⟨ws, ?_, h2, (C41_binary_first_write C.side.cfg.strOk ver ws).1 name args h1, .binary hv h.held.1 h.held.2.1 h.held.2.2 h1⟩
    unfold Proxy.packCall
    rw [(accepts_full hv).1]
    exact h1
  | false =>
    obtain ⟨h1, h2⟩ := h.inXml rfl
    obtain ⟨ws, root, g1, -⟩ := C29_document C.dbl ver (accepts_full hv).2 (.call name args) h.held.2.1
      (XmlMarshaller.messageLeaves_mono (N := xmlNeed ver S.xml C.dbl) (fun _ h => h.1) (fun _ _ => trivial) (fun _ h => h.1) (fun _ _ => trivial) _ h1)
    exact ⟨ws, g1, h2 ws g1, xml_firstWrite _ _ (.call name args) _ g1, .xml C.dbl hv h.held.2.1 h.held.2.2 h1 g1⟩

theorem answer_heard {C : Client} {S : PyWeb.Conf σ} (hP : Spec.Xml.Conforms C.side.parser) (hstr : C.side.cfg.strOk = S.strOk) {ver : Version} (hv : ver.Full) {v : Py}
    (h : PyCppAnswer C S ver v) :
    ∃ ds o, PyWeb.Packed S ver v (pyOut S) ds ∧ (pyOut S = .binary → FirstWrite ds) ∧ ds.flatten.length < 2 ^ 63 ∧
      Remote.Decodes C.side .response [] (if S.useBinary then .binary else .xml) ds.flatten (fun tb ver' => (ver' = ver ∨ ver' = ⟨2, 1⟩) ∧ heard tb = o) ∧
      PyCppGets (carried C.side.cfg S.useBinary ver) v o := by
  have a := accepts_full hv
  suffices ∃ ds o, PyWeb.Packed S ver v (pyOut S) ds ∧ (pyOut S = .binary → FirstWrite ds) ∧
      Remote.Decodes C.side .response [] (if S.useBinary then .binary else .xml) ds.flatten (fun tb ver' => (ver' = ver ∨ ver' = ⟨2, 1⟩) ∧ heard tb = o) ∧
      PyCppGets (carried C.side.cfg S.useBinary ver) v o by
    obtain ⟨ds, o, h1, h2, h3, h4⟩ := this
    exact ⟨ds, o, h1, h2, h.short ds h1, h3, h4⟩
  rcases h.what with ⟨c, m, rfl, hc, hm, hb, hx⟩ | ⟨val, hm, hs, hheld, hsm, hb, hx⟩
  · have hr : -(2 : Int) ^ 63 ≤ c ∧ c < 2 ^ 63 := by unfold IsI32 at hc; omega
    have ht : m.take (sz32 m.length) = m := by unfold sz32; rw [Nat.mod_eq_of_lt (by omega)]; simp
    have hsc : PyWeb.script S (.fault c m) = ([.packFault c m], none) := by simp only [PyWeb.script, if_pos hr, i32_u32 hc, ht]
    unfold PyWeb.Packed pyOut
    rw [hsc]
    cases hub : S.useBinary with
    | true =>
      obtain ⟨ws, g1, hrt⟩ := C03_fault_roundtrip C.side.cfg ver hv.1 .response (by decide) c hc m hm (by rw [hstr]; exact hb hub)
      rw [hstr] at g1
      have g1' : BinMarshaller.run S.strOk ver [.packFault c m] = (ws, none) := g1
      refine ⟨ws, .fault c (if m = [] then asc "No data unmarshalled" else m), ⟨.bin ver, ws, .bin ver, by simp [Mar.new, a.1], by simp only [Mar.packAll, g1'], rfl, by simp [Mar.ending]⟩,
        fun _ => (C41_binary_first_write S.strOk ver ws).2.2 c m g1, ?_, .fault⟩
      have := decodes_binary C.side .response [] ws (fun tb => getData tb = .error (.fault c (if m = [] then asc "No data unmarshalled" else m))) (fun ps hps => (hrt ps hps).2)
      refine this.mono (fun tb v hq => ⟨.inl ?_, ?_⟩)
      · rw [hq.2, Rpc.versionSeen_fault g1]
      · unfold heard; rw [hq.1]
    | false =>
      obtain ⟨ws, h1, h2⟩ := C30_fault_partial C.side.parser hP C.side.xml C.side.cfg S.dbl ver a.2 c hc (fun h => absurd hv.2 (UInt8.not_le.2 h)) m (hx hub).2.1 (hx hub).2.2
      obtain ⟨ws', k, g2, g3⟩ := Web.mar_xml' (strOk := S.strOk) h1
      refine ⟨ws, .fault c (if m = [] then asc "No data unmarshalled" else m), ⟨.xml (XmlMarshaller.new ver), ws', k, by simp [Mar.new, a.2], g2, rfl, g3.symm⟩, fun h => absurd h (by simp), ?_, .fault⟩
      refine decodes_xml C.side .response [] ws.flatten (firstWrite_ne (xml_firstWrite _ _ _ _ h1)) _ (fun d ds hds hne => ?_)
      obtain ⟨u, tb, g1, g2, g3⟩ := h2 d ds hds hne
      exact ⟨u, tb, g1, by rw [g3]; exact seen_or ver _, by unfold heard; rw [g2]⟩
  · unfold PyWeb.Packed pyOut
    rw [PyWeb.script_value S hm hs]
    cases hub : S.useBinary with
    | true =>
      obtain ⟨ws, g1⟩ := hb hub
      have g1' : BinMarshaller.run S.strOk ver (.packMethodResponse :: Frpc.feed val) = (ws, none) := g1
      refine ⟨ws, .value (plainWith (carried C.side.cfg true ver) val), ⟨.bin ver, ws, .bin ver, by simp [Mar.new, a.1], by simp only [Mar.packAll, g1'], rfl, by simp [Mar.ending]⟩,
        fun _ => (C41_binary_first_write S.strOk ver ws).2.1 val g1, ?_, .value hm⟩
      have hsent' : sendResponse C.side.cfg.strOk ver val = (ws, none) := by rw [hstr]; exact g1
      have := decodes_binary C.side .response [] ws (fun tb => getData tb = .ok (plainWith (carried C.side.cfg true ver) val))
        (fun ps hps => C01_response_only_dates_change C.side.cfg ver hv.1 hv.2 val hheld hsm ws hsent' ps hps)
      refine this.mono (fun tb v hq => ⟨.inl ?_, ?_⟩)
      · rw [hq.2, Rpc.versionSeen_response g1]
      · unfold heard; rw [hq.1]
    | false =>
      obtain ⟨ws, h1, h2⟩ := C30_response_partial C.side.parser hP C.side.xml C.side.cfg S.dbl ver a.2 val hheld hsm (hx hub).1 (hx hub).2
      obtain ⟨ws', k, g2, g3⟩ := Web.mar_xml' (strOk := S.strOk) h1
      refine ⟨ws, .value (plainWith (carried C.side.cfg false ver) val), ⟨.xml (XmlMarshaller.new ver), ws', k, by simp [Mar.new, a.2], g2, rfl, g3.symm⟩, fun h => absurd h (by simp), ?_, .value hm⟩
      refine decodes_xml C.side .response [] ws.flatten (firstWrite_ne (xml_firstWrite _ _ _ _ h1)) _ (fun d ds hds hne => ?_)
      obtain ⟨u, tb, g1, g2, g3⟩ := h2 d ds hds hne
      exact ⟨u, tb, g1, by rw [g3]; exact seen_or ver _, by unfold heard; rw [g2]; rfl⟩

/-- What the server does with a call that it has read. -/
def answered (S : PyWeb.Conf σ) (r : Reg σ) (w1 : World σ) (srv : Srv) (out : HttpHeader.Fields) (ver : Version) (conn : Conn) (mar : Mar) (name : Bytes) (args : List Py)
    (down : List SEv) : PyWeb.At σ × PyWeb.Next :=
  match PyServer.dispatch S.py r w1 name S.client (.ok (.tuple args)) with
  | (.obj v, w2) => PyWeb.answer S ⟨PyWeb.take S ⟨w1, srv, out, ver⟩ w2, conn, ⟨down, []⟩⟩ mar v
  | (.fuel, w2) => (⟨⟨w2, srv, out, ver⟩, conn, ⟨down, []⟩⟩, .stop .fuel)
  | (_, w2) => (⟨⟨w2, srv, out, ver⟩, conn, ⟨down, []⟩⟩, .stop .crash)

/-- How a call over any network comes out, in detail. -/
def Split (C : Client) (S : PyWeb.Conf σ) (r : Reg σ) (p : Proxy.Proxy) (x : PyRemote.State σ) (name : Bytes) (args : List Value) (net : Remote.Net) : Prop :=
    ∃ w0 o p' x' made, PyHooked S r x.live.world w0 ∧ remoteCall C S r p x name args net = (o, p', x') ∧ p.made ≤ made ∧
    ((o = .failed ∧ p' = { p with once := [], sock := none, made := made } ∧ PyHooked S r w0 x'.live.world ∧ (x' = x ∨ ∃ id c, x'.last = some (id, c) ∧ id < made) ∧
        ∃ left, (∀ f ∈ left, Spec.PyWeb.MayAdd f) ∧ x'.live.out = PyWeb.polished left) ∨
     (∃ (sk : Proxy.Sock) (n : Nat) (w1 : World σ) (pre left : HttpHeader.Fields) (mar : Mar) (conn : Conn) (srv : Srv) (ver : Version) (e : PyWeb.At σ × PyWeb.Next), sk.id < made ∧ Tail sk.unread ∧
        PreRead S r w0 w1 pre ∧ (∀ f ∈ left ++ pre, Spec.PyWeb.MayAdd f) ∧
        Mar.new (pyOut S) ver = some mar ∧ (ver = p.version ∨ ver = ⟨2, 1⟩) ∧ srv.outType = pyOut S ∧ srv.chunks = (!p.cfg.http10 && decide (srv.outType = .binary)) ∧
        e = answered S r w1 srv (PyWeb.polished (left ++ pre)) ver conn mar name (showsItems (plainItemsWith (pyCarried S.opts (Proxy.chooseBinary p) p.version) args)) net.down ∧
        x' = (PyRemote.afterTurn S sk.id n e).2 ∧
        ((o = .failed ∧ p' = { p with once := [], sock := none, made := made }) ∨
         (∃ q conn2 early, readResponse (-1, -1) C.env.codec.feed C.env.codec.finish p.cfg.keepAlive ⟨sk.unread ++ (PyRemote.afterTurn S sk.id n e).1, net.back, []⟩ = (.ok q, conn2) ∧
           o = heard (built C.side .response [] q.kind q.body) ∧
           p' =
             { p with once := [], made := made, sock := if q.close || early then none else some ⟨sk.id, conn2.data⟩, supports := q.accepts.getD (true, false), version := C.env.codec.version q.kind q.body }))))

/-- One call over any network, in detail. -/
theorem call_split {C : Client} {S : PyWeb.Conf σ} {r : Reg σ} (hok : CppPyCompatible C S r) (p : Proxy.Proxy) (x : PyRemote.State σ) (hl : PyJoined p x)
    (hp : ClientOk (Proxy.clientOf p)) (hv : p.version.Full) (name : Bytes) (args : List Value) (hc : CppPyCall C S (Proxy.chooseBinary p) p.version name args) (net : Remote.Net) :
    Split C S r p x name args net := by
  obtain ⟨ws, hpack, hlen, hfirst, hcar⟩ := call_carried hv hc
  rcases PyRemote.connect_any hl net with ⟨made, h1, hmade⟩ | ⟨sk, made, h1, hid, hmade, hun⟩
  · have hends := Proxy.call_ends C.env p name args (PyRemote.turnWith p x net (fun b => (PyRemote.turn S r x (PyRemote.connection p x net) b net.arrive net.down).1))
    refine ⟨_, .failed, { p with once := [], sock := none, made := made }, x, made, .no, ?_, hmade, .inl ⟨rfl, rfl, .no, .inl rfl, hl.fields⟩⟩
    unfold remoteCall
    simp only
    generalize Proxy.call C.env p name args (PyRemote.turnWith p x net (fun b => (PyRemote.turn S r x (PyRemote.connection p x net) b net.arrive net.down).1)) = q at hends
    cases hends with
    | packing ws' e g1 => rw [hpack] at g1; cases g1
    | connect ws' made' g1 g2 => rw [h1] at g2; cases g2; rfl
    | sending ws' s made' e w g1 g2 g3 => rw [h1] at g2; cases g2
    | reading ws' s made' m e w conn g1 g2 g3 g4 => rw [h1] at g2; cases g2
    | response ws' s made' m q w conn g1 g2 g3 g4 => rw [h1] at g2; cases g2
  · have hconn : PyRemote.connection p x net = sk.id := by unfold PyRemote.connection; rw [h1]
    have hends := Proxy.call_ends C.env p name args (PyRemote.turnWith p x net (fun b => (PyRemote.turn S r x sk.id b net.arrive net.down).1))
    have hrc : ∀ z q b, Proxy.call C.env p name args (PyRemote.turnWith p x net (fun b => (PyRemote.turn S r x sk.id b net.arrive net.down).1)) = (z, q, some (sk.id, b)) →
        remoteCall C S r p x name args net = (outcome C z, q, (PyRemote.turn S r x sk.id b net.arrive net.down).2) := by
      intro z q b h
      unfold remoteCall
      rw [hconn]
      simp only [h]
    have hbin : (if (Proxy.clientOf p).binary = true then HttpServer.Kind.binary else .xml) = if Proxy.chooseBinary p = true then .binary else .xml := rfl
    have hturn := fun m w hm => PyRemote.turn_heard hok.server hok.serverOpts hok.hook x hl.fields (Proxy.clientOf p) hp p.version hv name hc.noNul _ net.up ws hlen hfirst
      (by rw [hbin]; exact hcar) m w hm sk.id net.arrive net.down
    generalize hcall : Proxy.call C.env p name args (PyRemote.turnWith p x net (fun b => (PyRemote.turn S r x sk.id b net.arrive net.down).1)) = q at hends
    have htail : ∀ {n}, x.served sk.id = some n → Tail sk.unread := by
      intro n t1
      rcases hun with h | h
      · exact h
      · rw [t1] at h; cases h.1
    have hfailed : ∀ (m : Except SErr Unit) (w : Writer) z, message (clientConf (Proxy.clientOf p)) ws (.init ⟨net.up, []⟩) = (m, w) → outcome C z = .failed →
        q = (z, { p with once := [], sock := none, made := made }, some (sk.id, w.wire.sent)) → Split C S r p x name args net := by
      intro m w z hm hz hq
      rw [hq] at hcall
      have := hrc _ _ _ hcall
      rw [hz] at this
      obtain ⟨w0, hw0, ht⟩ := hturn m w hm
      rcases ht with ⟨x', t1, t2, t3, t4⟩ | ⟨n, w1, pre, left, mar, conn, srv, ver, t1, t2, t3, t4, t5, t6, t7, t8⟩
      · rw [t1] at this
        exact ⟨w0, _, _, _, made, hw0, this, hmade, .inl ⟨rfl, rfl, t2, t3.imp id (fun ⟨c, h⟩ => ⟨sk.id, c, h, hid⟩), t4⟩⟩
      · exact ⟨w0, _, _, _, made, hw0, this, hmade, .inr ⟨sk, n, w1, pre, left, mar, conn, srv, ver, _, hid, htail t1, t2, t3, t4, t5, t6, t7, rfl, by rw [t8]; rfl, .inl ⟨rfl, rfl⟩⟩⟩
    cases hends with
    | packing ws' e g1 => rw [hpack] at g1; cases g1
    | connect ws' made' g1 g2 => rw [h1] at g2; cases g2
    | sending ws' s made' e w g1 g2 g3 =>
      rw [hpack] at g1; cases g1
      rw [h1] at g2; cases g2
      exact hfailed _ w _ g3 rfl rfl
    | reading ws' s made' m e w conn g1 g2 g3 g4 =>
      rw [hpack] at g1; cases g1
      rw [h1] at g2; cases g2
      exact hfailed _ w _ g3 rfl rfl
    | response ws' s made' m q w conn2 g1 g2 g3 g4 =>
      rw [hpack] at g1; cases g1
      rw [h1] at g2; cases g2
      have this := hrc _ _ _ hcall
      have g4 : readResponse (-1, -1) C.env.codec.feed C.env.codec.finish p.cfg.keepAlive ⟨sk.unread ++ (PyRemote.turn S r x sk.id w.wire.sent net.arrive net.down).1, net.back, []⟩ = (.ok q, conn2) := g4
      obtain ⟨w0, hw0, ht⟩ := hturn m w g3
      rcases ht with ⟨x', t1, t2, t3, t4⟩ | ⟨n, w1, pre, left, mar, conn, srv, ver, t1, t2, t3, t4, t5, t6, t7, t8⟩
      · rw [t1, List.append_nil] at g4
        exact absurd g4 (readResponse_nothing _ _ _ _ _ (hun.imp id (fun h => h.2)) _ _ _ _)
      · rw [t8] at g4
        exact ⟨w0, _, _, _, made, hw0, this, hmade, .inr ⟨sk, n, w1, pre, left, mar, conn, srv, ver, _, hid, htail t1, t2, t3, t4, t5, t6, t7, rfl, by rw [t8]; rfl,
          .inr ⟨q, conn2, decide (m = .error .response), g4, rfl, rfl⟩⟩⟩

theorem answered_world (S : PyWeb.Conf σ) (r : Reg σ) (w0 w1 : World σ) (pre : HttpHeader.Fields) (hpre : PreRead S r w0 w1 pre) (srv : Srv) (out : HttpHeader.Fields) (ver : Version)
    (conn : Conn) (mar : Mar) (name : Bytes) (args : List Py) (down : List SEv) :
    PyRunOnce S r w0 name args (answered S r w1 srv out ver conn mar name args down).1.live.world := by
  unfold answered
  generalize hd : PyServer.dispatch S.py r w1 name S.client (.ok (.tuple args)) = d
  obtain ⟨d, w2⟩ := d
  cases d with
  | obj v =>
    simp only
    rw [(PyRemote.answer_live S _ mar v).1]
    exact .returned hpre hd
  | _ => exact .ended hpre hd (by intro v h; cases h)

end CppToPy

/-- **C131 (at most once).** One call of a C++ proxy to `fastrpc.Server` over any network (bytes lost in either direction at any place, timeouts, failures of system calls, connections
that the server has closed without the proxy seeing it, a server whose process has ended), whatever the function returns or raises and whether or not that can be sent: the function is
run once with the objects that stand for the caller's arguments, or it is not run, at most the hook before requests is; and if it is not run the call fails. -/
theorem C131_at_most_once {C : Client} {S : PyWeb.Conf σ} {r : Reg σ} (hok : CppPyCompatible C S r) (p : Proxy.Proxy) (x : PyRemote.State σ) (hl : PyJoined p x)
    (hp : ClientOk (Proxy.clientOf p)) (hv : p.version.Full) (name : Bytes) (args : List Value) (hc : CppPyCall C S (Proxy.chooseBinary p) p.version name args) (net : Remote.Net) :
    let q := CppToPy.remoteCall C S r p x name args net
    ∃ w0, PyHooked S r x.live.world w0 ∧ ((PyHooked S r w0 q.2.2.live.world ∧ q.1 = .failed) ∨
      PyRunOnce S r w0 name (showsItems (plainItemsWith (pyCarried S.opts (Proxy.chooseBinary p) p.version) args)) q.2.2.live.world) := by
  obtain ⟨w0, o, p', x', made, h0, h1, -, h3⟩ := CppToPy.call_split hok p x hl hp hv name args hc net
  simp only [h1]
  refine ⟨w0, h0, ?_⟩
  rcases h3 with ⟨g1, -, g3, -⟩ | ⟨sk, n, w1, pre, left, mar, conn, srv, ver, e, -, -, g3, -, -, -, -, -, g9, g10, -⟩
  · exact .inl ⟨g3, g1⟩
  · right
    rw [g10, (PyRemote.afterTurn_live S sk.id n e).1, g9]
    exact CppToPy.answered_world S r w0 w1 pre g3 _ _ _ _ _ _ _ _

namespace CppToPy

/-- One call over any network, with a result that can be sent. -/
theorem call_told {C : Client} {S : PyWeb.Conf σ} {r : Reg σ} (hok : CppPyCompatible C S r) (p : Proxy.Proxy) (x : PyRemote.State σ) (hl : PyJoined p x)
    (hp : ClientOk (Proxy.clientOf p)) (hv : p.version.Full) (name : Bytes) (args : List Value) (hc : CppPyCall C S (Proxy.chooseBinary p) p.version name args) (net : Remote.Net)
    (ha : ∀ w0, PyHooked S r x.live.world w0 → ∀ v custom w1,
      PyRan S r w0 name (showsItems (plainItemsWith (pyCarried S.opts (Proxy.chooseBinary p) p.version) args)) v custom w1 → (∀ f ∈ custom, Spec.PyWeb.MayAdd f) ∧
      ∀ ver, ver = p.version ∨ ver = ⟨2, 1⟩ → PyCppAnswer C S ver v) :
    ∃ w0 o p' x', PyHooked S r x.live.world w0 ∧ remoteCall C S r p x name args net = (o, p', x') ∧ PyRemote.PyAfter p p' x' ∧
      ((o = .failed ∧ PyHooked S r w0 x'.live.world) ∨
       (o = .failed ∧ PyRunOnce S r w0 name (showsItems (plainItemsWith (pyCarried S.opts (Proxy.chooseBinary p) p.version) args)) x'.live.world) ∨
       (∃ v custom ver', PyRan S r w0 name (showsItems (plainItemsWith (pyCarried S.opts (Proxy.chooseBinary p) p.version) args)) v custom x'.live.world ∧
         (ver' = p.version ∨ ver' = ⟨2, 1⟩) ∧ PyCppGets (carried C.side.cfg S.useBinary ver') v o)) := by
  obtain ⟨w0, o, p', x', made, h0, h1, h2, h3⟩ := call_split hok p x hl hp hv name args hc net
  refine ⟨w0, o, p', x', h0, h1, ?_⟩
  generalize hargs : showsItems (plainItemsWith (pyCarried S.opts (Proxy.chooseBinary p) p.version) args) = args' at ha h3 ⊢
  rcases h3 with ⟨g1, g2, g3, g4, g5⟩ | ⟨sk, n, w1, pre, left, mar, conn, srv, ver, e, g1, g2, g3, g4, g5, g6, g7, g8, g9, g10, g11⟩
  · refine ⟨?_, .inl ⟨g1, g3⟩⟩
    rw [g2]
    refine ⟨⟨fun s hs => (by cases hs), fun i c hi => ?_, g5⟩, rfl, rfl, .inl rfl, rfl, rfl⟩
    rcases g4 with rfl | ⟨id, c', hx, hid⟩
    · have := hl.last i c hi
      show i < made
      omega
    · rw [hx] at hi; cases hi; exact hid
  · have hworld := answered_world S r w0 w1 pre g3 srv (PyWeb.polished (left ++ pre)) ver conn mar name args' net.down
    rw [← g9] at hworld
    unfold answered at g9
    generalize hd : PyServer.dispatch S.py r w1 name S.client (.ok (.tuple args')) = d at g9
    obtain ⟨d, w2⟩ := d
    have hlast := (PyRemote.afterTurn_live S sk.id n e)
    have hlst : ∀ i c, x'.last = some (i, c) → i < made := by
      intro i c hi
      rw [g10] at hi
      obtain ⟨c', hc'⟩ := hlast.2.2
      rw [hc'] at hi
      cases hi
      exact g1
    have hno : (∀ v, d ≠ .obj v) → e.1.wire.sent = [] ∧ e.1.live.out = PyWeb.polished (left ++ pre) := by
      intro h
      rw [g9]
      cases d with
      | obj v => exact absurd rfl (h v)
      | _ => exact ⟨rfl, rfl⟩
    by_cases hobj : ∃ v, d = .obj v
    · obtain ⟨v, rfl⟩ := hobj
      simp only at g9
      have hran : PyRan S r w0 name args' v (pre ++ (S.added w2.user).1) { w2 with user := (S.added w2.user).2 } := .mk g3 hd
      obtain ⟨hcu, han⟩ := ha w0 h0 v _ _ hran
      have hvf : ver.Full := by
        rcases g6 with h | h <;> rw [h]
        · exact hv
        · exact Web.full21
      obtain ⟨ds, o2, k1, k2, k3, k4, k5⟩ := answer_heard hok.client hok.strings hvf (han ver g6)
      obtain ⟨m', ws, k, l1, l2, l3, l4⟩ := k1
      rw [g5] at l1
      cases l1
      have hall : ∀ f ∈ (left ++ pre) ++ (S.added w2.user).1, Spec.PyWeb.MayAdd f := by
        intro f hf
        rcases List.mem_append.1 hf with hf | hf
        · exact g4 f hf
        · exact hcu f (List.mem_append.2 (.inr hf))
      have hout : (PyWeb.take S ⟨w1, srv, PyWeb.polished (left ++ pre), ver⟩ w2).out = PyWeb.polished ((left ++ pre) ++ (S.added w2.user).1) := by
        unfold PyWeb.take
        simp only [PyWeb.added_polished]
        simp [PyWeb.polished]
      have hworld2 : (PyWeb.take S ⟨w1, srv, PyWeb.polished (left ++ pre), ver⟩ w2).world = { w2 with user := (S.added w2.user).2 } := rfl
      have hsrv : (PyWeb.take S ⟨w1, srv, PyWeb.polished (left ++ pre), ver⟩ w2).srv = srv := rfl
      generalize PyWeb.take S ⟨w1, srv, PyWeb.polished (left ++ pre), ver⟩ w2 = l at hout hworld2 hsrv g9
      have hpy : pyOut S = if S.useBinary then .binary else .xml := rfl
      obtain ⟨bytes, lost, r1, r2, r3⟩ := PyWeb.reply_any S l _ hall hout ds (by omega) (fun h => k2 (by
        rw [hsrv] at h
        rw [h, g7] at g8
        have g8 := g8.symm
        rw [Bool.and_eq_true] at g8
        exact of_decide_eq_true g8.2)) net.down (!p.cfg.http10) (by rw [hsrv]; exact g8)
      rw [hsrv, g7, hpy] at r3
      unfold PyWeb.answer at g9
      simp only [l2, l3] at g9
      rw [← l4] at g9
      unfold PyWeb.respond at g9
      simp only at g9
      generalize PyWeb.message (PyWeb.conf S l) ds (.init ⟨net.down, []⟩) = mm at g9 r1 r2
      obtain ⟨mm, w⟩ := mm
      simp only at r1 r2
      have haft : (PyWeb.after ⟨l, conn, ⟨net.down, []⟩⟩ w).live.world = l.world ∧ (PyWeb.after ⟨l, conn, ⟨net.down, []⟩⟩ w).wire = w.wire ∧
          ∃ left, (∀ f ∈ left, Spec.PyWeb.MayAdd f) ∧ (PyWeb.after ⟨l, conn, ⟨net.down, []⟩⟩ w).live.out = PyWeb.polished left := by
        refine ⟨rfl, rfl, ?_⟩
        unfold PyWeb.after
        simp only
        split
        · exact ⟨[], by simp, rfl⟩
        · exact ⟨_, hall, hout⟩
      have he : e.1 = PyWeb.after ⟨l, conn, ⟨net.down, []⟩⟩ w ∧ (mm ≠ .ok () → (PyRemote.afterTurn S sk.id n e).2.last = some (sk.id, none)) := by
        cases mm with
        | ok u => simp only at g9; rw [g9]; exact ⟨rfl, fun h => absurd rfl h⟩
        | error er => simp only at g9; rw [g9]; exact ⟨rfl, fun _ => rfl⟩
      have hx' : x'.live.world = { w2 with user := (S.added w2.user).2 } := by rw [g10, hlast.1, he.1, haft.1, hworld2]
      have hfld : ∃ left, (∀ f ∈ left, Spec.PyWeb.MayAdd f) ∧ x'.live.out = PyWeb.polished left := by rw [g10, hlast.1, he.1]; exact haft.2.2
      rcases g11 with ⟨f1, f2⟩ | ⟨q, conn2, early, f1, f2, f3⟩
      · refine ⟨?_, .inr (.inl ⟨f1, ?_⟩)⟩
        · rw [f2]
          exact ⟨⟨fun s hs => (by cases hs), hlst, hfld⟩, rfl, rfl, .inl rfl, rfl, rfl⟩
        · rw [g10, hlast.1]; exact hworld
      · rw [hlast.2.1, he.1, haft.2.1] at f1
        obtain ⟨b1, b2, b3, b4⟩ := PyWeb.reply_cut (-1, -1) C.env.codec.feed C.env.codec.finish p.cfg.keepAlive r3 k3 r1 sk.unread g2 net.back q conn2 f1
        obtain ⟨t2, t1⟩ := k4.built q.body b3 b2
        rw [← b1] at t1 t2
        refine ⟨?_, .inr (.inr ⟨v, pre ++ (S.added w2.user).1, ver, by rw [hx']; exact hran, g6, by rw [f2, t1]; exact k5⟩)⟩
        rw [f3]
        refine ⟨⟨fun s hs => ?_, hlst, hfld⟩, rfl, rfl, ?_, rfl, rfl⟩
        · simp only at hs ⊢
          split at hs
          · cases hs
          · cases hs
            refine ⟨g1, ?_⟩
            rcases b4 with h | ⟨h, h'⟩
            · exact .inl h
            · right
              refine ⟨?_, h'⟩
              have : x'.last = some (sk.id, none) := by rw [g10]; exact he.2 (fun h2 => h (r2 h2))
              unfold PyRemote.State.served
              simp [this]
        · show version C.side .response q.kind q.body = _ ∨ version C.side .response q.kind q.body = _
          rcases t2 with h | h
          · rw [h]; exact g6
          · exact .inr h
    · obtain ⟨n1, n3⟩ := hno (fun v hv => hobj ⟨v, hv⟩)
      have hfail : o = .failed ∧ p' = { p with once := [], sock := none, made := made } := by
        rcases g11 with h | ⟨q, conn2, early, f1, -⟩
        · exact h
        · rw [hlast.2.1, n1, List.append_nil] at f1
          exact absurd f1 (readResponse_nothing _ _ _ _ _ (.inl g2) _ _ _ _)
      refine ⟨?_, .inr (.inl ⟨hfail.1, ?_⟩)⟩
      · rw [hfail.2]
        exact ⟨⟨fun s hs => (by cases hs), hlst, left ++ pre, g4, by rw [g10, hlast.1]; exact n3⟩, rfl, rfl, .inl rfl, rfl, rfl⟩
      · rw [g10, hlast.1]; exact hworld

end CppToPy

/-- **C131 (never a wrong answer).** One call of a C++ proxy to a Python server over any network, if what the function returns or raises can be sent: it is not run, and the call fails;
or it is run once with the objects that stand for the arguments, and the call fails, or the caller gets the value that the result stands for (date-times as far as the protocol carries
them), or its fault. The proxy and the server are again in a state from which this holds. -/
theorem C131_never_wrong {C : Client} {S : PyWeb.Conf σ} {r : Reg σ} (hok : CppPyCompatible C S r) (p : Proxy.Proxy) (x : PyRemote.State σ) (hl : PyJoined p x)
    (hp : ClientOk (Proxy.clientOf p)) (hv : p.version.Full) (name : Bytes) (args : List Value) (hc : CppPyCall C S (Proxy.chooseBinary p) p.version name args) (net : Remote.Net)
    (ha : ∀ w0, PyHooked S r x.live.world w0 → ∀ v custom w1,
      PyRan S r w0 name (showsItems (plainItemsWith (pyCarried S.opts (Proxy.chooseBinary p) p.version) args)) v custom w1 → (∀ f ∈ custom, Spec.PyWeb.MayAdd f) ∧
      ∀ ver, ver = p.version ∨ ver = ⟨2, 1⟩ → PyCppAnswer C S ver v) :
    ∃ w0 o p' x', PyHooked S r x.live.world w0 ∧ CppToPy.remoteCall C S r p x name args net = (o, p', x') ∧ PyJoined p' x' ∧
      ((o = .failed ∧ PyHooked S r w0 x'.live.world) ∨
       (o = .failed ∧ PyRunOnce S r w0 name (showsItems (plainItemsWith (pyCarried S.opts (Proxy.chooseBinary p) p.version) args)) x'.live.world) ∨
       (∃ v custom ver', PyRan S r w0 name (showsItems (plainItemsWith (pyCarried S.opts (Proxy.chooseBinary p) p.version) args)) v custom x'.live.world ∧
         (ver' = p.version ∨ ver' = ⟨2, 1⟩) ∧ PyCppGets (carried C.side.cfg S.useBinary ver') v o)) := by
  obtain ⟨w0, o, p', x', h1, h2, h3, h4⟩ := CppToPy.call_told hok p x hl hp hv name args hc net ha
  exact ⟨w0, o, p', x', h1, h2, h3.joined, h4⟩

/-- The steps of the user of the proxy: calls that can be sent, in any protocol that the proxy may choose, their date-times arriving as they were; header fields that can be sent. -/
def CppPyStep (C : Client) (S : PyWeb.Conf σ) (cfg : Proxy.Config) : Remote.Step → Prop
  | .call name args _ => ∀ binary ver, Usable cfg.mode binary → Spoken cfg ver →
      CppPyCall C S binary ver name args ∧ DatesAllItems (fun d => pyCarried S.opts binary ver d = d) args
  | .addOnce f => FieldOk f
  | .addPermanent f => FieldOk f
  | .deleteHeaders => True

/-- The objects that stand for the arguments of a call. -/
def pyShown (args : List Value) : List Py := showsItems (plainItemsWith id args)

/-- The calls of a session, as the functions see them. -/
def cppPyCalls : List Remote.Step → List (Bytes × List Py)
  | [] => []
  | .call name args _ :: cs => (name, pyShown args) :: cppPyCalls cs
  | _ :: cs => cppPyCalls cs

/-- The results of the calls, whichever of them are run, can be sent back, and their date-times arrive as they were. -/
def CppPyResults (C : Client) (S : PyWeb.Conf σ) (cfg : Proxy.Config) (r : Reg σ) : World σ → List Remote.Step → Prop
  | _, [] => True
  | w, .call name args _ :: cs => ∀ w0, PyHooked S r w w0 →
      (∀ v custom w1, PyRan S r w0 name (pyShown args) v custom w1 → (∀ f ∈ custom, Spec.PyWeb.MayAdd f) ∧
        ∀ ver, Spoken cfg ver → PyCppAnswer C S ver v ∧ ∀ val, Spec.Python.means v = some val → DatesAll (fun d => carried C.side.cfg S.useBinary ver d = d) val) ∧
      (∀ w1, PyHooked S r w0 w1 → CppPyResults C S cfg r w1 cs) ∧ ∀ w1, PyRunOnce S r w0 name (pyShown args) w1 → CppPyResults C S cfg r w1 cs
  | w, _ :: cs => CppPyResults C S cfg r w cs

/-- What the C++ caller of several calls sees, and the world they leave, when each is run at most once: a call that is lost is not run and fails; of a call that is not heard of the
function is run once, and the call fails; a call that is done gives what the local call gives. The hook before requests may run before a call, and before the next. -/
inductive CppPyAtMostOnce (S : PyWeb.Conf σ) (r : Reg σ) : World σ → List (Bytes × List Py) → List Rpc.Outcome → World σ → Prop
  | nil {w} : CppPyAtMostOnce S r w [] [] w
  | lost {w w0 w1 w2 name args cs os} : PyHooked S r w w0 → PyHooked S r w0 w1 → CppPyAtMostOnce S r w1 cs os w2 →
      CppPyAtMostOnce S r w ((name, args) :: cs) (.failed :: os) w2
  | unheard {w w0 w1 w2 name args cs os} : PyHooked S r w w0 → PyRunOnce S r w0 name args w1 → CppPyAtMostOnce S r w1 cs os w2 →
      CppPyAtMostOnce S r w ((name, args) :: cs) (.failed :: os) w2
  | done {w w0 w1 w2 name args v custom o cs os} : PyHooked S r w w0 → PyRan S r w0 name args v custom w1 → PyCppGets id v o → CppPyAtMostOnce S r w1 cs os w2 →
      CppPyAtMostOnce S r w ((name, args) :: cs) (o :: os) w2

namespace CppToPy

theorem session_any {C : Client} {S : PyWeb.Conf σ} {r : Reg σ} (hok : CppPyCompatible C S r) (url : Url.Url) (cfg : Proxy.Config)
    (hurl : ClientOk (clientFor url cfg.http10 true cfg.keepAlive false [])) (hv : cfg.version.Full) : ∀ (cs : List Remote.Step) (p : Proxy.Proxy) (x : PyRemote.State σ),
      Remote.Ready url cfg p → PyJoined p x → (∀ c ∈ cs, CppPyStep C S cfg c) → CppPyResults C S cfg r x.live.world cs →
      CppPyAtMostOnce S r x.live.world (cppPyCalls cs) (session C S r p x cs).1 (session C S r p x cs).2.2.live.world
  | [], _, _, _, _, _, _ => .nil
  | .addOnce f :: cs, p, x, hr, hl, hs, ho => by
    refine session_any hok url cfg hurl hv cs { p with once := p.once ++ [f] } x ⟨hr.hurl, hr.hcfg, hr.version, ?_⟩ ⟨hl.clean, hl.last, hl.fields⟩ (fun c hc => hs c (by simp [hc])) ho
    have hf : FieldOk f := hs (.addOnce f) (by simp)
    intro g hg
    simp only [List.mem_append, List.mem_singleton] at hg
    rcases hg with hg | hg | hg
    · exact hr.fields g (by simp [hg])
    · exact hr.fields g (by simp [hg])
    · rw [hg]; exact hf
  | .addPermanent f :: cs, p, x, hr, hl, hs, ho => by
    refine session_any hok url cfg hurl hv cs { p with permanent := p.permanent ++ [f] } x ⟨hr.hurl, hr.hcfg, hr.version, ?_⟩ ⟨hl.clean, hl.last, hl.fields⟩
      (fun c hc => hs c (by simp [hc])) ho
    have hf : FieldOk f := hs (.addPermanent f) (by simp)
    intro g hg
    simp only [List.mem_append, List.mem_singleton] at hg
    rcases hg with (hg | hg) | hg
    · exact hr.fields g (by simp [hg])
    · rw [hg]; exact hf
    · exact hr.fields g (by simp [hg])
  | .deleteHeaders :: cs, p, x, hr, hl, hs, ho =>
    session_any hok url cfg hurl hv cs { p with once := [], permanent := [] } x ⟨hr.hurl, hr.hcfg, hr.version, by simp⟩ ⟨hl.clean, hl.last, hl.fields⟩ (fun c hc => hs c (by simp [hc])) ho
  | .call name args net :: cs, p, x, hr, hl, hs, ho => by
    have hc : ∀ binary ver, Usable cfg.mode binary → Spoken cfg ver →
      CppPyCall C S binary ver name args ∧ DatesAllItems (fun d => pyCarried S.opts binary ver d = d) args := hs (.call name args net) (by simp)
    have hu := chooseBinary_usable p
    rw [hr.hcfg] at hu
    obtain ⟨hc1, hc2⟩ := hc (Proxy.chooseBinary p) p.version hu hr.version
    have hsp : ∀ ver, ver = p.version ∨ ver = ⟨2, 1⟩ → Spoken cfg ver := by
      rintro ver (h | h)
      · rw [h]; exact hr.version
      · exact .inr h
    have hfull : p.version.Full := by
      rcases hr.version with h | h
      · rw [h]; exact hv
      · rw [h]; exact Web.full21
    have hargs : showsItems (plainItemsWith (pyCarried S.opts (Proxy.chooseBinary p) p.version) args) = pyShown args := by
      unfold pyShown
      rw [plainWith_congrItems _ id args hc2]
    have hclient : ClientOk (Proxy.clientOf p) := by
      have h0 : Proxy.clientOf p = { clientFor url cfg.http10 true cfg.keepAlive false [] with binary := Proxy.chooseBinary p, custom := p.permanent ++ p.once } := by
        unfold Proxy.clientOf clientFor; rw [hr.hurl, hr.hcfg]
      rw [h0]
      exact ⟨hurl.path, hurl.host, hr.fields, fun h => absurd h (by simp [clientFor])⟩
    obtain ⟨w0, o, p', x', h1, h2, h3, h4⟩ := call_told hok p x hl hclient hfull name args hc1 net
      (fun w0 hw v custom w1 hran => by
        rw [hargs] at hran
        obtain ⟨a1, a2⟩ := (ho w0 hw).1 v custom w1 hran
        exact ⟨a1, fun ver hver => (a2 ver (hsp ver hver)).1⟩)
    rw [hargs] at h4
    obtain ⟨a1, a2, a3⟩ := ho w0 h1
    have ih := session_any hok url cfg hurl hv cs p' x' ⟨h3.hurl.trans hr.hurl, h3.hcfg.trans hr.hcfg, h3.version.elim (fun h => by rw [h]; exact hr.version) .inr, by
      rw [h3.once, h3.permanent, List.append_nil]
      exact fun f hf => hr.fields f (by simp [hf])⟩ h3.joined (fun c hc => hs c (by simp [hc]))
    simp only [session, h2]
    rcases h4 with ⟨rfl, g2⟩ | ⟨rfl, g2⟩ | ⟨v, custom, ver', g1, g2, g3⟩
    · exact .lost h1 g2 (ih (a2 _ g2))
    · exact .unheard h1 g2 (ih (a3 _ g2))
    · have hrun : PyRunOnce S r w0 name (pyShown args) x'.live.world := by
        generalize x'.live.world = wx at g1
        obtain ⟨b1, b2⟩ := g1
        exact .returned b1 b2
      refine .done h1 g1 ?_ (ih (a3 _ hrun))
      cases g3 with
      | fault => exact .fault
      | value hm =>
        rw [plainWith_congr _ id _ (((a1 _ _ _ g1).2 ver' (hsp ver' g2)).2 _ hm)]
        exact .value hm

end CppToPy

/-- **C131 (a session).** Any number of calls through one C++ proxy to a Python server, over a network that may do anything to each of them, whatever its mode, its keep-alive and its
HTTP version, and whatever header fields are set in between: each call is run at most once, in the order of the calls; each fails, or gives what the local call gives at that place; none
that was not run gives anything but a failure. -/
theorem C131_session {C : Client} {S : PyWeb.Conf σ} {r : Reg σ} (hok : CppPyCompatible C S r) (url : Url.Url) (cfg : Proxy.Config)
    (hurl : ClientOk (clientFor url cfg.http10 true cfg.keepAlive false [])) (hv : cfg.version.Full) (st : σ) (cs : List Remote.Step)
    (hs : ∀ c ∈ cs, CppPyStep C S cfg c) (ho : CppPyResults C S cfg r ⟨st, false⟩ cs) :
    let q := CppToPy.session C S r (Proxy.new url cfg) ⟨PyWeb.new st, none, false⟩ cs
    CppPyAtMostOnce S r ⟨st, false⟩ (cppPyCalls cs) q.1 q.2.2.live.world :=
  CppToPy.session_any hok url cfg hurl hv cs (Proxy.new url cfg) ⟨PyWeb.new st, none, false⟩ ⟨rfl, rfl, .inl rfl, by simp [Proxy.new]⟩
    ⟨fun s h => (by cases h), fun i c h => (by cases h), [], by simp, rfl⟩ hs ho

/-! ## Witnesses -/

/-- A call that is lost, one whose response is cut, one that is not heard of, and one that goes well. -/
def cppPySteps : List Remote.Step :=
  [.call (asc "f") [.int 1] lostNet, .call (asc "f") [.int 1] cutNet, .addOnce (asc "X-A", asc "1"), .call (asc "f") [.int 1] unheardNet, .call (asc "f") [.int 1] quickNet]

theorem cppPy_call (net : Remote.Net) : CppPyStep exampleRemoteClient pyWebConf exampleRemoteCfg (.call (asc "f") [.int 1] net) := by
  intro binary ver _ hver
  have hver : ver = ⟨2, 1⟩ := hver.elim id id
  subst hver
  have h := pyCall_travels binary
  refine ⟨⟨h.noNul, ⟨by simp [HeldItems, Held, IsI64], by simp [SmallItems, Small], by simp [LoadableItems, Loadable]⟩, fun _ => ⟨_, rfl, by decide +kernel⟩, fun hb => ?_⟩,
    by simp [DatesAllItems, DatesAll]⟩
  have hx : ∀ t : Bytes, (∀ c ∈ t, (c.toNat < 128 ∧ Spec.isXmlChar c.toNat = true) ∧ c ≠ 13) → Spec.Xml.IsXmlText t ∧ (13 : UInt8) ∉ t :=
    fun t ht => ⟨XmlMarshaller.xmlText_ascii (fun c hc => (ht c hc).1), fun hc => (ht _ hc).2 rfl⟩
  refine ⟨?_, ?_⟩
  · exact ⟨by decide +kernel, hx _ (by decide +kernel), ⟨⟨⟨by decide, by decide⟩, by decide, fun _ => by decide⟩, trivial⟩⟩
  · exact example_length _ _ _ (by decide +kernel)

theorem cppPy_answer (ver : Version) (hver : ver = ⟨2, 1⟩) : PyCppAnswer exampleRemoteClient pyWebConf ver (.list [.int 1]) := by
  have h := pyAnswer_travels ver hver
  subst hver
  have hm : Spec.Python.means (.list [.int 1]) = some (.array [.int 1]) := by simp [Spec.Python.means, Spec.Python.meansItems]
  have hs : Spec.Python.Small (.list [.int 1]) := by simp [Spec.Python.Small, Spec.Python.SmallItems]
  exact ⟨.inr ⟨.array [.int 1], hm, hs, by simp [Held, HeldItems, IsI64], by simp [Small, SmallItems], fun _ => ⟨_, rfl⟩, fun h => by cases h⟩, h.short⟩

theorem cppPy_results : ∀ (cs : List Remote.Step), (∀ c ∈ cs, (∃ f, c = .addOnce f) ∨ ∃ net, c = .call (asc "f") [.int 1] net) → ∀ w : World Nat, w.corrupt = false →
    CppPyResults exampleRemoteClient pyWebConf exampleRemoteCfg pyHookReg w cs
  | [], _, _, _ => trivial
  | c :: cs, hc, w, hw => by
    have ih := cppPy_results cs (fun c h => hc c (by simp [h]))
    rcases hc c (by simp) with ⟨f, rfl⟩ | ⟨net, rfl⟩
    · exact ih w hw
    · have hk : ∀ (w : World Nat), w.corrupt = false → ∀ w0, PyHooked pyWebConf pyHookReg w w0 → w0.corrupt = false := by
        intro w hw w0 h
        cases h with
        | no => exact hw
        | yes _ => exact hw
      have ha : pyShown [.int 1] = [.int 1] := by simp [pyShown, plainItemsWith, plainWith, showsItems, shows]
      intro w0 h0
      have hw0 := hk w hw w0 h0
      rw [ha]
      refine ⟨?_, fun w1 h1 => ih w1 (hk _ hw0 _ h1), ?_⟩
      · rintro v custom w1 ⟨hpre, hd⟩
        obtain ⟨h1, -⟩ := pyAny_one w0 hw0 hpre hd
        cases h1
        refine ⟨?_, fun ver hver => ⟨cppPy_answer ver (hver.elim id id), fun val hv => ?_⟩⟩
        · intro f hf
          rcases List.mem_append.1 hf with hf | hf
          · cases hpre with
            | no h => cases h
            | yes _ _ => exact pyWeb_fields _ f hf
          · exact pyWeb_fields _ f hf
        · have : Spec.Python.means (.list [.int 1]) = some (.array [.int 1]) := by simp [Spec.Python.means, Spec.Python.meansItems]
          rw [this] at hv
          cases hv
          simp [DatesAll, DatesAllItems]
      · intro w1 h1
        cases h1 with
        | returned hpre hd => exact ih _ (pyAny_one w0 hw0 hpre hd).2
        | ended hpre hd hn => exact absurd (pyAny_one w0 hw0 hpre hd).1 (hn _)

theorem cppPy_compatible : CppPyCompatible exampleRemoteClient pyWebConf pyHookReg :=
  ⟨XmlParser.eager_conforms, XmlParser.eager_conforms, ⟨rfl, rfl⟩, rfl, fun _ _ _ => pyWeb_fields _⟩

example : CppPyAtMostOnce pyWebConf pyHookReg ⟨0, false⟩ (cppPyCalls cppPySteps)
    (CppToPy.session exampleRemoteClient pyWebConf pyHookReg (Proxy.new exampleUrl exampleRemoteCfg) ⟨PyWeb.new 0, none, false⟩ cppPySteps).1
    (CppToPy.session exampleRemoteClient pyWebConf pyHookReg (Proxy.new exampleUrl exampleRemoteCfg) ⟨PyWeb.new 0, none, false⟩ cppPySteps).2.2.live.world :=
  C131_session cppPy_compatible exampleUrl exampleRemoteCfg
    (by refine ⟨?_, ?_, ?_, ?_⟩ <;> first | decide +kernel | (intro f hf; cases hf) | (intro h; cases h)) ⟨by unfold Version.Known; decide, by decide⟩ 0 cppPySteps (by
      intro c hc
      simp only [cppPySteps, List.mem_cons, List.not_mem_nil, or_false] at hc
      rcases hc with rfl | rfl | rfl | rfl | rfl
      · exact cppPy_call _
      · exact cppPy_call _
      · show FieldOk _
        unfold FieldOk
        decide +kernel
      · exact cppPy_call _
      · exact cppPy_call _) (cppPy_results _ (by
      intro c hc
      simp only [cppPySteps, List.mem_cons, List.not_mem_nil, or_false] at hc
      rcases hc with rfl | rfl | rfl | rfl | rfl
      · exact .inr ⟨_, rfl⟩
      · exact .inr ⟨_, rfl⟩
      · exact .inl ⟨_, rfl⟩
      · exact .inr ⟨_, rfl⟩
      · exact .inr ⟨_, rfl⟩) _ rfl)

/-- The first three calls fail, and the last gives the value. -/
example : (CppToPy.session exampleRemoteClient pyWebConf pyHookReg (Proxy.new exampleUrl exampleRemoteCfg) ⟨PyWeb.new 0, none, false⟩ cppPySteps).1.map kindOf = [2, 2, 2, 0] := by
  decide +kernel

/-- Two of them were run all the same. -/
example : (CppToPy.session exampleRemoteClient pyWebConf pyHookReg (Proxy.new exampleUrl exampleRemoteCfg) ⟨PyWeb.new 0, none, false⟩ cppPySteps).2.2.live.world.user % 1000 = 333 := by
  decide +kernel

end Frpc
