import Verif.Model.PyRemote
import Verif.Props.PyProxy
import Verif.Props.PyWeb
/-!
# The Python client and the Python server together: C118
-/
namespace Frpc
open HttpIO HttpOut HttpServer Spec Spec.Http Spec.Web Spec.Proxy Spec.XmlRpc Remote
open PyServer (Reg World)
open Python (Py PB)
open PyProxy (Outcome Raised)
open Spec.Python (shows showsItems Loadable LoadableItems)
variable {σ τ : Type}

/-- A date-time as it arrives in the binary protocol or in XML. -/
def pyCarried (o : Python.Opts) (binary : Bool) (ver : Version) : DateTime → DateTime := if binary then Python.gotDate o ver else Python.xmlDate o

/-- What the client does so that the call can be sent and read: the name is a C string, the arguments stand for values, their texts are UTF-8, and the marshaller of the protocol takes
them. -/
structure PyCallTravels (C : PyProxy.Conf τ) (S : PyWeb.Conf σ) (binary : Bool) (ver : Version) (name : Bytes) (args : List Py) (vs : List Value) : Prop where
  noNul : (0 : UInt8) ∉ name
  means : Spec.Python.meansItems args = some vs
  small : Spec.Python.SmallItems args ∧ args.length < 2 ^ 30
  held : HeldItems vs ∧ SmallItems vs ∧ LoadableItems vs
  inBinary : binary = true → ∃ ws, sendCall C.strOk ver name vs = (ws, none) ∧ ws.flatten.length < 2 ^ 32
  inXml : binary = false → (Message.call name vs).Leaves (xmlNeed ver S.xml C.dbl) ∧
    ∀ ws, XmlMarshaller.run C.dbl ver (XmlMarshaller.ops (.call name vs)) = (ws, none) → ws.flatten.length < 2 ^ 32

/-- The format of answers to the Python client. -/
def pyOut (S : PyWeb.Conf σ) : OutType := if S.useBinary then .binary else .xml

/-- The result of a method, an object or a fault, can be sent to the client and read there. -/
structure PyAnswerTravels (C : PyProxy.Conf τ) (S : PyWeb.Conf σ) (ver : Version) (v : Py) : Prop where
  what : (∃ c m, v = .fault c m ∧ IsI32 c ∧ m.length < 2 ^ 30 ∧ isUtf8 m = true ∧ (S.useBinary = true → S.strOk m = true) ∧
      (S.useBinary = false → (Message.fault c m).Leaves (xmlNeed ver C.xml S.dbl))) ∨
    (∃ val, Spec.Python.means v = some val ∧ Spec.Python.Small v ∧ Held val ∧ Small val ∧ Loadable val ∧ (S.useBinary = true → ∃ ws, sendResponse S.strOk ver val = (ws, none)) ∧
      (S.useBinary = false → (Message.response val).Leaves (xmlNeed ver C.xml S.dbl)))
  short : ∀ ds, PyWeb.Packed S ver v (pyOut S) ds → ds.flatten.length < 2 ^ 63

/-- What the caller gets for the result: the object that stands for the same value, or the fault as an exception. -/
inductive PyGets (date : DateTime → DateTime) : Py → Outcome → Prop
  | value {v val} : Spec.Python.means v = some val → PyGets date v (.value (shows (plainWith date val)))
  | fault {c m} : PyGets date (.fault c m) (.raised (.fault c m))

/-- The hook before requests has run once more, or not: it runs before a request is awaited, and so also before one that never comes. -/
inductive PyHooked (S : PyWeb.Conf σ) (r : Reg σ) (w : World σ) : World σ → Prop
  | no : PyHooked S r w w
  | yes {f} : r.preRead = some f → PyHooked S r w { w with user := (S.added (f w.user []).2).2 }

/-- The call is run as a local caller of the registry would run it, after the hook: its result, the header fields that user functions have added, the world after it. -/
inductive PyRan (S : PyWeb.Conf σ) (r : Reg σ) (w : World σ) (name : Bytes) (args : List Py) : Py → HttpHeader.Fields → World σ → Prop
  | mk {w0 w1 v pre} : PreRead S r w w0 pre → PyServer.dispatch S.py r w0 name S.client (.ok (.tuple args)) = (.obj v, w1) →
      PyRan S r w name args v (pre ++ (S.added w1.user).1) { w1 with user := (S.added w1.user).2 }

/-- The two sides: the XML parsers conform, builders have no special options, and the hook adds proper header fields. -/
structure PyCompatible (C : PyProxy.Conf τ) (S : PyWeb.Conf σ) (r : Reg σ) : Prop where
  client : Spec.Xml.Conforms C.parser
  server : Spec.Xml.Conforms S.parser
  clientOpts : Python.Plain C.opts
  serverOpts : Python.Plain S.opts
  hook : ∀ f, r.preRead = some f → ∀ st, ∀ g ∈ (S.added (f st []).2).1, Spec.PyWeb.MayAdd g

/-- The proxy and the server agree on their connection: what the proxy keeps was read empty, and the numbers of connections are below the next; the server runs, and the header fields
that it has kept are proper. -/
structure PyLinked (p : Proxy.Proxy) (x : PyRemote.State σ) : Prop where
  clean : ∀ s, p.sock = some s → s.unread = [] ∧ s.id < p.made
  last : ∀ i c, x.last = some (i, c) → i < p.made
  alive : x.dead = false
  fields : ∃ left, (∀ f ∈ left, Spec.PyWeb.MayAdd f) ∧ x.live.out = PyWeb.polished left

namespace PyRemote

theorem connect_linked {p : Proxy.Proxy} {x : State σ} (h : PyLinked p x) {net : Remote.Net} (hlate : net.late = false) :
    ∃ id made n, (∀ reply, Proxy.connectSocket p (turnWith p x net reply) = (some ⟨id, []⟩, made)) ∧ x.served id = some n ∧ id < made ∧ p.made ≤ made := by
  have hfresh : x.served p.made = some 0 := by
    unfold State.served
    split
    · next i c hl =>
      have := h.last i c hl
      rw [if_neg (by omega)]
    · rfl
  unfold Proxy.connectSocket turnWith
  simp only [h.alive, Bool.not_false, if_true, List.append_nil]
  cases hs : p.sock with
  | none => exact ⟨p.made, p.made + 1, 0, fun _ => rfl, hfresh, by omega, by omega⟩
  | some s =>
    obtain ⟨h1, h2⟩ := h.clean s hs
    simp only [h1, true_and]
    by_cases hk : p.cfg.keepAlive = false
    · exact ⟨p.made, p.made + 1, 0, fun _ => by rw [if_pos hk], hfresh, by omega, by omega⟩
    · by_cases hb : net.broken = true
      · exact ⟨p.made, p.made + 1, 0, fun _ => by rw [if_neg hk, if_pos hb], hfresh, by omega, by omega⟩
      · by_cases hc : (net.lost || !net.late && goneBy p x) = true
        · exact ⟨p.made, p.made + 1, 0, fun _ => by rw [if_neg hk, if_neg hb, if_pos hc], hfresh, by omega, by omega⟩
        · simp only [hlate, Bool.not_false, Bool.true_and, Bool.or_eq_true, not_or, Bool.not_eq_true] at hc
          obtain ⟨n, hn⟩ : ∃ n, x.served s.id = some n := by
            have := hc.2
            unfold goneBy at this
            rw [hs] at this
            cases hx : x.served s.id with
            | none => simp [hx] at this
            | some n => exact ⟨n, rfl⟩
          exact ⟨s.id, p.made, n, fun _ => by rw [if_neg hk, if_neg hb, if_neg (by simp [hlate, hc])], hn, h2, by omega⟩

theorem read_nothing (S : PyWeb.Conf σ) (srv : Srv) : ∃ e s', PyWeb.readRequest S srv ⟨[], [], []⟩ = (.error (.io e), { srv with close := false, head := false }, s') :=
  ⟨_, _, rfl⟩

theorem readTurn_nothing (S : PyWeb.Conf σ) (r : Reg σ) (x : PyWeb.Live σ) :
    (PyWeb.readTurn S r ⟨x, ⟨[], [], []⟩, ⟨[], []⟩⟩).1.live = { x with srv := { x.srv with close := false, head := false } } := by
  obtain ⟨e, s', h⟩ := read_nothing S x.srv
  unfold PyWeb.readTurn
  simp only [h]

/-- `serve` when the client hangs up. -/
theorem hangUp_hooked {S : PyWeb.Conf σ} {r : Reg σ} (hh : ∀ f, r.preRead = some f → ∀ st, ∀ g ∈ (S.added (f st []).2).1, Spec.PyWeb.MayAdd g) (x : PyWeb.Live σ)
    (hx : ∃ left, (∀ f ∈ left, Spec.PyWeb.MayAdd f) ∧ x.out = PyWeb.polished left) :
    PyHooked S r x.world (hangUp S r x).world ∧ ∃ left, (∀ f ∈ left, Spec.PyWeb.MayAdd f) ∧ (hangUp S r x).out = PyWeb.polished left := by
  obtain ⟨left, h1, h2⟩ := hx
  unfold hangUp PyWeb.turn
  cases hp : r.preRead with
  | none =>
    simp only [readTurn_nothing]
    exact ⟨.no, left, h1, h2⟩
  | some f =>
    have key : ∀ w : World σ, w = { x.world with user := (f x.world.user []).2 } →
        PyHooked S r x.world (PyWeb.take S x w).world ∧ ∃ left, (∀ f ∈ left, Spec.PyWeb.MayAdd f) ∧ (PyWeb.take S x w).out = PyWeb.polished left := by
      rintro w rfl
      refine ⟨.yes hp, left ++ (S.added (f x.world.user []).2).1, ?_, ?_⟩
      · intro g hg
        exact (List.mem_append.1 hg).elim (h1 g) (hh f hp _ g)
      · unfold PyWeb.take
        simp only [PyWeb.added_polished, h2]
        simp [PyWeb.polished]
    simp only
    cases (f x.world.user []).1 with
    | error e => exact key _ rfl
    | ok v =>
      simp only [readTurn_nothing]
      exact key _ rfl

theorem ready_hooked {S : PyWeb.Conf σ} {r : Reg σ} (hh : ∀ f, r.preRead = some f → ∀ st, ∀ g ∈ (S.added (f st []).2).1, Spec.PyWeb.MayAdd g) (x : State σ) (id : Nat)
    (hx : ∃ left, (∀ f ∈ left, Spec.PyWeb.MayAdd f) ∧ x.live.out = PyWeb.polished left) :
    PyHooked S r x.live.world (ready S r x id).world ∧ ∃ left, (∀ f ∈ left, Spec.PyWeb.MayAdd f) ∧ (ready S r x id).out = PyWeb.polished left := by
  unfold ready
  split
  · next i c _ =>
    split
    · exact ⟨.no, hx⟩
    · cases c with
      | none => exact ⟨.no, hx⟩
      | some n => exact hangUp_hooked hh x.live hx
  · exact ⟨.no, hx⟩

/-! ## The messages -/

theorem answeredIn_py {b : Bool} {out : OutType} (h : AnsweredIn b (some (asc "text/xml, application/x-frpc")) out) : out = if b then .binary else .xml := by
  have hc : Contains (asc "application/x-frpc") (asc "text/xml, application/x-frpc") := by rw [← hasSub_iff]; decide +kernel
  cases out with
  | binary => rw [h.1]; rfl
  | json =>
    obtain ⟨a, e, -, h⟩ := h
    cases e
    exact absurd hc h
  | base64 =>
    obtain ⟨a, e, -, -, h⟩ := h
    cases e
    exact absurd hc h
  | xml =>
    rcases h _ rfl with h | h
    · rw [h.2]; rfl
    · exact absurd hc h.1

theorem call_carried {C : PyProxy.Conf τ} {S : PyWeb.Conf σ} {binary : Bool} {ver : Version} (hv : ver.Full) {name : Bytes} {args : List Py} {vs : List Value}
    (h : PyCallTravels C S binary ver name args vs) :
    ∃ ws, Proxy.packCall C.strOk C.dbl binary ver name vs = (ws, none) ∧ ws.flatten.length < 2 ^ 32 ∧
      PyCarries S (if binary then .binary else .xml) ws.flatten name (showsItems (plainItemsWith (pyCarried S.opts binary ver) vs)) ver := by
  cases binary with
  | true =>
    obtain ⟨ws, h1, h2⟩ := h.inBinary rfl
    refine ⟨ws, ?_, h2, .binary hv h.held.1 h.held.2.1 h.held.2.2 h1⟩
    unfold Proxy.packCall
    rw [(accepts_full hv).1]
    exact h1
  | false =>
    obtain ⟨h1, h2⟩ := h.inXml rfl
    obtain ⟨ws, root, g1, -⟩ := C29_document C.dbl ver (accepts_full hv).2 (.call name vs) h.held.2.1
      (XmlMarshaller.messageLeaves_mono (N := xmlNeed ver S.xml C.dbl) (fun _ h => h.1) (fun _ _ => trivial) (fun _ h => h.1) (fun _ _ => trivial) _ h1)
    exact ⟨ws, g1, h2 ws g1, .xml C.dbl hv h.held.2.1 h.held.2.2 h1 g1⟩

theorem answer_told {C : PyProxy.Conf τ} {S : PyWeb.Conf σ} {ver : Version} (hv : ver.Full) {v : Py} (h : PyAnswerTravels C S ver v) :
    ∃ ds o, PyWeb.Packed S ver v (pyOut S) ds ∧ (pyOut S = .binary → FirstWrite ds) ∧ ds.flatten.length < 2 ^ 63 ∧
      PyTells C (if S.useBinary then .binary else .xml) ds.flatten o ver ∧ PyGets (pyCarried C.opts S.useBinary ver) v o := by
  have a := accepts_full hv
  suffices ∃ ds o, PyWeb.Packed S ver v (pyOut S) ds ∧ (pyOut S = .binary → FirstWrite ds) ∧
      PyTells C (if S.useBinary then .binary else .xml) ds.flatten o ver ∧ PyGets (pyCarried C.opts S.useBinary ver) v o by
    obtain ⟨ds, o, h1, h2, h3, h4⟩ := this
    exact ⟨ds, o, h1, h2, h.short ds h1, h3, h4⟩
  rcases h.what with ⟨c, m, rfl, hc, hm, hu, hb, hx⟩ | ⟨val, hm, hs, hheld, hsm, hl, hb, hx⟩
  · have hr : -(2 : Int) ^ 63 ≤ c ∧ c < 2 ^ 63 := by unfold IsI32 at hc; omega
    have ht : m.take (sz32 m.length) = m := by unfold sz32; rw [Nat.mod_eq_of_lt (by omega)]; simp
    have hsc : PyWeb.script S (.fault c m) = ([.packFault c m], none) := by simp only [PyWeb.script, if_pos hr, i32_u32 hc, ht]
    unfold PyWeb.Packed pyOut
    rw [hsc]
    cases hub : S.useBinary with
    | true =>
      obtain ⟨ws, g1, -⟩ := C03_fault_roundtrip ⟨S.strOk, none⟩ ver hv.1 .response (by decide) c hc m hm (hb hub)
      have g1' : BinMarshaller.run S.strOk ver [.packFault c m] = (ws, none) := g1
      refine ⟨ws, .raised (.fault c m), ⟨.bin ver, ws, .bin ver, by simp [Mar.new, a.1], by simp only [Mar.packAll, g1'], rfl, by simp [Mar.ending]⟩, fun _ => ?_,
        .binaryFault hv hc hm (hb hub) hu g1, .fault⟩
      exact (C41_binary_first_write S.strOk ver ws).2.2 c m g1
    | false =>
      obtain ⟨ws, root, g1, -⟩ := C29_document S.dbl ver a.2 (.fault c m) trivial
        (XmlMarshaller.messageLeaves_mono (N := xmlNeed ver C.xml S.dbl) (fun _ h => h.1) (fun _ _ => trivial) (fun _ h => h.1) (fun _ _ => trivial) _ (hx hub))
      obtain ⟨ws', k, g2, g3⟩ := Web.mar_xml' (strOk := S.strOk) g1
      exact ⟨ws, .raised (.fault c m), ⟨.xml (XmlMarshaller.new ver), ws', k, by simp [Mar.new, a.2], g2, rfl, g3.symm⟩, fun h => absurd h (by simp),
        .xmlFault S.dbl hv hc hu (hx hub) g1, .fault⟩
  · unfold PyWeb.Packed pyOut
    rw [PyWeb.script_value S hm hs]
    cases hub : S.useBinary with
    | true =>
      obtain ⟨ws, g1⟩ := hb hub
      have g1' : BinMarshaller.run S.strOk ver (.packMethodResponse :: Frpc.feed val) = (ws, none) := g1
      refine ⟨ws, _, ⟨.bin ver, ws, .bin ver, by simp [Mar.new, a.1], by simp only [Mar.packAll, g1'], rfl, by simp [Mar.ending]⟩, fun _ => ?_,
        .binary hv hheld hsm hl g1, .value hm⟩
      exact (C41_binary_first_write S.strOk ver ws).2.1 val g1
    | false =>
      obtain ⟨ws, root, g1, -⟩ := C29_document S.dbl ver a.2 (.response val) hsm
        (XmlMarshaller.messageLeaves_mono (N := xmlNeed ver C.xml S.dbl) (fun _ h => h.1) (fun _ _ => trivial) (fun _ h => h.1) (fun _ _ => trivial) _ (hx hub))
      obtain ⟨ws', k, g2, g3⟩ := Web.mar_xml' (strOk := S.strOk) g1
      exact ⟨ws, _, ⟨.xml (XmlMarshaller.new ver), ws', k, by simp [Mar.new, a.2], g2, rfl, g3.symm⟩, fun h => absurd h (by simp),
        .xml S.dbl hv hsm hl (hx hub) g1, .value hm⟩

/-- The reply of the server, as a client sees it. -/
theorem reply_of {bytes : Bytes} {out : OutType} {custom : List (Bytes × Bytes)} {keep known : Bool} {data : Bytes} (h : Spec.PyWeb.IsReply bytes out custom keep known data)
    (hl : data.length < 2 ^ 63) : ∃ d : Reply, d.Ok ∧ d.status = 200 ∧ d.data = data ∧ d.text = bytes ∧ field (asc "Content-Type") d.fields = some (typeName out) := by
  obtain ⟨lines, given, own, body, h1, h2, h3, h4, -, h6, -⟩ := h
  refine ⟨⟨0, true, 200, asc "OK", lines, given ++ own, data, body⟩, ⟨by show 200 < 2 ^ 31; decide,
    by show asc "OK" ≠ [] ∧ (10 : UInt8) ∉ asc "OK" ∧ (asc "OK").getLast? ≠ some 13; decide +kernel, h2, h3, h4, hl⟩, rfl, rfl, ?_, h6⟩
  rw [h1]
  show responseText 0 true (dec 200) (asc "OK") lines ++ body = _
  rw [show dec 200 = asc "200" from by decide +kernel]

theorem typed (b : Bool) : ResponseIn (typeName (if b then .binary else .xml)) (if b then .binary else .xml) := by
  cases b
  · show Contains _ _
    rw [← hasSub_iff]; decide +kernel
  · show Contains _ _ ∧ ¬ Contains _ _
    rw [← hasSub_iff, ← hasSub_iff]; decide +kernel

/-- One call, in detail. -/
theorem call_of {C : PyProxy.Conf τ} {S : PyWeb.Conf σ} {r : Reg σ} (hok : PyCompatible C S r) (p : PyProxy.State τ) (x : State σ) (hl : PyLinked p.px x)
    (hp : ClientOk (PyProxy.clientOf C p.px)) (hv : p.px.version.Full) (name : Bytes) (args : List Py) (vs : List Value)
    (hc : PyCallTravels C S (Proxy.chooseBinary p.px) p.px.version name args vs) (net : Remote.Net) (hn : Delivers net)
    (ha : ∀ w0, PyHooked S r x.live.world w0 → ∃ v custom w1,
      PyRan S r w0 name (showsItems (plainItemsWith (pyCarried S.opts (Proxy.chooseBinary p.px) p.px.version) vs)) v custom w1 ∧ (∀ f ∈ custom, Spec.PyWeb.MayAdd f) ∧
      ∀ ver, ver = p.px.version ∨ ver = ⟨2, 1⟩ → PyAnswerTravels C S ver v) :
    ∃ w0 v custom w1 o p' x' ver', PyHooked S r x.live.world w0 ∧
      PyRan S r w0 name (showsItems (plainItemsWith (pyCarried S.opts (Proxy.chooseBinary p.px) p.px.version) vs)) v custom w1 ∧
      remoteCall C S r p x name args net = (o, p', x') ∧ x'.live.world = w1 ∧ (ver' = p.px.version ∨ ver' = ⟨2, 1⟩) ∧ PyGets (pyCarried C.opts S.useBinary ver') v o ∧
      PyLinked p'.px x' ∧ p'.px.url = p.px.url ∧ p'.px.cfg = p.px.cfg ∧ (p'.px.version = p.px.version ∨ p'.px.version = ⟨2, 1⟩) ∧ p'.px.once = [] ∧ p'.px.permanent = p.px.permanent := by
  obtain ⟨id, made, n, h1, hserved, hid, hmade⟩ := connect_linked hl hn.late
  have hconn : connection p.px x net = id := by unfold connection; rw [h1]
  obtain ⟨ws, hpack, hlen, hcar⟩ := call_carried hv hc
  generalize hargs : showsItems (plainItemsWith (pyCarried S.opts (Proxy.chooseBinary p.px) p.px.version) vs) = args' at hcar ha ⊢
  have hcan : PyCanCall C p name args vs ws := ⟨fun s hs => (hl.clean s hs).1, hv, hp, hc.noNul, hc.means, hc.small, hpack, by unfold LengthOk; split <;> omega⟩
  obtain ⟨hhook, left, hleft, hout⟩ := ready_hooked hok.hook x id hl.fields
  obtain ⟨v, custom, w1, hran, hcu, han⟩ := ha _ hhook
  -- the proxy
  generalize htd : turnWith p.px x net (fun b => (turn S r x id b net.arrive net.down).1) = t
  have hdel : PyDelivers t := by
    rw [← htd]
    exact ⟨by simp [turnWith, hl.alive], rfl, hn.up, hn.back⟩
  obtain ⟨id', made', bytes, c1, ⟨q, rfl, q1, q2, q3, q4, q5, q6, q7, q8⟩, c3⟩ := PyProxy.call_read C p hcan t hdel
  have hid' : id' = id ∧ made' = made := by
    have e : Proxy.connectSocket { p.px with once := [] } t = Proxy.connectSocket p.px t := rfl
    rw [e, ← htd, h1] at c1
    cases c1
    exact ⟨rfl, rfl⟩
  obtain ⟨rfl, rfl⟩ := hid'
  -- the server
  obtain ⟨hu, -⟩ := PyWeb.carries_understood hok.serverOpts hok.server hcar
  have hran' : Ran S r (ready S r x id').world ⟨q, if Proxy.chooseBinary p.px then .binary else .xml, name, args', p.px.version⟩ v custom w1 := by
    obtain ⟨a, b⟩ := hran
    exact .mk a b
  have hvf : ∀ ver, ver = p.px.version ∨ ver = ⟨2, 1⟩ → ver.Full := by
    rintro ver (h | h)
    · rw [h]; exact hv
    · rw [h]; exact Web.full21
  obtain ⟨a', bytes2, t1, t2, t3, t4, t5, t6, t7, t8, out, ver, ds, u1, u2, u3, u4⟩ := PyWeb.turn_packed S r ⟨ready S r x id', ⟨q.text, net.arrive, []⟩, ⟨net.down, []⟩⟩ hleft hout
    ⟨q, if Proxy.chooseBinary p.px then .binary else .xml, name, args', p.px.version⟩ q1 q2 hc.noNul (by rw [← q3] at hu; exact hu) hran' hcu (fun ver hver out hout => by
      rw [q7] at hout
      have := answeredIn_py hout
      subst this
      obtain ⟨ds, o, k1, k2, k3, -⟩ := answer_told (hvf ver hver) (han ver hver)
      exact ⟨ds, k1, k2, by omega⟩) [] (by simp) hn.arrive hn.down
  rw [q7] at u1
  have hout' : out = pyOut S := answeredIn_py u1
  subst hout'
  obtain ⟨ds', o, k1, k2, k3, k4, k5⟩ := answer_told (hvf ver u2) (han ver u2)
  rw [← u3.unique k1] at k3 k4
  obtain ⟨d, d1, d2, d3, d4, d5⟩ := reply_of u4 k3
  simp only [List.nil_append] at t5
  have hturn : turn S r x id' q.text net.arrive net.down =
      (bytes2, ⟨a'.live, some (id', if PyWeb.stop S a'.live.srv (n + 1) then none else some (n + 1)), false⟩) := by
    unfold turn
    rw [hserved]
    simp only [t1, afterTurn, t5, if_true]
  -- the answer
  obtain ⟨v', supports, e1, -, -, sock, e4, e5, e6⟩ := c3 d d1 d2 (if S.useBinary then .binary else .xml) (by rw [d5]; exact typed _) o
    (fun v => v = ver ∨ v = ⟨2, 1⟩) (by rw [d3]; exact PyProxy.tells_told hok.clientOpts hok.client k4) [] (by
      rw [← htd]
      show (turn S r x id' q.text net.arrive net.down).1 = _
      rw [hturn, d4, List.append_nil])
  have hrc : remoteCall C S r p x name args net = (o, ⟨{ p.px with once := [], made := made', sock := sock, supports := supports, version := v' }, name,
        PyProxy.runPost C (PyProxy.runPre C p.user name args).2 name args (PyProxy.runPre C p.user name args).1 o⟩,
       ⟨a'.live, some (id', if PyWeb.stop S a'.live.srv (n + 1) then none else some (n + 1)), false⟩) := by
    unfold remoteCall
    rw [hconn]
    simp only [htd, e6, hturn]
  refine ⟨(ready S r x id').world, v, custom, w1, o, _, _, ver, hhook, hran, hrc, t6, u2, k5, ?_, rfl, rfl, ?_, rfl, rfl⟩
  · refine ⟨fun s hs => ?_, fun i c hs => ?_, rfl, [], by simp, by rw [t7]; rfl⟩
    · by_cases hk : p.px.cfg.keepAlive = true ∧ Persists d.http11 (field (asc "Connection") d.fields)
      · have := e4 hk
        simp only at hs
        rw [this] at hs
        cases hs
        exact ⟨rfl, hid⟩
      · have := e5 hk
        simp only at hs
        rw [this] at hs
        cases hs
    · simp only [Option.some.injEq, Prod.mk.injEq] at hs
      rw [← hs.1]; exact hid
  · rcases e1 with h | h
    · exact u2.imp (fun h' => h.trans h') (fun h' => h.trans h')
    · exact .inr h

end PyRemote

/-- **C118 (one call).** `fastrpc.ServerProxy` in any state that a history leaves it in, in any mode and so in either protocol, against `fastrpc.Server` in any state between
requests, which answers in either: over any network that delivers the bytes, in whatever pieces, with the kept connection still there or lost or closed by the server, the caller gets
what a local call of the registry gives: an object that stands for the same value, with date-times as far as the protocol carries them, or its fault as an exception.
The method is run exactly once, in the state the server is in, and the two are ready for the next call. The hook before requests has run once before it, and once more
if the server was waiting on a connection that the proxy has given up. Missing: results that cannot be sent (C115), closing that is not seen in time. -/
theorem C118_call_partial {C : PyProxy.Conf τ} {S : PyWeb.Conf σ} {r : Reg σ} (hok : PyCompatible C S r) (p : PyProxy.State τ) (x : PyRemote.State σ) (hl : PyLinked p.px x)
    (hp : ClientOk (PyProxy.clientOf C p.px)) (hv : p.px.version.Full) (name : Bytes) (args : List Py) (vs : List Value)
    (hc : PyCallTravels C S (Proxy.chooseBinary p.px) p.px.version name args vs) (net : Remote.Net) (hn : Delivers net)
    (ha : ∀ w0, PyHooked S r x.live.world w0 → ∃ v custom w1,
      PyRan S r w0 name (showsItems (plainItemsWith (pyCarried S.opts (Proxy.chooseBinary p.px) p.px.version) vs)) v custom w1 ∧ (∀ f ∈ custom, Spec.PyWeb.MayAdd f) ∧
      ∀ ver, ver = p.px.version ∨ ver = ⟨2, 1⟩ → PyAnswerTravels C S ver v) :
    ∃ w0 v custom o p' x' ver', PyHooked S r x.live.world w0 ∧
      PyRan S r w0 name (showsItems (plainItemsWith (pyCarried S.opts (Proxy.chooseBinary p.px) p.px.version) vs)) v custom x'.live.world ∧
      PyRemote.remoteCall C S r p x name args net = (o, p', x') ∧ (ver' = p.px.version ∨ ver' = ⟨2, 1⟩) ∧ PyGets (pyCarried C.opts S.useBinary ver') v o ∧ PyLinked p'.px x' := by
  obtain ⟨w0, v, custom, w1, o, p', x', ver', h1, h2, h3, h4, h5, h6, h7, -⟩ := PyRemote.call_of hok p x hl hp hv name args vs hc net hn ha
  subst h4
  exact ⟨w0, v, custom, o, p', x', ver', h1, h2, h3, h5, h6, h7⟩

/-- **C118 (the client's side).** Whatever the server and the network do: every step of a session is a step of the proxy with some network, with the same header fields and arguments,
so that what C116 and C117 say for every network holds here. -/
theorem C118_client (C : PyProxy.Conf τ) (S : PyWeb.Conf σ) (r : Reg σ) (p : PyProxy.State τ) (x : PyRemote.State σ) (name : Bytes) (args : List Py) (headers : List PyProxy.Given)
    (net : Remote.Net) : ∃ t : Proxy.Turn, t.connect = !x.dead ∧ ∃ o sent, PyProxy.step C p (.call name args headers t) = (some (o, sent), (PyRemote.step C S r p x (.call name args headers net)).2.1) ∧
      (PyRemote.step C S r p x (.call name args headers net)).1 = [o] := by
  unfold PyProxy.step PyRemote.step
  simp only
  by_cases c : (PyProxy.feedHeaders headers p.px.once).1 = true
  · simp only [if_pos c]
    exact ⟨_, rfl, _, _, rfl, rfl⟩
  · simp only [if_neg c]
    exact ⟨PyRemote.turnWith p.px x net (fun b => b), rfl, _, _, rfl, rfl⟩

/-- **C118 (the end of the process).** When a request has ended the server's process, no call on a new connection gets a value, and nothing reaches the server. -/
theorem C118_dead (C : PyProxy.Conf τ) (S : PyWeb.Conf σ) (r : Reg σ) (p : PyProxy.State τ) (x : PyRemote.State σ) (hd : x.dead = true) (hs : p.px.sock = none) (name : Bytes) (args : List Py)
    (net : Remote.Net) : (∀ v, (PyRemote.remoteCall C S r p x name args net).1 ≠ .value v) ∧ (PyRemote.remoteCall C S r p x name args net).2.2 = x := by
  have key : ∀ t : Proxy.Turn, t.connect = false → (∀ v, (PyProxy.call C p name args t).1 ≠ .value v) ∧ (PyProxy.call C p name args t).2.2 = none := by
    intro t ht
    have hk : ∀ q : Proxy.Proxy, q.sock = none → ∃ made, Proxy.connectSocket q t = (none, made) := by
      intro q hq
      unfold Proxy.connectSocket
      simp [hq, ht]
    unfold PyProxy.call
    split
    · exact ⟨fun v h => (by cases h), rfl⟩
    · simp only
      unfold PyProxy.exchange
      obtain ⟨made, h1⟩ := hk { p.px with once := [] } hs
      simp only [h1]
      split
      · next o _ h2 _ =>
        refine ⟨?_, rfl⟩
        unfold PyProxy.failure at h2
        intro v hv
        simp only at hv
        subst hv
        split at h2
        · next e _ => cases e <;> simp [PyProxy.ofErr] at h2
        · simp at h2
        · simp at h2
      · exact ⟨fun v h => (by cases h), rfl⟩
  unfold PyRemote.remoteCall
  obtain ⟨h1, h2⟩ := key (PyRemote.turnWith p.px x net (fun b => (PyRemote.turn S r x (PyRemote.connection p.px x net) b net.arrive net.down).1)) (by
    show (!x.dead) = false
    rw [hd]; rfl)
  exact ⟨h1, by simp only [h2]⟩

/-- **C118 (closing).** A turn in which `serve` ends leaves the connection closed and tells whether the process goes on; a turn after which it waits leaves it open; other connections are
as they were before the first request. -/
theorem C118_closing (S : PyWeb.Conf σ) (r : Reg σ) (x : PyRemote.State σ) (id : Nat) (got : Bytes) (arrive : List Ev) (down : List SEv) (n : Nat) (hn : x.served id = some n) :
    ∃ l, let q := PyWeb.turn S r ⟨l, ⟨got, arrive, []⟩, ⟨down, []⟩⟩
      (∀ i c, x.last = some (i, c) → i ≠ id → l.srv.close = false ∧ l.srv.head = false) ∧
      (PyRemote.turn S r x id got arrive down).1 = q.1.wire.sent ∧
      (∀ e, q.2 = .stop e → (PyRemote.turn S r x id got arrive down).2.served id = none ∧ ((PyRemote.turn S r x id got arrive down).2.dead = true ↔ e = .terminate ∨ e = .crash)) ∧
      (∀ b, q.2 = .again b → ((PyRemote.turn S r x id got arrive down).2.served id = none ↔ PyWeb.stop S q.1.live.srv (if b then n + 1 else n) = true)) := by
  refine ⟨PyRemote.ready S r x id, ?_⟩
  simp only
  have hl : ∀ i c, x.last = some (i, c) → i ≠ id → (PyRemote.ready S r x id).srv.close = false ∧ (PyRemote.ready S r x id).srv.head = false := by
    intro i c h1 h2
    unfold PyRemote.ready
    simp only [h1, if_neg h2]
    exact ⟨trivial, trivial⟩
  unfold PyRemote.turn
  simp only [hn]
  generalize PyWeb.turn S r _ = q
  obtain ⟨a, nx⟩ := q
  refine ⟨hl, ?_, ?_, ?_⟩
  · cases nx <;> rfl
  · intro e he
    simp only at he
    subst he
    refine ⟨?_, ?_⟩
    · simp [PyRemote.afterTurn, PyRemote.State.served]
    · simp [PyRemote.afterTurn]
  · intro b hb
    simp only at hb
    subst hb
    simp only [PyRemote.afterTurn, PyRemote.State.served, if_true]
    split <;> simp_all

/-- The arguments as the server's functions get them, if the protocol carries their date-times. -/
def pyArrived (args : List Py) : List Py := showsItems (plainItemsWith id ((Spec.Python.meansItems args).getD []))

/-- A header field that may be given with a call. -/
def PyFieldOk (f : Bytes × Bytes) : Prop := FieldOk f ∧ f.1.map toLower ≠ asc "content-length"

/-- What the steps of a session must satisfy: calls can be sent in the protocols and versions the proxy may use, their date-times are ones that arrive as they were, and header fields
are well formed. -/
def PyStepOk (C : PyProxy.Conf τ) (S : PyWeb.Conf σ) (cfg : Proxy.Config) : PyRemote.Step → Prop
  | .call name args headers net => Delivers net ∧ (∀ h ∈ headers, ∃ f, h = .pair f ∧ PyFieldOk f) ∧ ∃ vs, ∀ binary ver, Usable cfg.mode binary → Spoken cfg ver →
      PyCallTravels C S binary ver name args vs ∧ DatesAllItems (fun d => pyCarried S.opts binary ver d = d) vs
  | .close => True

/-- The results of the calls, made locally one after another from the state, can be sent back, and their date-times arrive as they were. -/
def PyResultsOk (C : PyProxy.Conf τ) (S : PyWeb.Conf σ) (cfg : Proxy.Config) (r : Reg σ) : World σ → List PyRemote.Step → Prop
  | _, [] => True
  | w, .call name args _ _ :: cs => ∀ w0, PyHooked S r w w0 → ∃ v custom w1, PyRan S r w0 name (pyArrived args) v custom w1 ∧ (∀ f ∈ custom, Spec.PyWeb.MayAdd f) ∧
      (∀ ver, Spoken cfg ver → PyAnswerTravels C S ver v ∧ ∀ val, Spec.Python.means v = some val → DatesAll (fun d => pyCarried C.opts S.useBinary ver d = d) val) ∧
      PyResultsOk C S cfg r w1 cs
  | w, .close :: cs => PyResultsOk C S cfg r w cs

/-- The calls of a session, with the arguments as they arrive. -/
def pyCallsOf : List PyRemote.Step → List (Bytes × List Py)
  | [] => []
  | .call name args _ _ :: cs => (name, pyArrived args) :: pyCallsOf cs
  | .close :: cs => pyCallsOf cs

/-- Calls made locally, one after another: what they come to, and the world after them. The hook before requests runs before each, and perhaps once more. -/
inductive PyLocalCalls (S : PyWeb.Conf σ) (r : Reg σ) : World σ → List (Bytes × List Py) → List Outcome → World σ → Prop
  | nil {w} : PyLocalCalls S r w [] [] w
  | cons {w w0 w1 w2 name args v custom o cs os} : PyHooked S r w w0 → PyRan S r w0 name args v custom w1 → PyGets id v o → PyLocalCalls S r w1 cs os w2 →
      PyLocalCalls S r w ((name, args) :: cs) (o :: os) w2

namespace PyRemote

theorem preRead_unique {S : PyWeb.Conf σ} {r : Reg σ} {w w0 w0' : World σ} {pre pre' : HttpHeader.Fields} (h : PreRead S r w w0 pre) (h' : PreRead S r w w0' pre') : w0 = w0' ∧ pre = pre' := by
  cases h with
  | no h =>
    cases h' with
    | no _ => exact ⟨rfl, rfl⟩
    | yes g _ => rw [h] at g; cases g
  | yes h1 h2 =>
    cases h' with
    | no g => rw [h1] at g; cases g
    | yes g1 g2 =>
      rw [h1] at g1
      cases g1
      rw [h2] at g2
      cases g2
      exact ⟨rfl, rfl⟩

theorem ran_unique {S : PyWeb.Conf σ} {r : Reg σ} {w w1 w1' : World σ} {name : Bytes} {args : List Py} {v v' : Py} {c c' : HttpHeader.Fields} (h : PyRan S r w name args v c w1)
    (h' : PyRan S r w name args v' c' w1') : v = v' ∧ w1 = w1' := by
  obtain ⟨a1, a2⟩ := h
  obtain ⟨b1, b2⟩ := h'
  obtain ⟨rfl, rfl⟩ := preRead_unique a1 b1
  rw [a2] at b2
  cases b2
  exact ⟨rfl, rfl⟩

/-- What stays true of the proxy of a session. -/
structure Ready (url : Url.Url) (cfg : Proxy.Config) (p : Proxy.Proxy) : Prop where
  hurl : p.url = url
  hcfg : p.cfg = cfg
  version : Spoken cfg p.version
  fields : ∀ f ∈ p.permanent ++ p.once, PyFieldOk f

theorem feedHeaders_ok : ∀ (hs : List PyProxy.Given), (∀ h ∈ hs, ∃ f, h = .pair f ∧ PyFieldOk f) → ∀ once, (∀ f ∈ once, PyFieldOk f) →
    (PyProxy.feedHeaders hs once).1 = true ∧ ∀ f ∈ (PyProxy.feedHeaders hs once).2, PyFieldOk f
  | [], _, once, ho => ⟨rfl, ho⟩
  | h :: hs, hh, once, ho => by
    obtain ⟨f, rfl, hf⟩ := hh h (by simp)
    refine feedHeaders_ok hs (fun h hm => hh h (by simp [hm])) (once ++ [f]) (fun g hg => ?_)
    rcases List.mem_append.1 hg with hg | hg
    · exact ho g hg
    · rw [List.mem_singleton.1 hg]; exact hf

theorem session_of {C : PyProxy.Conf τ} {S : PyWeb.Conf σ} {r : Reg σ} (hok : PyCompatible C S r) (url : Url.Url) (cfg : Proxy.Config)
    (hurl : ClientOk (clientFor url cfg.http10 true cfg.keepAlive false [])) (hv : cfg.version.Full) : ∀ (cs : List Step) (p : PyProxy.State τ) (x : State σ), Ready url cfg p.px →
      PyLinked p.px x → (∀ c ∈ cs, PyStepOk C S cfg c) → PyResultsOk C S cfg r x.live.world cs →
      PyLocalCalls S r x.live.world (pyCallsOf cs) (session C S r p x cs).1 (session C S r p x cs).2.2.live.world
  | [], _, _, _, _, _, _ => .nil
  | .close :: cs, p, x, hr, hl, hs, ho => by
    have ih := session_of hok url cfg hurl hv cs { p with px := { p.px with sock := none } } x ⟨hr.hurl, hr.hcfg, hr.version, hr.fields⟩ ⟨by simp, hl.last, hl.alive, hl.fields⟩
      (fun c hc => hs c (by simp [hc])) ho
    exact ih
  | .call name args headers net :: cs, p, x, hr, hl, hs, ho => by
    obtain ⟨hn, hh, vs, hc⟩ : PyStepOk C S cfg (.call name args headers net) := hs _ (by simp)
    obtain ⟨f1, f2⟩ := feedHeaders_ok headers hh p.px.once (fun f hf => hr.fields f (by simp [hf]))
    generalize hy : ({ p with px := { p.px with once := (PyProxy.feedHeaders headers p.px.once).2 } } : PyProxy.State τ) = y
    have hry : Ready url cfg y.px := by
      rw [← hy]
      refine ⟨hr.hurl, hr.hcfg, hr.version, fun f hf => ?_⟩
      rcases List.mem_append.1 hf with hf | hf
      · exact hr.fields f (List.mem_append.2 (.inl hf))
      · exact f2 f hf
    have hly : PyLinked y.px x := by
      rw [← hy]
      exact ⟨hl.clean, hl.last, hl.alive, hl.fields⟩
    have hu := chooseBinary_usable y.px
    rw [hry.hcfg] at hu
    obtain ⟨hc1, hc2⟩ := hc (Proxy.chooseBinary y.px) y.px.version hu hry.version
    have hsp : ∀ ver, ver = y.px.version ∨ ver = ⟨2, 1⟩ → Spoken cfg ver := by
      rintro ver (h | h)
      · rw [h]; exact hry.version
      · exact .inr h
    have hfull : y.px.version.Full := by
      rcases hry.version with h | h
      · rw [h]; exact hv
      · rw [h]; exact Web.full21
    have hargs : showsItems (plainItemsWith (pyCarried S.opts (Proxy.chooseBinary y.px) y.px.version) vs) = pyArrived args := by
      unfold pyArrived
      rw [hc1.means, Option.getD_some, plainWith_congrItems _ id vs hc2]
    have hclient : ClientOk (PyProxy.clientOf C y.px) := by
      refine ⟨?_, ?_, fun f hf => (hry.fields f hf).1, fun _ f hf => (hry.fields f hf).2⟩
      · have := hurl.path
        unfold PyProxy.clientOf
        rw [hry.hurl]
        exact this
      · have := hurl.host
        unfold PyProxy.clientOf
        rw [hry.hurl]
        exact this
    obtain ⟨w0, v, custom, w1, o, p', x', ver', h1, h2, h3, h4, h5, h6, h7, h8, h9, h10, h11, h12⟩ := call_of hok y x hly hclient hfull name args vs hc1 net hn
      (fun w0 hw => by
        rw [hargs]
        obtain ⟨v, custom, w1, a1, a2, a3, -⟩ := ho w0 hw
        exact ⟨v, custom, w1, a1, a2, fun ver hver => (a3 ver (hsp ver hver)).1⟩)
    rw [hargs] at h2
    obtain ⟨v2, custom2, w2, a1, -, a3, a4⟩ := ho w0 h1
    obtain ⟨rfl, rfl⟩ := ran_unique h2 a1
    have ih := session_of hok url cfg hurl hv cs p' x' ⟨h8.trans hry.hurl, h9.trans hry.hcfg, h10.elim (fun h => by rw [h]; exact hry.version) .inr, by
      rw [h11, h12, List.append_nil]
      exact fun f hf => hry.fields f (by simp [hf])⟩ h7 (fun c hc => hs c (by simp [hc])) (by rw [h4]; exact a4)
    simp only [session, step, f1, if_true, hy, h3, List.singleton_append]
    refine .cons h1 h2 ?_ (by rw [h4] at ih; exact ih)
    cases h6 with
    | fault => exact .fault
    | value hm =>
      rw [plainWith_congr _ id _ ((a3 ver' (hsp ver' h5)).2 _ hm)]
      exact .value hm

end PyRemote

/-- **C118 (a session).** Any number of calls through one proxy, whatever its mode, its keep-alive and its HTTP version, whatever protocol and limits the server has, whatever header
fields are given with calls, and whatever connections are lost or closed between the calls, give the outcomes and the final state of the same calls made locally one after another, if
the calls and those results can be sent and their date-times arrive as they are. -/
theorem C118_session_partial {C : PyProxy.Conf τ} {S : PyWeb.Conf σ} {r : Reg σ} (hok : PyCompatible C S r) (url : Url.Url) (cfg : Proxy.Config)
    (hurl : ClientOk (clientFor url cfg.http10 true cfg.keepAlive false [])) (hv : cfg.version.Full) (last : Bytes) (user : τ) (st : σ) (cs : List PyRemote.Step)
    (hs : ∀ c ∈ cs, PyStepOk C S cfg c) (ho : PyResultsOk C S cfg r ⟨st, false⟩ cs) :
    let q := PyRemote.session C S r ⟨Proxy.new url cfg, last, user⟩ ⟨PyWeb.new st, none, false⟩ cs
    PyLocalCalls S r ⟨st, false⟩ (pyCallsOf cs) q.1 q.2.2.live.world :=
  PyRemote.session_of hok url cfg hurl hv cs ⟨Proxy.new url cfg, last, user⟩ ⟨PyWeb.new st, none, false⟩ ⟨rfl, rfl, .inl rfl, by simp [Proxy.new]⟩
    ⟨by simp [Proxy.new], by simp, rfl, [], by simp, rfl⟩ hs ho

/-! ## Witnesses -/

/-- The registry of the examples with a hook before requests. -/
def pyHookReg : Reg Nat := { pyReg with preRead := some (fun st _ => (.ok .none, st + 1000)) }

theorem pyHook_f (st : Nat) : PyServer.dispatch pyOld pyHookReg ⟨st, false⟩ (asc "f") (.tuple []) (.ok (.tuple [.int 1])) = (.obj (.list [.int 1]), ⟨st + 10 + 1 + 100, false⟩) :=
  C111_call_partial pyOld rfl pyHookReg ⟨st, false⟩ (asc "f") (by decide +kernel) (.tuple []) [.int 1] _ rfl pyCount rfl (st + 10) (st + 10 + 1) (st + 10 + 1 + 100) (.ok (.list [.int 1])) _
    (.some pyPass .none (st + 10) rfl rfl) rfl (.silent pyQuiet _ _ _ _ _ rfl (.result _ (by intros; simp)) rfl (.value _))

/-- Two calls, on two connections; the second has a header field. -/
def pyTwoCalls : List PyRemote.Step := [.call (asc "f") [.int 1] [] quickNet, .close, .call (asc "f") [.int 1] [.pair (asc "X-A", asc "1")] quickNet]

example : PyCompatible pyProxyConf pyWebConf pyHookReg :=
  ⟨XmlParser.eager_conforms, XmlParser.eager_conforms, ⟨rfl, rfl⟩, ⟨rfl, rfl⟩, fun _ _ _ => pyWeb_fields _⟩

theorem pyCall_travels (binary : Bool) : PyCallTravels pyProxyConf pyWebConf binary ⟨2, 1⟩ (asc "f") [.int 1] [.int 1] := by
  have hx : ∀ t : Bytes, (∀ c ∈ t, (c.toNat < 128 ∧ Spec.isXmlChar c.toNat = true) ∧ c ≠ 13) → Spec.Xml.IsXmlText t ∧ (13 : UInt8) ∉ t :=
    fun t ht => ⟨XmlMarshaller.xmlText_ascii (fun c hc => (ht c hc).1), fun hc => (ht _ hc).2 rfl⟩
  refine ⟨by decide +kernel, by simp [Spec.Python.means, Spec.Python.meansItems], by simp [Spec.Python.Small, Spec.Python.SmallItems],
    ⟨by simp [HeldItems, Held, IsI64], by simp [SmallItems, Small], by simp [LoadableItems, Loadable]⟩, fun _ => ⟨_, rfl, by decide +kernel⟩, fun _ => ⟨?_, ?_⟩⟩
  · exact ⟨by decide +kernel, hx _ (by decide +kernel), ⟨⟨⟨by decide, by decide⟩, by decide, fun _ => by decide⟩, trivial⟩⟩
  · exact example_length _ _ _ (by decide +kernel)

example : ∀ c ∈ pyTwoCalls, PyStepOk pyProxyConf pyWebConf exampleRemoteCfg c := by
  have hq : Delivers quickNet := ⟨rfl, by intro e he; simp [quickNet] at he, by intro e he; simp [quickNet] at he, by intro e he; simp [quickNet] at he, by intro e he; simp [quickNet] at he⟩
  have key : ∃ vs, ∀ binary ver, Usable exampleRemoteCfg.mode binary → Spoken exampleRemoteCfg ver →
      PyCallTravels pyProxyConf pyWebConf binary ver (asc "f") [.int 1] vs ∧ DatesAllItems (fun d => pyCarried pyWebConf.opts binary ver d = d) vs := by
    refine ⟨[.int 1], fun binary ver _ hver => ?_⟩
    have hver : ver = ⟨2, 1⟩ := hver.elim id id
    subst hver
    exact ⟨pyCall_travels binary, by simp [DatesAllItems, DatesAll]⟩
  intro c hc
  simp only [pyTwoCalls, List.mem_cons, List.not_mem_nil, or_false] at hc
  rcases hc with rfl | rfl | rfl
  · exact ⟨hq, by simp, key⟩
  · trivial
  · refine ⟨hq, ?_, key⟩
    intro h hh
    rw [List.mem_singleton] at hh
    subst hh
    exact ⟨_, rfl, by unfold PyFieldOk FieldOk; decide +kernel⟩

theorem pyAnswer_travels (ver : Version) (hver : ver = ⟨2, 1⟩) : PyAnswerTravels pyProxyConf pyWebConf ver (.list [.int 1]) := by
  subst hver
  have hm : Spec.Python.means (.list [.int 1]) = some (.array [.int 1]) := by simp [Spec.Python.means, Spec.Python.meansItems]
  have hs : Spec.Python.Small (.list [.int 1]) := by simp [Spec.Python.Small, Spec.Python.SmallItems]
  refine ⟨.inr ⟨.array [.int 1], hm, hs, by simp [Held, HeldItems, IsI64], by simp [Small, SmallItems], by simp [Loadable, LoadableItems], fun _ => ⟨_, rfl⟩, fun h => by cases h⟩, ?_⟩
  rintro ds ⟨m, ws, k, h1, h2, -, rfl⟩
  have e1 : m = .bin ⟨2, 1⟩ := by
    have : Mar.new (pyOut pyWebConf) ⟨2, 1⟩ = some (.bin ⟨2, 1⟩) := rfl
    rw [this] at h1
    cases h1
    rfl
  subst e1
  rw [PyWeb.script_value pyWebConf hm hs] at h2
  have : (Mar.bin ⟨2, 1⟩).packAll pyWebConf.strOk pyWebConf.dbl (.packMethodResponse :: Frpc.feed (.array [.int 1])) =
    (([[202, 17, 2, 1], [112], [88], [1], [56], [1]] : List Bytes), .bin ⟨2, 1⟩, none) := rfl
  rw [this] at h2
  cases h2
  decide +kernel

theorem pyTwo_results (st : Nat) : PyResultsOk pyProxyConf pyWebConf exampleRemoteCfg pyHookReg ⟨st, false⟩ pyTwoCalls := by
  have key : ∀ (w0 : World Nat), w0.corrupt = false → ∃ w1 custom, w1.corrupt = false ∧ PyRan pyWebConf pyHookReg w0 (asc "f") (pyArrived [.int 1]) (.list [.int 1]) custom w1 ∧ ∀ f ∈ custom, Spec.PyWeb.MayAdd f := by
    rintro ⟨st, _⟩ rfl
    have ha : pyArrived [.int 1] = [.int 1] := by simp [pyArrived, Spec.Python.means, Spec.Python.meansItems, plainItemsWith, plainWith, showsItems, shows]
    rw [ha]
    refine ⟨_, _, rfl, .mk (.yes (f := fun st _ => (.ok .none, st + 1000)) rfl rfl) (pyHook_f _), ?_⟩
    intro f hf
    rcases List.mem_append.1 hf with hf | hf <;> exact pyWeb_fields _ f hf
  have hk : ∀ (w : World Nat), w.corrupt = false → ∀ w0, PyHooked pyWebConf pyHookReg w w0 → w0.corrupt = false := by
    intro w hw w0 h
    cases h with
    | no => exact hw
    | yes _ => exact hw
  have hver : ∀ ver, Spoken exampleRemoteCfg ver → PyAnswerTravels pyProxyConf pyWebConf ver (.list [.int 1]) ∧
      ∀ val, Spec.Python.means (.list [.int 1]) = some val → DatesAll (fun d => pyCarried pyProxyConf.opts pyWebConf.useBinary ver d = d) val := by
    intro ver hver
    refine ⟨pyAnswer_travels ver (hver.elim id id), fun val hv => ?_⟩
    have : Spec.Python.means (.list [.int 1]) = some (.array [.int 1]) := by simp [Spec.Python.means, Spec.Python.meansItems]
    rw [this] at hv
    cases hv
    simp [DatesAll, DatesAllItems]
  intro w0 h0
  obtain ⟨w1, c1, b1, r1, m1⟩ := key w0 (hk _ rfl _ h0)
  refine ⟨_, c1, w1, r1, m1, hver, fun w0 h0 => ?_⟩
  obtain ⟨w2, c2, b2, r2, m2⟩ := key w0 (hk _ b1 _ h0)
  exact ⟨_, c2, w2, r2, m2, hver, trivial⟩

/-- What the session comes to: both calls return, and the hook has run three times. -/
example : (PyRemote.session pyProxyConf pyWebConf pyHookReg ⟨Proxy.new exampleUrl exampleRemoteCfg, [], 0⟩ ⟨PyWeb.new 0, none, false⟩ pyTwoCalls).2.2.live.world.user = 3222 := by
  decide +kernel

end Frpc
