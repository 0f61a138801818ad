import Verif.Proofs.PyXml
import Verif.Props.PyServerSystem
/-!
# The Python server over HTTP: C114
-/
namespace Frpc
open HttpIO HttpOut HttpServer Spec.XmlRpc Remote Spec.Web
open PyServer (Reg World)
open Python (Py PB)
open Spec.Xml (IsDocument)
open Spec.Http (AnsweredIn field)
open Spec (HeldItems SmallItems plainItemsWith)
open Spec.Python (showsItems LoadableItems)
variable {σ : Type}

namespace PyWeb

/-- What the client must have sent: the unmarshaller of the kind makes of it the call, in whatever pieces it comes. -/
structure Understood (S : PyWeb.Conf σ) (k : HttpServer.Kind) (data name : Bytes) (args : List Py) (V : Version → Prop) : Prop where
  feed : ∀ l : List Bytes, (∀ p ∈ l, p ≠ []) → l.flatten <+: data → PyWeb.feed S k l = none
  finish : ∀ l : List Bytes, (∀ p ∈ l, p ≠ []) → l.flatten = data → PyWeb.finish S k l = none
  built : ∀ l : List Bytes, (∀ p ∈ l, p ≠ []) → l.flatten = data → (PyWeb.built S k l).error = none ∧ (PyWeb.built S k l).methodName = some name ∧
    Python.seen (PyWeb.built S k l) = .list args ∧ V (version S k l)

/-- The call, in whatever pieces, as the binary unmarshaller and the builder have it. -/
theorem call_read (S : PyWeb.Conf σ) (hp : Python.Plain S.opts) {strOk : Bytes → Bool} {ver : Version} (hv : ver.Full) {name : Bytes} {vs : List Value}
    (h1 : HeldItems vs) (h2 : SmallItems vs) (hl : LoadableItems vs) {ws : List Bytes} (h3 : sendCall strOk ver name vs = (ws, none)) :
    ∃ o pb, BinUnMarshaller.finish o = .ok () ∧ pb.error = none ∧ pb.methodName = some name ∧
      Python.seen pb = .list (showsItems (plainItemsWith (Python.gotDate S.opts ver) vs)) ∧
      ∀ l : List Bytes, l.flatten = ws.flatten → binRead S l = (o, pb, none) := by
  have hrun : (BinMarshaller.run strOk ver (.packMethodCall name :: Frpc.feedItems vs)).2 = none := by
    have : (sendCall strOk ver name vs).2 = none := by rw [h3]
    exact this
  have hw := acceptedItems hv.2 vs h1 h2 (run_one_none _ _ hrun).2
  have hn := Python.name_of_run hrun
  obtain ⟨wa, hr, hd⟩ := codecTop (req := .call) (stop := false) hv.1 0 vs hw
  have hpk : BinMarshaller.pack strOk ver (.packMethodCall name) =
      ([BinMarshaller.packMagic ver, [BinMarshaller.dataType T_CALL 0], [UInt8.ofNat name.length], name], none) := by
    have hc : (decide (name.length > 255) || name.length == 0) = false := by
      rw [Bool.or_eq_false_iff]; exact ⟨decide_eq_false (by omega), beq_eq_false_iff_ne.2 (by omega)⟩
    simp only [BinMarshaller.pack, hc]; rfl
  have hws : ws = [BinMarshaller.packMagic ver, [BinMarshaller.dataType T_CALL 0], [UInt8.ofNat name.length], name] ++ wa := by
    unfold sendCall at h3
    rw [run_cons _ _ _ _ _ hpk, hr] at h3
    exact (Prod.mk.inj h3).1.symm
  have s1 := dec_call (req := .call) (stop := false) hv.1 (.inl rfl) name wa.flatten hn.1 hn.2
  have s2 := hd []
  rw [List.append_nil] at s2
  have s3 := s1.trans s2
  obtain ⟨m, hm⟩ := Python.build_items (ver := ver) hp vs hl { Python.init with methodName := some name, first := false, frames := [(.root, .list [])] } .root [] [] rfl rfl
  have ha : BinUnMarshaller.applyEvents (Python.builder S.opts) Python.init ([.methodCall name] ++ evsItems ver vs) =
      ({ Python.init with methodName := some name, first := false, memberName := m, frames := [(.root, .list (showsItems (plainItemsWith (Python.gotDate S.opts ver) vs)))] }, none) := by
    rw [List.singleton_append, applyEvents_cons rfl]
    exact hm
  refine ⟨_, _, ?_, ?_, ?_, ?_, fun l hl => s3.all (by simp [top]) ha l (by rw [hl, hws]; simp)⟩
  · rfl
  · rfl
  · rfl
  · simp [Python.seen, Python.collapse, Python.attach, Python.Cont.val, Python.init]

theorem understood_binary (S : PyWeb.Conf σ) (hp : Python.Plain S.opts) {strOk : Bytes → Bool} {ver : Version} (hv : ver.Full) {name : Bytes} {vs : List Value}
    (h1 : HeldItems vs) (h2 : SmallItems vs) (hl : LoadableItems vs) {ws : List Bytes} (h3 : sendCall strOk ver name vs = (ws, none)) :
    Understood S .binary ws.flatten name (showsItems (plainItemsWith (Python.gotDate S.opts ver) vs)) (· = ver) := by
  obtain ⟨o, pb, g1, g2, g3, g4, g5⟩ := call_read S hp hv h1 h2 hl h3
  refine ⟨fun l _ hp => ?_, fun l _ hl => ?_, fun l _ hl => ?_⟩
  · obtain ⟨t, ht⟩ := hp
    refine HttpServer.unMarshallAll_prefix _ _ l [t] _ _ ?_
    have := g5 (l ++ [t]) (by simp [ht])
    unfold binRead at this
    rw [this]
  · show binEnd (binRead S l).1 = none
    rw [g5 l hl]
    unfold binEnd
    rw [g1]
  · show (binRead S l).2.1.error = none ∧ (binRead S l).2.1.methodName = _ ∧ Python.seen (binRead S l).2.1 = _ ∧ Registry.versionSeen l.flatten = ver
    rw [g5 l hl, hl, Registry.sendCall_magic h3]
    exact ⟨g2, g3, g4, rfl⟩

theorem understood_base64 (S : PyWeb.Conf σ) (hp : Python.Plain S.opts) {strOk : Bytes → Bool} {ver : Version} (hv : ver.Full) {name : Bytes} {vs : List Value}
    (h1 : HeldItems vs) (h2 : SmallItems vs) (hl : LoadableItems vs) {ws : List Bytes} (h3 : sendCall strOk ver name vs = (ws, none)) {text : Bytes}
    (ht : squeeze text = Spec.base64 ws.flatten) :
    Understood S .base64 text name (showsItems (plainItemsWith (Python.gotDate S.opts ver) vs)) (· = ⟨2, 1⟩) := by
  obtain ⟨o, pb, g1, g2, g3, g4, g5⟩ := call_read S hp hv h1 h2 hl h3
  have h3' : BinMarshaller.run strOk ver (.packMethodCall name :: Frpc.feedItems vs) = (ws, none) := h3
  have key : ∀ l : List Bytes, l.flatten = text → (base64Read S l).2.2 = (pb, none) ∧ BinUnMarshaller.finish (base64Read S l).2.1 = .ok () := by
    intro l hl
    have := C25_transport (Python.builder S.opts) .call Python.init strOk ver (.packMethodCall name :: Frpc.feedItems vs) l [ws.flatten]
      (by rw [hl, ht]; unfold Base64.marshal; rw [h3']; exact (C22_writer ws).1.symm) (by rw [h3']; simp)
    have t4 := g5 [ws.flatten] (by simp)
    unfold binRead at t4
    simp only [t4] at this
    obtain ⟨e1, e2, e3⟩ := this
    refine ⟨Prod.ext e1 e2, ?_⟩
    rw [show (base64Read S l).2.1 = (Base64.unMarshallAll (Python.builder S.opts) .call [] BinUnMarshaller.init Python.init l).2.1 from rfl, e3 e2, g1]
  refine ⟨fun l _ hp => ?_, fun l _ hl => ?_, fun l _ hl => ?_⟩
  · obtain ⟨t, ht'⟩ := hp
    have h4 := (key (l ++ [t]) (by simp [ht'])).1
    exact Web.base64_prefix _ _ [t] l _ _ _ (by
      have : (base64Read S (l ++ [t])).2.2.2 = none := by rw [h4]
      exact this)
  · show binEnd (base64Read S l).2.1 = none
    unfold binEnd
    rw [(key l hl).2]
  · show (base64Read S l).2.2.1.error = none ∧ (base64Read S l).2.2.1.methodName = _ ∧ Python.seen (base64Read S l).2.2.1 = _ ∧ _
    rw [(key l hl).1]
    exact ⟨g2, g3, g4, rfl⟩

theorem understood_xml (S : PyWeb.Conf σ) {doc : Bytes} (hne : doc ≠ []) {name : Bytes} {args : List Py} {V : Version → Prop}
    (h : ∀ d ds, (d :: ds).flatten = doc → (∀ p ∈ d :: ds, p ≠ []) → ∃ u pb, XmlUnMarshaller.run S.xml S.parser (Python.builder S.opts) .call Python.init (d :: ds) = (u, pb, none) ∧
      pb.error = none ∧ pb.methodName = some name ∧ Python.seen pb = .list args ∧ V u.ver) : Understood S .xml doc name args V := by
  have h' : ∀ l : List Bytes, (∀ p ∈ l, p ≠ []) → l.flatten = doc → ∃ u pb, xmlDone S l = (u, pb, none) ∧
      pb.error = none ∧ pb.methodName = some name ∧ Python.seen pb = .list args ∧ V u.ver := by
    intro l hne' hl
    cases l with
    | nil => exact absurd hl.symm hne
    | cons d ds => exact h d ds hl hne'
  refine ⟨fun l hne hl => ?_, fun l hne hl => ?_, fun l hne hl => ?_⟩
  · obtain ⟨t, ht⟩ := hl
    show (xmlRead S l).2.2 = none
    have key : ∀ l : List Bytes, (∀ p ∈ l, p ≠ []) → l.flatten = doc → (xmlRead S l).2.2 = none := by
      intro l hne hl
      obtain ⟨u, tb, h1, -⟩ := h' l hne hl
      unfold xmlDone XmlUnMarshaller.run at h1
      unfold xmlRead
      generalize XmlUnMarshaller.unMarshallAll S.xml S.parser (Python.builder S.opts) .call [] XmlUnMarshaller.init Python.init l = q at h1 ⊢
      obtain ⟨u1, b1, e⟩ := q
      cases e with
      | none => rfl
      | some e => simp at h1
    by_cases h0 : t = []
    · exact key l hne (by rw [← ht, h0, List.append_nil])
    · have := key (l ++ [t]) (by
        intro p hp
        rcases List.mem_append.1 hp with hp | hp
        · exact hne p hp
        · rw [List.mem_singleton.1 hp]; exact h0) (by simp [ht])
      exact xml_prefix _ _ _ _ [t] l _ _ _ this
  · obtain ⟨u, tb, h1, -⟩ := h' l hne hl
    show (xmlDone S l).2.2 = none
    rw [h1]
  · obtain ⟨u, tb, h1, h2⟩ := h' l hne hl
    show (xmlDone S l).2.1.error = none ∧ (xmlDone S l).2.1.methodName = _ ∧ Python.seen (xmlDone S l).2.1 = _ ∧ V (xmlDone S l).1.ver
    rw [h1]; exact h2

theorem understood_own (S : PyWeb.Conf σ) (hp : Python.Plain S.opts) (hP : Spec.Xml.Conforms S.parser) {ver : Version} (hv : ver.Full) {name : Bytes} {vs : List Value}
    (h2 : SmallItems vs) (hl : LoadableItems vs) (dbl : BitVec 64 → Bytes) (h3 : (Message.call name vs).Leaves (xmlNeed ver S.xml dbl)) {ws : List Bytes}
    (h5 : XmlMarshaller.run dbl ver (XmlMarshaller.ops (.call name vs)) = (ws, none)) :
    Understood S .xml ws.flatten name (showsItems (plainItemsWith (Python.xmlDate S.opts) vs)) (fun v => v = ver ∨ v = ⟨2, 1⟩) := by
  obtain ⟨pb, a1, a2, a3, a4⟩ := Python.xml_call hp name vs hl
  obtain ⟨ws', g1, g2⟩ := XmlMarshaller.own_run (env := S.xml) (req := .call) (msg := .call name vs) hP (.inl rfl) (accepts_full hv).2 h2 h3
    (XmlMarshaller.ints_of_items (N := xmlNeed ver S.xml dbl) (fun n h => h.2) vs h3.2.2) a1
  rw [h5] at g1
  cases g1
  refine understood_xml S (firstWrite_ne (xml_firstWrite _ _ _ _ h5)) (fun d ds hds hne => ?_)
  obtain ⟨u, b1, b2⟩ := g2 d ds hds hne
  exact ⟨u, pb, b1, a2, a3, a4, by rw [b2]; exact seen_or ver _⟩

theorem understood_document (S : PyWeb.Conf σ) (hp : Python.Plain S.opts) (hP : Spec.Xml.Conforms S.parser) {name : Bytes} {vs : List Value} (hl : LoadableItems vs) {doc : Bytes}
    {root : Spec.Xml.Node} (h2 : IsDocument Spec.Xml.xmlChar doc root) (h3 : (Message.call name vs).Is (XmlUnMarshaller.understood S.xml.strtod) root)
    (h4 : (Message.call name vs).IntsAll (XmlUnMarshaller.readable S.xml.erange)) (h7 : Web.Unversioned doc) :
    Understood S .xml doc name (showsItems (plainItemsWith (Python.xmlDate S.opts) vs)) (· = ⟨2, 1⟩) := by
  obtain ⟨pb, a1, a2, a3, a4⟩ := Python.xml_call hp name vs hl
  have hne : doc ≠ [] := by
    rintro rfl
    obtain ⟨evs, g, -⟩ := h2
    rw [XmlUnMarshaller.read_nil] at g
    cases g
  refine understood_xml S hne (fun d ds hds hne => ?_)
  obtain ⟨u, g1, g2⟩ := XmlUnMarshaller.run_document (req := .call) (msg := .call name vs) hP (.inl rfl) h2 h3 h4 hds hne
    (Web.sniff_unversioned (r := ds.flatten) h7 (by simpa using hds) (hne d (by simp))) a1
  exact ⟨u, pb, g1, a2, a3, a4, g2⟩

/-! ## Answers -/

/-- A result can be said in the format: a fault, or an object that stands for a value. -/
def Fits (S : PyWeb.Conf σ) (ver : Version) (v : Py) (out : OutType) : Prop :=
  (∃ c m, v = .fault c m ∧ IsI32 c ∧ m.length < 2 ^ 32 ∧ FitsFault S.strOk ver c m out) ∨
  (∃ val, Spec.Python.means v = some val ∧ Spec.Python.Small v ∧ FitsValue S.strOk S.dbl ver val out)

/-- The data say the result. -/
def Says (S : PyWeb.Conf σ) (ver : Version) (v : Py) (out : OutType) (data : Bytes) : Prop :=
  (∃ c m, v = .fault c m ∧ SaysFault S.strOk S.dbl c m out data) ∨ (∃ val, Spec.Python.means v = some val ∧ SaysValue S.strOk S.dbl ver val out data)

/-- The whole answer in the format is of less than `2^64` bytes. -/
def Short (S : PyWeb.Conf σ) (ver : Version) (v : Py) (out : OutType) : Prop :=
  ∀ m ws k, Mar.new out ver = some m → m.packAll S.strOk S.dbl (script S v).1 = (ws, k, none) → (ws ++ k.ending).flatten.length < 2 ^ 64

theorem script_value (S : PyWeb.Conf σ) {v : Py} {val : Value} (hm : Spec.Python.means v = some val) (hs : Spec.Python.Small v) :
    script S v = (.packMethodResponse :: Frpc.feed val, none) := by
  have h := Python.feed_means (L := S.opts.L) v val hm hs
  cases v
  case fault => unfold Spec.Python.means at hm; cases hm
  all_goals simp only [script, h, Python.andThen, List.cons_append, List.nil_append]

theorem pack_result (S : PyWeb.Conf σ) {ver : Version} (hv : ver.Full) {v : Py} {out : OutType} (h : Fits S ver v out) :
    ∃ m ws k, Mar.new out ver = some m ∧ m.packAll S.strOk S.dbl (script S v).1 = (ws, k, none) ∧ (script S v).2 = none ∧ (out = .binary → FirstWrite (ws ++ k.ending)) ∧
      Says S ver v out (ws ++ k.ending).flatten := by
  rcases h with ⟨c, m, rfl, hc, hm, hf⟩ | ⟨val, hm, hs, hf⟩
  · obtain ⟨k0, ws, k, h1, h2, h3, h4⟩ := Web.pack_fault (dbl := S.dbl) hv hf
    have hr : -(2 : Int) ^ 63 ≤ c ∧ c < 2 ^ 63 := by unfold IsI32 at hc; omega
    have ht : m.take (sz32 m.length) = m := by unfold sz32; rw [Nat.mod_eq_of_lt hm]; simp
    refine ⟨k0, ws, k, h1, ?_, ?_, h3, .inl ⟨c, m, rfl, h4⟩⟩
    · simp only [script, if_pos hr, i32_u32 hc, ht]; exact h2
    · simp only [script, if_pos hr]
  · obtain ⟨m, ws, k, h1, h2, h3, h4⟩ := Web.pack_value hv hf
    rw [script_value S hm hs]
    exact ⟨m, ws, k, h1, h2, rfl, h3, .inr ⟨val, hm, h4⟩⟩

end PyWeb

/-- What is posted asks, in that format, for that call at that version. The client may be this library, at any version with all types, in the binary protocol, in base64 with
any white space, or in XML, or any XML-RPC client whose document says nothing of a version. The strings are UTF-8, and names have no NUL; the method gets the objects that stand
for the values. -/
inductive PyCarries (S : PyWeb.Conf σ) : HttpServer.Kind → Bytes → Bytes → List Py → Version → Prop
  | binary {strOk ver name args ws} : ver.Full → HeldItems args → SmallItems args → LoadableItems args → sendCall strOk ver name args = (ws, none) →
      PyCarries S .binary ws.flatten name (showsItems (plainItemsWith (Python.gotDate S.opts ver) args)) ver
  | base64 {strOk ver name args ws text} : ver.Full → HeldItems args → SmallItems args → LoadableItems args → sendCall strOk ver name args = (ws, none) →
      squeeze text = Spec.base64 ws.flatten → PyCarries S .base64 text name (showsItems (plainItemsWith (Python.gotDate S.opts ver) args)) ver
  | xml {ver name args ws} (dbl : BitVec 64 → Bytes) : ver.Full → SmallItems args → LoadableItems args → (Message.call name args).Leaves (xmlNeed ver S.xml dbl) →
      XmlMarshaller.run dbl ver (XmlMarshaller.ops (.call name args)) = (ws, none) →
      PyCarries S .xml ws.flatten name (showsItems (plainItemsWith (Python.xmlDate S.opts) args)) ver
  | document {name args doc root} : LoadableItems args → IsDocument Spec.Xml.xmlChar doc root → (Message.call name args).Is (XmlUnMarshaller.understood S.xml.strtod) root →
      (Message.call name args).IntsAll (XmlUnMarshaller.readable S.xml.erange) → Web.Unversioned doc →
      PyCarries S .xml doc name (showsItems (plainItemsWith (Python.xmlDate S.opts) args)) ⟨2, 1⟩

namespace PyWeb

theorem Understood.mono {S : PyWeb.Conf σ} {k : HttpServer.Kind} {data name : Bytes} {args : List Py} {V V' : Version → Prop} (h : Understood S k data name args V)
    (hv : ∀ v, V v → V' v) : Understood S k data name args V' :=
  ⟨h.feed, h.finish, fun l hne hl => let ⟨a, b, c, d⟩ := h.built l hne hl; ⟨a, b, c, hv _ d⟩⟩

theorem carries_understood {S : PyWeb.Conf σ} (hp : Python.Plain S.opts) (hP : Spec.Xml.Conforms S.parser) {k : HttpServer.Kind} {data name : Bytes} {args : List Py} {ver : Version}
    (h : PyCarries S k data name args ver) : Understood S k data name args (fun v => v = ver ∨ v = ⟨2, 1⟩) ∧ ver.Full := by
  cases h with
  | binary h1 h2 h3 h4 h5 => exact ⟨(understood_binary S hp h1 h2 h3 h4 h5).mono (fun _ h => .inl h), h1⟩
  | base64 h1 h2 h3 h4 h5 h6 => exact ⟨(understood_base64 S hp h1 h2 h3 h4 h5 h6).mono (fun _ h => .inr h), h1⟩
  | xml dbl h1 h2 h3 h4 h5 => exact ⟨understood_own S hp hP h1 h2 h3 dbl h4 h5, h1⟩
  | document h1 h2 h3 h4 h5 => exact ⟨(understood_document S hp hP h1 h2 h3 h4 h5).mono (fun _ h => .inr h), Web.full21⟩

end PyWeb

/-- A request of a client: what it sends, and the call it means. -/
structure PyAsk where
  post : Post
  kind : HttpServer.Kind
  name : Bytes
  args : List Py
  ver : Version

/-- It is well formed, and means that call. -/
structure PyAsk.Ok (S : PyWeb.Conf σ) (a : PyAsk) : Prop where
  post : a.post.Ok
  kind : a.post.Kind a.kind
  call : PyCarries S a.kind a.post.data a.name a.args a.ver
  name : (0 : UInt8) ∉ a.name

/-- The hook before a request is read (`preRead`), if there is one, returns: the world after it, and the header fields it has added. -/
inductive PreRead (S : PyWeb.Conf σ) (r : Reg σ) (w : World σ) : World σ → HttpHeader.Fields → Prop
  | no : r.preRead = none → PreRead S r w w []
  | yes {f v st} : r.preRead = some f → f w.user [] = (.ok v, st) → PreRead S r w { w with user := (S.added st).2 } (S.added st).1

/-- The request is served: the hook before it, then the call, as a local caller of the registry would make it. Its result, the header fields that all of these have added,
and the world after it. -/
inductive Ran (S : PyWeb.Conf σ) (r : Reg σ) (w : World σ) (a : PyAsk) : Py → HttpHeader.Fields → World σ → Prop
  | mk {w0 w1 v pre} : PreRead S r w w0 pre → PyServer.dispatch S.py r w0 a.name S.client (.ok (.tuple a.args)) = (.obj v, w1) →
      Ran S r w a v (pre ++ (S.added w1.user).1) { w1 with user := (S.added w1.user).2 }

/-- The result can be said in the format that the client asks for, and the header fields can be sent. -/
def PyCanSay (S : PyWeb.Conf σ) (a : PyAsk) (v : Py) (custom : HttpHeader.Fields) : Prop :=
  (∀ f ∈ custom, Spec.PyWeb.MayAdd f) ∧ ∀ ver, ver = a.ver ∨ ver = ⟨2, 1⟩ → ∀ out, AnsweredIn S.useBinary (field (asc "Accept") a.post.fields) out →
    PyWeb.Fits S ver v out ∧ PyWeb.Short S ver v out

/-- So for each of the calls, one after another; after the last of them the hook still runs. -/
inductive PyCanAnswer (S : PyWeb.Conf σ) (r : Reg σ) : World σ → List PyAsk → Prop
  | nil {w w0 pre} : PreRead S r w w0 pre → PyCanAnswer S r w []
  | cons {w a v custom w1 as} : Ran S r w a v custom w1 → PyCanSay S a v custom → PyCanAnswer S r w1 as → PyCanAnswer S r w (a :: as)

/-- The bytes are the answer to the request: one response, in the format that the client has asked for, with the header fields that user functions have added,
and it says the result. -/
def PyIsAnswer (S : PyWeb.Conf σ) (a : PyAsk) (v : Py) (custom : HttpHeader.Fields) (bytes : Bytes) : Prop :=
  ∃ out ver data, AnsweredIn S.useBinary (field (asc "Accept") a.post.fields) out ∧ (ver = a.ver ∨ ver = ⟨2, 1⟩) ∧
    Spec.PyWeb.IsReply bytes out custom S.keepAlive a.post.http11 data ∧ PyWeb.Says S ver v out data

/-- The connection ends after the request, which is the `n`-th: the client or the server does not keep connections, or it was the last one allowed. -/
def PyEnds (S : PyWeb.Conf σ) (n : Nat) (a : PyAsk) : Prop := ¬ a.post.Stays ∨ S.keepAlive = false ∨ S.maxKeepalive ≤ n

/-- What is sent on a connection on which `n` requests have been served, for the requests that come before the client closes it, what the user's functions are left in, and how
`serve` ends: it returns after the request that ends the connection; if the client closes before, it raises. -/
inductive PyConversation (S : PyWeb.Conf σ) (r : Reg σ) : Nat → World σ → List PyAsk → Bytes → World σ → PyWeb.End → Prop
  | closed {n w w0 pre} : PreRead S r w w0 pre → PyConversation S r n w [] [] w0 .raised
  | last {n w a v custom w1 as bytes} : Ran S r w a v custom w1 → PyIsAnswer S a v custom bytes → PyEnds S (n + 1) a → PyConversation S r n w (a :: as) bytes w1 .done
  | more {n w a v custom w1 as bytes rest w2 e} : Ran S r w a v custom w1 → PyIsAnswer S a v custom bytes → ¬ PyEnds S (n + 1) a →
      PyConversation S r (n + 1) w1 as rest w2 e → PyConversation S r n w (a :: as) (bytes ++ rest) w2 e

namespace PyWeb


/-- The turn after the hook. -/
theorem turn_pre (S : PyWeb.Conf σ) (r : Reg σ) (a : PyWeb.At σ) {w0 : World σ} {pre : HttpHeader.Fields} (h : PreRead S r a.live.world w0 pre) :
    PyWeb.turn S r a = readTurn S r { a with live := { a.live with world := w0, out := a.live.out ++ polished pre } } := by
  unfold PyWeb.turn
  cases h with
  | no h => rw [h]; simp [polished]
  | yes h1 h2 =>
    rw [h1]
    simp only [h2, take, added_polished]

/-- How a result is written at the version in the format: the writes of the marshaller, without an exception. -/
def Packed (S : PyWeb.Conf σ) (ver : Version) (v : Py) (out : OutType) (ds : List Bytes) : Prop :=
  ∃ m ws k, Mar.new out ver = some m ∧ m.packAll S.strOk S.dbl (script S v).1 = (ws, k, none) ∧ (script S v).2 = none ∧ ds = ws ++ k.ending

/-- One request of any client, whose result can be written. -/
theorem turn_packed (S : PyWeb.Conf σ) (r : Reg σ) (a : PyWeb.At σ) {left : HttpHeader.Fields} (hleft : ∀ f ∈ left, Spec.PyWeb.MayAdd f) (ho : a.live.out = polished left) (x : PyAsk)
    (hq : x.post.Ok) (hk : x.post.Kind x.kind) (hn : (0 : UInt8) ∉ x.name)
    (hu : Understood S x.kind x.post.data x.name x.args (fun v => v = x.ver ∨ v = ⟨2, 1⟩)) {v : Py} {custom : HttpHeader.Fields} {w1 : World σ}
    (hr : Ran S r a.live.world x v custom w1) (hcu : ∀ f ∈ custom, Spec.PyWeb.MayAdd f)
    (hs : ∀ ver, ver = x.ver ∨ ver = ⟨2, 1⟩ → ∀ out, AnsweredIn S.useBinary (field (asc "Accept") x.post.fields) out →
      ∃ ds, Packed S ver v out ds ∧ (out = .binary → FirstWrite ds) ∧ ds.flatten.length < 2 ^ 64)
    (rest : Bytes) (hd : a.conn.data = x.post.text ++ rest) (hc : Calm a.conn.sched) (hw : CalmOut false a.wire.sched) :
    ∃ a' bytes, PyWeb.turn S r a = (a', .again true) ∧ a'.conn.data = rest ∧ Calm a'.conn.sched ∧ CalmOut false a'.wire.sched ∧
      a'.wire.sent = a.wire.sent ++ bytes ∧ a'.live.world = w1 ∧ a'.live.out = [] ∧ (a'.live.srv.close = false ↔ x.post.Stays) ∧
      ∃ out ver ds, AnsweredIn S.useBinary (field (asc "Accept") x.post.fields) out ∧ (ver = x.ver ∨ ver = ⟨2, 1⟩) ∧ Packed S ver v out ds ∧
        Spec.PyWeb.IsReply bytes out (left ++ custom) S.keepAlive x.post.http11 ds.flatten := by
  obtain ⟨hpre, hdis⟩ := hr
  rename_i w0 w1 pre
  obtain ⟨qs, srv', s', h1, h2, h3, h4, h5, h6, h7, h8, h9⟩ := C73_any_request (PyWeb.env S) a.live.srv x.post.path hq.path x.post.http11 x.post.lines hq.lines x.post.fields hq.fields
    x.post.data x.post.body rest hq.framed hq.length a.conn hc (by rw [hd]; unfold Post.text; rw [List.append_assoc]) x.kind hk hu.feed hu.finish
  obtain ⟨b1, b2, b3, b4⟩ := hu.built qs h3 h2
  obtain ⟨ds, hpk, m4, hlen⟩ := hs _ b4 srv'.outType h7
  have hpk' := hpk
  obtain ⟨m, ws, k, m1, m2, m3, rfl⟩ := hpk
  have hch : srv'.chunks = (x.post.http11 && decide (srv'.outType = .binary)) := by
    rw [Bool.eq_iff_iff, h8]; simp
  obtain ⟨w', bytes, g1, g2, g3, g4, g5⟩ := PyWeb.reply_sent S ⟨{ w1 with user := (S.added w1.user).2 }, srv', polished (left ++ (pre ++ (S.added w1.user).1)), version S x.kind qs⟩
    (left ++ (pre ++ (S.added w1.user).1)) (fun f hf => (List.mem_append.1 hf).elim (hleft f) (hcu f)) rfl (ws ++ k.ending) hlen (fun h => m4 (h8.1 h).2) a.wire hw x.post.http11 hch
  refine ⟨⟨⟨{ w1 with user := (S.added w1.user).2 }, srv', [], version S x.kind qs⟩, s', w'.wire⟩, bytes, ?_, h4, h5, g3, g2, rfl, rfl, h6, srv'.outType, _, _, h7, b4, hpk', g5⟩
  rw [turn_pre S r a hpre]
  unfold readTurn
  have hrd := read_post S a.live.srv (method := asc "POST") (by unfold Spec.Http.IsWord; decide +kernel) hq.path x.post.http11 x.post.lines (x.post.body ++ rest) a.conn hc
    (by rw [hd]; unfold Post.text; rw [List.append_assoc])
  simp only [hrd, h1]
  unfold callTurn
  have hnn : (isNone (Python.seen (PyWeb.built S x.kind qs))) = false := by rw [b3]; rfl
  have hpar : params S (PyWeb.built S x.kind qs) = .ok (.tuple x.args) := by
    unfold params
    simp only [b1, b3, Python.toTuple]
  simp only [m1, hnn, Bool.and_false, Bool.false_eq_true, if_false, b2, PyServer.cstr_eq hn, hpar, hdis]
  unfold answer
  simp only [m2, m3]
  unfold PyWeb.respond
  have htk : take S ⟨w0, srv', a.live.out ++ polished pre, version S x.kind qs⟩ w1 =
      ⟨{ w1 with user := (S.added w1.user).2 }, srv', polished (left ++ (pre ++ (S.added w1.user).1)), version S x.kind qs⟩ := by
    unfold take
    simp only [added_polished, ho]
    simp [polished]
  simp only [htk, g1, PyWeb.after, g4, if_true]

theorem Packed.unique {S : PyWeb.Conf σ} {ver : Version} {v : Py} {out : OutType} {ds ds' : List Bytes} (h : Packed S ver v out ds) (h' : Packed S ver v out ds') : ds = ds' := by
  obtain ⟨m, ws, k, a1, a2, -, rfl⟩ := h
  obtain ⟨m', ws', k', b1, b2, -, rfl⟩ := h'
  rw [a1] at b1
  cases b1
  rw [a2] at b2
  cases b2
  rfl

/-- One request of any client. -/
theorem turn_post (S : PyWeb.Conf σ) (r : Reg σ) (a : PyWeb.At σ) {left : HttpHeader.Fields} (hleft : ∀ f ∈ left, Spec.PyWeb.MayAdd f) (ho : a.live.out = polished left) (x : PyAsk) (hq : x.post.Ok) (hk : x.post.Kind x.kind) (hn : (0 : UInt8) ∉ x.name)
    (hu : Understood S x.kind x.post.data x.name x.args (fun v => v = x.ver ∨ v = ⟨2, 1⟩)) (hfull : x.ver.Full) {v : Py} {custom : HttpHeader.Fields} {w1 : World σ}
    (hr : Ran S r a.live.world x v custom w1) (hs : PyCanSay S x v custom)
    (rest : Bytes) (hd : a.conn.data = x.post.text ++ rest) (hc : Calm a.conn.sched) (hw : CalmOut false a.wire.sched) :
    ∃ a' bytes, PyWeb.turn S r a = (a', .again true) ∧ a'.conn.data = rest ∧ Calm a'.conn.sched ∧ CalmOut false a'.wire.sched ∧
      a'.wire.sent = a.wire.sent ++ bytes ∧ a'.live.world = w1 ∧ a'.live.out = [] ∧ (a'.live.srv.close = false ↔ x.post.Stays) ∧ PyIsAnswer S x v (left ++ custom) bytes := by
  have key : ∀ ver, ver = x.ver ∨ ver = ⟨2, 1⟩ → ∀ out, AnsweredIn S.useBinary (field (asc "Accept") x.post.fields) out →
      ∃ ds, Packed S ver v out ds ∧ (out = .binary → FirstWrite ds) ∧ ds.flatten.length < 2 ^ 64 ∧ Says S ver v out ds.flatten := by
    intro ver hver out hout
    obtain ⟨hf, hl⟩ := hs.2 ver hver out hout
    have hvf : ver.Full := by
      rcases hver with h | h
      · rw [h]; exact hfull
      · rw [h]; exact Web.full21
    obtain ⟨m, ws, k, m1, m2, m3, m4, m5⟩ := pack_result S hvf hf
    exact ⟨_, ⟨m, ws, k, m1, m2, m3, rfl⟩, m4, hl m ws k m1 m2, m5⟩
  obtain ⟨a', bytes, h1, h2, h3, h4, h5, h6, h7, h8, out, ver, ds, g1, g2, g3, g4⟩ := turn_packed S r a hleft ho x hq hk hn hu hr hs.1
    (fun ver hver out hout => let ⟨ds, a, b, c, _⟩ := key ver hver out hout; ⟨ds, a, b, c⟩) rest hd hc hw
  obtain ⟨ds', k1, -, -, k4⟩ := key ver g2 out g1
  rw [← g3.unique k1] at k4
  exact ⟨a', bytes, h1, h2, h3, h4, h5, h6, h7, h8, out, ver, ds.flatten, g1, g2, g4, k4⟩

/-- When the client has closed the connection. -/
theorem turn_end (S : PyWeb.Conf σ) (r : Reg σ) (a : PyWeb.At σ) {w0 : World σ} {pre : HttpHeader.Fields} (h : PreRead S r a.live.world w0 pre) (hc : Calm a.conn.sched)
    (hd : a.conn.data = []) : ∃ a', PyWeb.turn S r a = (a', .stop .raised) ∧ a'.wire = a.wire ∧ a'.live.world = w0 := by
  have : ∃ e srv' s', PyWeb.readRequest S a.live.srv a.conn = (.error (.io e), srv', s') := by
    unfold PyWeb.readRequest
    obtain ⟨l, ⟨d, sc, o⟩, w⟩ := a
    simp only at hd hc
    subst hd
    have hp : ∃ a s', poll ⟨[], sc, []⟩ = (.ready a, s') ∧ s'.data = [] := by
      unfold poll
      cases sc with
      | nil => exact ⟨_, _, rfl, rfl⟩
      | cons e sc =>
        obtain ⟨k, rfl⟩ := hc e (by simp)
        exact ⟨_, _, rfl, rfl⟩
    obtain ⟨n, s', h1, h2⟩ := hp
    have : ∃ e, readLine (srvCfg (fun _ => none)) true ⟨[], sc, []⟩ = (.error e, s') ∧ ofHErr e = .io e := by
      unfold readLine readLineOpt readLineLoop
      simp [h1, h2, ofHErr]
    obtain ⟨e, h3, h4⟩ := this
    refine ⟨e, { l.srv with close := false, head := false }, s', ?_⟩
    simp only [firstLine, h3, h4]
  obtain ⟨e, srv', s', h1⟩ := this
  rw [turn_pre S r a h]
  unfold readTurn
  simp only [h1]
  exact ⟨_, rfl, rfl, rfl⟩

theorem stop_ends (S : PyWeb.Conf σ) (srv : Srv) (n : Nat) (a : PyAsk) (h : srv.close = false ↔ a.post.Stays) : PyWeb.stop S srv n = true ↔ PyEnds S n a := by
  unfold PyWeb.stop PyEnds
  simp only [Bool.or_eq_true, decide_eq_true_eq, Bool.not_eq_true', ← h, Bool.not_eq_false, ge_iff_le, or_assoc]

theorem serveLoop_asks (S : PyWeb.Conf σ) (hp : Python.Plain S.opts) (hP : Spec.Xml.Conforms S.parser) (r : Reg σ) : ∀ (as : List PyAsk) (f n : Nat) (a : PyWeb.At σ),
    a.conn.data.length < f → (∀ x ∈ as, x.Ok S) → PyCanAnswer S r a.live.world as → a.live.out = [] → a.conn.data = (as.map (·.post.text)).flatten → Calm a.conn.sched →
    CalmOut false a.wire.sched →
    ∃ a' bytes e, PyWeb.serveLoop S r f n a = (a', e) ∧ a'.wire.sent = a.wire.sent ++ bytes ∧ PyConversation S r n a.live.world as bytes a'.live.world e
  | _, 0, _, _, h, _, _, _, _, _, _ => by omega
  | [], f + 1, n, a, hf, _, han, _, hd, hc, hw => by
    obtain ⟨hpre⟩ := han
    obtain ⟨a', h1, h2, h3⟩ := turn_end S r a hpre hc (by simpa using hd)
    refine ⟨a', [], .raised, ?_, by rw [h2]; simp, by rw [h3]; exact .closed hpre⟩
    rw [PyWeb.serveLoop, h1]
  | x :: as, f + 1, n, a, hf, hok, han, ho, hd, hc, hw => by
    obtain ⟨hx1, hx2, hx3, hx4⟩ := hok x (by simp)
    obtain ⟨hu, hfull⟩ := carries_understood hp hP hx3
    cases han with
    | cons hr hs hrest =>
      have hpos := Web.text_pos x.post
      have hd' : a.conn.data = x.post.text ++ (as.map (·.post.text)).flatten := by rw [hd]; simp
      have hlen := congrArg List.length hd'
      rw [List.length_append] at hlen
      obtain ⟨a1, bytes, h1, h2, h3, h4, h5, h6, h7, h8, h9⟩ := turn_post S r a (left := []) (by simp) (by rw [ho]; rfl) x hx1 hx2 hx4 hu hfull hr hs _ hd' hc hw
      by_cases he : PyEnds S (n + 1) x
      · refine ⟨a1, bytes, .done, ?_, h5, by rw [h6]; exact .last hr h9 he⟩
        rw [PyWeb.serveLoop, h1]
        simp only [if_true, (stop_ends S a1.live.srv (n + 1) x h8).2 he]
      · obtain ⟨a2, rest, e, g1, g2, g3⟩ := serveLoop_asks S hp hP r as f (n + 1) a1 (by rw [h2]; omega) (fun y hy => hok y (by simp [hy])) (by rw [h6]; exact hrest) h7 h2 h3 h4
        refine ⟨a2, bytes ++ rest, e, ?_, by rw [g2, h5, List.append_assoc], ?_⟩
        · rw [PyWeb.serveLoop, h1]
          have hno : PyWeb.stop S a1.live.srv (n + 1) = false := by
            rw [← Bool.not_eq_true, stop_ends S a1.live.srv (n + 1) x h8]; exact he
          simp only [if_true, hno, Bool.false_eq_true, if_false, g1]
        · rw [h6] at g3
          exact .more hr h9 he g3

end PyWeb

/-- **C114.** Requests of any clients, one after another on one connection, which the network delivers in whatever pieces: `Server.serve` answers each of them, in order, with one
response in the format that the client has asked for, which says what a local call of the registry gives, with the header fields that the user's functions have added for it;
no request is answered that comes after the one that ends the connection, and what is sent besides is nothing. The user's functions have been run in that order, each once.
Missing, as they are false (`C114_*_violated`): `serve` returns when the client closes the connection; forms; names with a NUL, strings that are not UTF-8. -/
theorem C114_conversation_partial (S : PyWeb.Conf σ) (hp : Python.Plain S.opts) (hP : Spec.Xml.Conforms S.parser) (r : Reg σ) (x : PyWeb.Live σ) (ho : x.out = [])
    (as : List PyAsk) (hok : ∀ a ∈ as, a.Ok S) (han : PyCanAnswer S r x.world as) (s : Conn) (hd : s.data = (as.map (·.post.text)).flatten) (hc : Calm s.sched)
    (down : List SEv) (hw : CalmOut false down) :
    ∃ a e, PyWeb.serve S r x s ⟨down, []⟩ = (a, e) ∧ PyConversation S r 0 x.world as a.wire.sent a.live.world e := by
  obtain ⟨a, bytes, e, h1, h2, h3⟩ := PyWeb.serveLoop_asks S hp hP r as (s.data.length + 2) 0 ⟨{ x with srv := { x.srv with close := false, head := false } }, s, ⟨down, []⟩⟩
    (by simp only; omega) hok han ho hd hc hw
  unfold PyWeb.serve
  rw [h1]
  refine ⟨_, _, rfl, ?_⟩
  simp only [List.nil_append] at h2
  simp only [h2]
  exact h3

/-- **C114 is violated: a client that closes the connection makes `serve` raise.** If no request ends the connection, which the server keeps, then `serve` raises an exception when
the client closes it, as every client does in the end (the server in C++ returns, C97). -/
theorem C114_closed_violated (S : PyWeb.Conf σ) (r : Reg σ) : ∀ (as : List PyAsk) (n : Nat) (w w' : World σ) (bytes : Bytes) (e : PyWeb.End),
    PyConversation S r n w as bytes w' e → S.keepAlive = true → (n + as.length : Int) < S.maxKeepalive → (∀ a ∈ as, a.post.Stays) → e = .raised
  | [], n, w, w', bytes, e, h, _, _, _ => by cases h; rfl
  | a :: as, n, w, w', bytes, e, h, hk, hm, hst => by
    have hno : ¬ PyEnds S (n + 1) a := by
      rintro (h | h | h)
      · exact h (hst a (by simp))
      · rw [hk] at h; cases h
      · simp only [List.length_cons, Int.natCast_add] at hm; omega
    cases h with
    | last _ _ he => exact absurd he hno
    | more _ _ _ h' =>
      exact C114_closed_violated S r as (n + 1) _ w' _ e h' hk (by simp only [List.length_cons, Int.natCast_add] at hm ⊢; omega) (fun b hb => hst b (by simp [hb]))

/-! ## C115: other requests -/

namespace PyWeb

/-- A request whose result cannot be fed, of a client that does not take the binary protocol. -/
theorem turn_unsayable (S : PyWeb.Conf σ) (r : Reg σ) (a : PyWeb.At σ) {left : HttpHeader.Fields} (ho : a.live.out = polished left)
    (x : PyAsk) (hq : x.post.Ok) (hk : x.post.Kind x.kind) (hn : (0 : UInt8) ∉ x.name)
    (hu : Understood S x.kind x.post.data x.name x.args (fun v => v = x.ver ∨ v = ⟨2, 1⟩)) {v : Py} {custom : HttpHeader.Fields} {w1 : World σ}
    (hr : Ran S r a.live.world x v custom w1) {ex : Python.Exn} (hex : (script S v).2 = some ex)
    (hs : ∀ ver, ver = x.ver ∨ ver = ⟨2, 1⟩ → ∀ out, AnsweredIn S.useBinary (field (asc "Accept") x.post.fields) out → out ≠ .binary ∧
      ∃ m ws k, Mar.new out ver = some m ∧ m.packAll S.strOk S.dbl (script S v).1 = (ws, k, none))
    (rest : Bytes) (hd : a.conn.data = x.post.text ++ rest) (hc : Calm a.conn.sched) (hw : CalmOut false a.wire.sched) :
    ∃ a', PyWeb.turn S r a = (a', .stop .done) ∧ a'.wire.sent = a.wire.sent ++ httpError 500 (S.raisedText ex) ∧ a'.live.world = w1 ∧ a'.live.out = polished (left ++ custom) := by
  obtain ⟨hpre, hdis⟩ := hr
  rename_i w0 w1 pre
  obtain ⟨qs, srv', s', h1, h2, h3, h4, h5, h6, h7, h8, h9⟩ := C73_any_request (PyWeb.env S) a.live.srv x.post.path hq.path x.post.http11 x.post.lines hq.lines x.post.fields hq.fields
    x.post.data x.post.body rest hq.framed hq.length a.conn hc (by rw [hd]; unfold Post.text; rw [List.append_assoc]) x.kind hk hu.feed hu.finish
  obtain ⟨b1, b2, b3, b4⟩ := hu.built qs h3 h2
  obtain ⟨hb, m, ws, k, m1, m2⟩ := hs _ b4 srv'.outType h7
  have hch : srv'.chunks = false := by
    cases hx : srv'.chunks with
    | false => rfl
    | true => exact absurd (h8.1 hx).2 hb
  have htk : take S ⟨w0, srv', a.live.out ++ polished pre, version S x.kind qs⟩ w1 =
      ⟨{ w1 with user := (S.added w1.user).2 }, srv', polished (left ++ (pre ++ (S.added w1.user).1)), version S x.kind qs⟩ := by
    unfold take
    simp only [added_polished, ho]
    simp [polished]
  obtain ⟨w', g1, -, g3, g4, -⟩ := writes_plain (PyWeb.conf S ⟨{ w1 with user := (S.added w1.user).2 }, srv', polished (left ++ (pre ++ (S.added w1.user).1)), version S x.kind qs⟩) hch ws
    (.init a.wire)
  obtain ⟨w3, k1, k2, -⟩ := sendData_calm false (httpError 500 (S.raisedText ex)) a.wire hw
  refine ⟨⟨⟨{ w1 with user := (S.added w1.user).2 }, srv', polished (left ++ (pre ++ (S.added w1.user).1)), version S x.kind qs⟩, s', w3⟩, ?_, k2, rfl, rfl⟩
  rw [turn_pre S r a hpre]
  unfold readTurn
  have hrd := read_post S a.live.srv (method := asc "POST") (by unfold Spec.Http.IsWord; decide +kernel) hq.path x.post.http11 x.post.lines (x.post.body ++ rest) a.conn hc
    (by rw [hd]; unfold Post.text; rw [List.append_assoc])
  simp only [hrd, h1]
  unfold callTurn
  have hnn : (isNone (Python.seen (PyWeb.built S x.kind qs))) = false := by rw [b3]; rfl
  have hpar : params S (PyWeb.built S x.kind qs) = .ok (.tuple x.args) := by
    unfold params
    simp only [b1, b3, Python.toTuple]
  simp only [m1, hnn, Bool.and_false, Bool.false_eq_true, if_false, b2, PyServer.cstr_eq hn, hpar, hdis]
  unfold answer
  simp only [m2, hex]
  unfold unfinished
  have g3 : w'.wire = a.wire := g3
  have g4 : w'.headersSent = false := g4
  simp only [htk, g1, PyWeb.after, g4, g3, Bool.false_eq_true, if_false]
  unfold failHttp
  simp only [k1]

end PyWeb

/-- **C115 is violated: header fields of one client go to another.** A method adds a header field (a session, say) and returns something that cannot be sent. The client gets the
HTTP error 500; the field stays, and is sent in the answer to the next client that connects, whoever it is. -/
theorem C115_leak_violated (S : PyWeb.Conf σ) (hp : Python.Plain S.opts) (hP : Spec.Xml.Conforms S.parser) (r : Reg σ) (x : PyWeb.Live σ) (ho : x.out = [])
    (first : PyAsk) (h1 : first.Ok S) {v1 : Py} {fields1 : HttpHeader.Fields} {w1 : World σ} (hr1 : Ran S r x.world first v1 fields1 w1) {ex : Python.Exn}
    (hex : (PyWeb.script S v1).2 = some ex) (hf1 : ∀ f ∈ fields1, Spec.PyWeb.MayAdd f)
    (hs1 : ∀ ver, ver = first.ver ∨ ver = ⟨2, 1⟩ → ∀ out, AnsweredIn S.useBinary (field (asc "Accept") first.post.fields) out → out ≠ .binary ∧
      ∃ m ws k, Mar.new out ver = some m ∧ m.packAll S.strOk S.dbl (PyWeb.script S v1).1 = (ws, k, none))
    (second : PyAsk) (h2 : second.Ok S) (hstay : ¬ second.post.Stays) {v2 : Py} {fields2 : HttpHeader.Fields} {w2 : World σ} (hr2 : Ran S r w1 second v2 fields2 w2)
    (hs2 : PyCanSay S second v2 fields2) (c1 c2 : Conn) (hd1 : c1.data = first.post.text) (hc1 : Calm c1.sched) (hd2 : c2.data = second.post.text) (hc2 : Calm c2.sched)
    (down1 down2 : List SEv) (hw1 : CalmOut false down1) (hw2 : CalmOut false down2) :
    ∃ a b, PyWeb.serve S r x c1 ⟨down1, []⟩ = (a, .done) ∧ PyWeb.serve S r a.live c2 ⟨down2, []⟩ = (b, .done) ∧
      PyIsAnswer S second v2 (fields1 ++ fields2) b.wire.sent := by
  obtain ⟨a, g1, -, g3, g4⟩ := PyWeb.turn_unsayable S r ⟨{ x with srv := { x.srv with close := false, head := false } }, c1, ⟨down1, []⟩⟩ (left := []) (by rw [ho]; rfl) first h1.post h1.kind h1.name
    (PyWeb.carries_understood hp hP h1.call).1 hr1 hex hs1 [] (by simpa using hd1) hc1 hw1
  have hu := PyWeb.carries_understood hp hP h2.call
  obtain ⟨b, bytes, k1, -, -, -, k5, -, -, k8, k9⟩ := PyWeb.turn_post S r ⟨{ a.live with srv := { a.live.srv with close := false, head := false } }, c2, ⟨down2, []⟩⟩ (left := fields1) hf1 g4 second
    h2.post h2.kind h2.name hu.1 hu.2 (w1 := w2) (by show Ran S r a.live.world _ _ _ _; rw [g3]; exact hr2) hs2 [] (by simpa using hd2) hc2 hw2
  refine ⟨a, b, ?_, ?_, ?_⟩
  · unfold PyWeb.serve
    rw [PyWeb.serveLoop, g1]
  · unfold PyWeb.serve
    rw [PyWeb.serveLoop, k1]
    simp only [if_true, (PyWeb.stop_ends S b.live.srv (0 + 1) second k8).2 (.inl hstay)]
  · simp only [List.nil_append] at k5
    rw [k5]; exact k9

/-- The answer to a request that is refused: one response, in the format that the client has asked for, that says that the request could not be parsed. -/
def PyIsRefusal (S : PyWeb.Conf σ) (q : Post) (custom : HttpHeader.Fields) (bytes : Bytes) : Prop :=
  ∃ out data, AnsweredIn S.useBinary (field (asc "Accept") q.fields) out ∧ Spec.PyWeb.IsReply bytes out custom S.keepAlive true data ∧
    SaysFault S.strOk S.dbl (-503) (Registry.cstr S.streamText) out data

/-- The text of the exception can be said in all formats at that version. -/
def PyCanRefuse (S : PyWeb.Conf σ) (ver : Version) : Prop := ∀ out, FitsFault S.strOk ver (-503) (Registry.cstr S.streamText) out ∧
  ∀ m, Mar.new out ver = some m → ∀ ws k, m.packAll S.strOk S.dbl [.packFault (-503) (Registry.cstr S.streamText)] = (ws, k, none) → (ws ++ k.ending).flatten.length < 2 ^ 64

/-- A body that is cut short: every piece of it is taken, and the end is not. -/
def PyCutShort (S : PyWeb.Conf σ) (q : Post) (k : HttpServer.Kind) : Prop :=
  (∀ l : List Bytes, (∀ p ∈ l, p ≠ []) → l.flatten <+: q.data → PyWeb.feed S k l = none) ∧
  ∀ l : List Bytes, (∀ p ∈ l, p ≠ []) → l.flatten = q.data → PyWeb.finish S k l = some .stream

/-- **C115 (refused).** A request whose content type is unknown, or whose body is cut short, gets one answer, the fault −503, in the format asked for, and no method is run. It is not
counted. (The answer is in the version of the request before, and the body of the former is taken for the next requests, as in C98.) -/
theorem C115_refused_partial (S : PyWeb.Conf σ) (r : Reg σ) (a : PyWeb.At σ) (ho : a.live.out = []) (hv : a.live.ver.Full) (hS : PyCanRefuse S a.live.ver) {w0 : World σ}
    {pre : HttpHeader.Fields} (hpre : PreRead S r a.live.world w0 pre) (hf : ∀ f ∈ pre, Spec.PyWeb.MayAdd f) (q : Post) (hq : q.Ok)
    (hbad : (∀ k, ¬ q.Kind k) ∨ ∃ k, q.Kind k ∧ PyCutShort S q k) (rest : Bytes) (hd : a.conn.data = q.text ++ rest) (hc : Calm a.conn.sched) (hw : CalmOut false a.wire.sched) :
    ∃ a' bytes, PyWeb.turn S r a = (a', .again false) ∧ a'.wire.sent = a.wire.sent ++ bytes ∧ PyIsRefusal S q pre bytes ∧ a'.live.world = w0 ∧ a'.live.out = [] ∧
      a'.live.ver = a.live.ver ∧ CalmOut false a'.wire.sched ∧ Calm a'.conn.sched ∧ ((∃ k, q.Kind k) → a'.conn.data = rest) ∧ ((∀ k, ¬ q.Kind k) → a'.conn.data = q.body ++ rest) := by
  have hread : ∃ srv' s', HttpServer.readRequest (PyWeb.env S) a.live.srv a.conn = (.error .stream, srv', s') ∧ Calm s'.sched ∧
      AnsweredIn S.useBinary (field (asc "Accept") q.fields) srv'.outType ∧ (srv'.chunks = true ↔ srv'.outType = .binary) ∧
      ((∃ k, q.Kind k) → s'.data = rest) ∧ ((∀ k, ¬ q.Kind k) → s'.data = q.body ++ rest) := by
    rcases hbad with hbad | ⟨k, hk, hcut⟩
    · obtain ⟨srv', s', h1, h2, h3, h4, h5, h6⟩ := Web.refused_type (PyWeb.env S) a.live.srv q hq hbad rest a.conn hc hd
      exact ⟨srv', s', h1, h3, h4, h5, fun ⟨k, hk⟩ => absurd hk (hbad k), fun _ => h2⟩
    · obtain ⟨srv', s', h1, h2, h3, h4, h5, h6⟩ := Web.refused_body (PyWeb.env S) a.live.srv q hq hk hcut.1 hcut.2 rest a.conn hc hd
      exact ⟨srv', s', h1, h3, h4, h5, fun _ => h2, fun h => absurd hk (h k)⟩
  obtain ⟨srv', s', h1, h3, h4, h5, h6, h7⟩ := hread
  obtain ⟨m, ws, k, m1, m2, m3, m4⟩ := Web.pack_fault (dbl := S.dbl) hv (hS srv'.outType).1
  obtain ⟨w', bytes, g1, g2, g3, g4, g5⟩ := PyWeb.reply_sent S ⟨w0, srv', PyWeb.polished pre, a.live.ver⟩ pre hf rfl (ws ++ k.ending) ((hS _).2 m m1 ws k m2)
    (fun h => m3 (h5.1 h)) a.wire hw true (by rw [Bool.true_and, Bool.eq_iff_iff, h5]; simp)
  refine ⟨⟨⟨w0, srv', [], a.live.ver⟩, s', w'.wire⟩, bytes, ?_, g2, ⟨srv'.outType, _, h4, g5, m4⟩, rfl, rfl, rfl, g3, h3, h6, h7⟩
  rw [PyWeb.turn_pre S r a hpre]
  unfold PyWeb.readTurn
  have hrd := PyWeb.read_post S a.live.srv (method := asc "POST") (by unfold Spec.Http.IsWord; decide +kernel) hq.path q.http11 q.lines (q.body ++ rest) a.conn hc
    (by rw [hd]; unfold Post.text; rw [List.append_assoc])
  simp only [hrd, h1]
  unfold PyWeb.refuse
  have m2' : m.packAll S.strOk S.dbl [.packFault Registry.PARSE_ERROR (Registry.cstr S.streamText)] = (ws, k, none) := m2
  simp only [m1, m2']
  unfold PyWeb.respond
  simp only [ho, List.nil_append, g1, PyWeb.after, g4, if_true]

/-- **C115 (other methods).** A request by another method than `POST` and `HEAD`, and `HEAD` if there is no method for it, get the HTTP error 405, and the connection ends: nothing is run. -/
theorem C115_other_method (S : PyWeb.Conf σ) (r : Reg σ) (a : PyWeb.At σ) {w0 : World σ} {pre : HttpHeader.Fields} (hpre : PreRead S r a.live.world w0 pre)
    (method path : Bytes) (hm : Spec.Http.IsWord method) (hpost : method ≠ asc "POST") (hhead : method = asc "HEAD" → r.head = none) (hp : Spec.Http.IsWord path) (http11 : Bool)
    (ls : List Spec.HLine) (hls : ∀ l ∈ ls, l.Ok) (fs : List (Bytes × Bytes)) (hfs : Spec.collectFields [] ls = some fs) (rest : Bytes) (hc : Calm a.conn.sched)
    (hd : a.conn.data = Spec.Http.requestText method path http11 ls ++ rest) (hw : CalmOut false a.wire.sched) :
    ∃ a' reason, PyWeb.turn S r a = (a', .stop .done) ∧ a'.wire.sent = a.wire.sent ++ PyWeb.httpError 405 reason ∧ a'.live.world = w0 := by
  obtain ⟨srv', s', h1, h2, h3, h4⟩ := C73_other_method (PyWeb.env S) a.live.srv method path hm hpost hp http11 ls hls fs hfs rest a.conn hc hd
  have hrd := PyWeb.read_post S a.live.srv hm hp http11 ls rest a.conn hc hd
  rw [PyWeb.turn_pre S r a hpre]
  unfold PyWeb.readTurn
  simp only [hrd, h1]
  have fin : ∀ (b : PyWeb.At σ) reason, b.wire = a.wire → b.live.world = w0 → ∃ a' reason', PyWeb.failHttp b 405 reason = (a', .stop .done) ∧
      a'.wire.sent = a.wire.sent ++ PyWeb.httpError 405 reason' ∧ a'.live.world = w0 := by
    intro b reason hb hb2
    obtain ⟨w3, k1, k2, -⟩ := sendData_calm false (PyWeb.httpError 405 reason) a.wire hw
    unfold PyWeb.failHttp
    rw [hb, k1]
    exact ⟨_, reason, rfl, k2, hb2⟩
  by_cases hh : method = asc "HEAD"
  · simp only [if_pos hh, PyWeb.headTurn, hhead hh]
    exact fin _ _ rfl rfl
  · simp only [if_neg hh]
    exact fin _ _ rfl rfl

/-- **C115 is violated: a client can end the process.** The server has no method for `HEAD` (the default). A client asks for `HEAD`, or by any other method, and is gone when the
server sends the error: the exception of the socket leaves `serve`, and C++ calls `terminate`. -/
theorem C115_send_violated (S : PyWeb.Conf σ) (r : Reg σ) (x : PyWeb.Live σ) (hpre : r.preRead = none)
    (method path : Bytes) (hm : Spec.Http.IsWord method) (hpost : method ≠ asc "POST") (hhead : method = asc "HEAD" → r.head = none) (hp : Spec.Http.IsWord path) (http11 : Bool)
    (ls : List Spec.HLine) (hls : ∀ l ∈ ls, l.Ok) (fs : List (Bytes × Bytes)) (hfs : Spec.collectFields [] ls = some fs) (rest : Bytes) (s : Conn) (hc : Calm s.sched)
    (hd : s.data = Spec.Http.requestText method path http11 ls ++ rest) (ev : SEv) (hev : ev.act = .timeout ∨ ev.act = .fail ∨ ev.act = .epipe) (more : List SEv) :
    (PyWeb.serve S r x s ⟨ev :: more, []⟩).2 = .terminate := by
  obtain ⟨down, hdown⟩ : ∃ down, down = ev :: more := ⟨_, rfl⟩
  rw [← hdown]
  obtain ⟨srv', s', h1, h2, h3, h4⟩ := C73_other_method (PyWeb.env S) { x.srv with close := false, head := false } method path hm hpost hp http11 ls hls fs hfs rest s hc hd
  have hrd := PyWeb.read_post S { x.srv with close := false, head := false } hm hp http11 ls rest s hc hd
  have fin : ∀ (b : PyWeb.At σ) reason, b.wire = ⟨down, []⟩ → (PyWeb.failHttp b 405 reason).2 = .stop .terminate := by
    intro b reason hb
    have k1 : ∃ e w, sendData false (PyWeb.httpError 405 reason) ⟨down, []⟩ = (.error e, w) := by
      have hne : PyWeb.httpError 405 reason ≠ [] := by
        unfold PyWeb.httpError
        simp only [List.append_assoc]
        intro h
        have := (List.append_eq_nil_iff.1 h).1
        revert this
        decide +kernel
      unfold sendData
      rw [if_neg hne, sendLoop, hdown]
      rcases hev with h | h | h <;> simp [h]
    obtain ⟨e, w, k1⟩ := k1
    unfold PyWeb.failHttp
    rw [hb, k1]
  have ht : (PyWeb.turn S r ⟨{ x with srv := { x.srv with close := false, head := false } }, s, ⟨down, []⟩⟩).2 = .stop .terminate := by
    unfold PyWeb.turn
    rw [hpre]
    unfold PyWeb.readTurn
    simp only [hrd, h1]
    by_cases hh : method = asc "HEAD"
    · simp only [if_pos hh, PyWeb.headTurn, hhead hh]
      exact fin _ _ rfl
    · simp only [if_neg hh]
      exact fin _ _ rfl
  unfold PyWeb.serve
  rw [PyWeb.serveLoop]
  revert ht
  generalize PyWeb.turn S r ⟨{ x with srv := { x.srv with close := false, head := false } }, s, ⟨down, []⟩⟩ = q
  obtain ⟨b, n⟩ := q
  intro ht
  simp only at ht
  subst ht
  rfl

/-! ## Witnesses -/

/-- A server that keeps connections for three requests; while the state is odd, a header field is added. -/
def pyWebConf : PyWeb.Conf Nat := ⟨Python.plainOpts, pyOld, fun _ => true, xmlExampleDbl, xmlExampleEnv, XmlParser.eager, plainEnv, true, true, 3,
  fun n => (if n % 2 = 1 then [(asc "x-session", asc "1")] else [], n), .tuple [], asc "bad", fun _ => asc "no", fun _ => asc "oops"⟩

/-- The call `f(1)` in the binary protocol, of a client that wants JSON. -/
def pyWebAsk : PyAsk :=
  ⟨webPost "/RPC2" [(asc "Content-Type", asc "application/x-frpc"), (asc "Accept", asc "application/json"), (asc "Content-Length", asc "9")]
    (sendCall (fun _ => true) ⟨2, 1⟩ (asc "f") [.int 1]).1.flatten, .binary, asc "f", [.int 1], ⟨2, 1⟩⟩

theorem pyWebAsk_ok : pyWebAsk.Ok pyWebConf :=
  ⟨webPost_ok _ _ _ (by unfold Spec.Http.IsWord; decide +kernel) (by decide +kernel) (by decide +kernel) (by decide +kernel) (by decide +kernel),
    (chooseKind_iff _ _).1 (by decide +kernel), .binary (S := pyWebConf) (strOk := fun _ => true) (args := [.int 1]) Web.full21 (by simp [HeldItems, Spec.Held, IsI64])
      (by simp [SmallItems, Spec.Small]) (by simp [LoadableItems, Spec.Python.Loadable]) (by rfl), by decide +kernel⟩

theorem pyWeb_f (st : Nat) : PyServer.dispatch pyOld pyReg ⟨st, false⟩ (asc "f") (.tuple []) (.ok (.tuple [.int 1])) = (.obj (.list [.int 1]), ⟨st + 10 + 1 + 100, false⟩) :=
  C111_call_partial pyOld rfl pyReg ⟨st, false⟩ (asc "f") (by decide +kernel) (.tuple []) [.int 1] _ rfl pyCount rfl (st + 10) (st + 10 + 1) (st + 10 + 1 + 100) (.ok (.list [.int 1])) _
    (.some pyPass .none (st + 10) rfl rfl) rfl (.silent pyQuiet _ _ _ _ _ rfl (.result _ (by intros; simp)) rfl (.value _))

theorem pyWeb_fields (n : Nat) : ∀ f ∈ (pyWebConf.added n).1, Spec.PyWeb.MayAdd f := by
  intro f hf
  have : f = (asc "x-session", asc "1") := by
    simp only [pyWebConf] at hf
    split at hf
    · simpa using hf
    · simp at hf
  subst this
  unfold Spec.PyWeb.MayAdd
  decide +kernel

theorem pyWeb_says (custom : HttpHeader.Fields) (hc : ∀ f ∈ custom, Spec.PyWeb.MayAdd f) : PyCanSay pyWebConf pyWebAsk (.list [.int 1]) custom := by
  refine ⟨hc, fun ver hver out _ => ?_⟩
  have hver : ver = ⟨2, 1⟩ := hver.elim id id
  subst hver
  have hm : Spec.Python.means (.list [.int 1]) = some (.array [.int 1]) := by simp [Spec.Python.means, Spec.Python.meansItems]
  have hs : Spec.Python.Small (.list [.int 1]) := by simp [Spec.Python.Small, Spec.Python.SmallItems]
  refine ⟨.inr ⟨.array [.int 1], hm, hs, ?_⟩, ?_⟩
  · cases out
    · exact ⟨by simp [Spec.Small, SmallItems], by simp [Leaves, LeavesItems]; exact ⟨by decide, by decide⟩⟩
    · exact ⟨by simp [Spec.Held, HeldItems, IsI64], by simp [Spec.Small, SmallItems], _, rfl⟩
    · exact ⟨by simp [Spec.Small, SmallItems], by simp [Spec.Json.DoublesAll, Spec.Json.DoublesItems]⟩
    · exact ⟨by simp [Spec.Held, HeldItems, IsI64], by simp [Spec.Small, SmallItems], _, rfl⟩
  · intro m ws k h1 h2
    rw [PyWeb.script_value pyWebConf hm hs] at h2
    have : (m.packAll pyWebConf.strOk pyWebConf.dbl (.packMethodResponse :: Frpc.feed (.array [.int 1]))).1 = ws ∧
      (m.packAll pyWebConf.strOk pyWebConf.dbl (.packMethodResponse :: Frpc.feed (.array [.int 1]))).2.1 = k := by rw [h2]; exact ⟨rfl, rfl⟩
    rw [← this.1, ← this.2]
    cases out <;> (cases h1; decide +kernel)

theorem pyWeb_ran (st : Nat) : Ran pyWebConf pyReg ⟨st, false⟩ pyWebAsk (.list [.int 1]) ([] ++ (pyWebConf.added (st + 111)).1) ⟨st + 111, false⟩ :=
  .mk (w1 := ⟨st + 111, false⟩) (.no rfl) (pyWeb_f st)

/-- Two calls on a kept connection, then the client closes it. -/
example : ∃ a, PyWeb.serve pyWebConf pyReg (PyWeb.new 0) ⟨pyWebAsk.post.text ++ pyWebAsk.post.text, [.bytes 3, .bytes 1], []⟩ ⟨[], []⟩ = (a, .raised) ∧
    PyConversation pyWebConf pyReg 0 ⟨0, false⟩ [pyWebAsk, pyWebAsk] a.wire.sent a.live.world .raised := by
  obtain ⟨a, e, h1, h2⟩ := C114_conversation_partial pyWebConf ⟨rfl, rfl⟩ XmlParser.eager_conforms pyReg (PyWeb.new 0) rfl [pyWebAsk, pyWebAsk]
    (by intro a ha; simp only [List.mem_cons, List.not_mem_nil, or_false, or_self] at ha; rw [ha]; exact pyWebAsk_ok)
    (.cons (pyWeb_ran 0) (pyWeb_says _ (by rw [List.nil_append]; exact pyWeb_fields _)) (.cons (pyWeb_ran 111) (pyWeb_says _ (by rw [List.nil_append]; exact pyWeb_fields _)) (.nil (.no rfl))))
    ⟨pyWebAsk.post.text ++ pyWebAsk.post.text, [.bytes 3, .bytes 1], []⟩ (by simp)
    (by intro e he; simp only [List.mem_cons, List.not_mem_nil, or_false] at he; rcases he with rfl | rfl <;> exact ⟨_, rfl⟩) [] (by intro e he; simp at he)
  have hst : pyWebAsk.post.Stays := (mustClose_iff _ _).1 (by decide +kernel)
  have := C114_closed_violated pyWebConf pyReg _ _ _ _ _ _ h2 rfl (by decide) (by
    intro a ha; simp only [List.mem_cons, List.not_mem_nil, or_false, or_self] at ha; rw [ha]; exact hst)
  subst this
  exact ⟨a, h1, h2⟩

/-- The first answer in bytes. -/
example : (PyWeb.serve pyWebConf pyReg (PyWeb.new 0) ⟨pyWebAsk.post.text, [], []⟩ ⟨[], []⟩).1.wire.sent =
    asc ("HTTP/1.1 200 OK\r\nX-Session: 1\r\nContent-Type: application/json\r\n" ++
      "Accept: text/xml, application/x-www-form-urlencoded, application/x-base64-frpc, application/x-frpc\r\n" ++
      "Connection: keep-alive\r\nContent-Length: 3\r\nServer: Fast-RPC Server Linux\r\n\r\n[1]") := by
  decide +kernel

/-- A method whose result cannot be sent, after which the state is odd. -/
def pyBig : PyServer.Fn Nat := fun st _ => (.ok (.int (2 ^ 70)), st + 1)

/-- A registry with it as `big`, and `f`. -/
def pyWebReg : Reg Nat := PyServer.built (PyServer.new Nat none none none true)
  [.method { name := .str (asc "big"), method := some pyBig }, .method { name := .str (asc "f"), method := some pyCount }]

/-- The call `big()`, of a client that wants JSON. -/
def pyWebBig : PyAsk :=
  ⟨webPost "/RPC2" [(asc "Content-Type", asc "application/x-frpc"), (asc "Accept", asc "application/json"), (asc "Content-Length", asc "9")]
    (sendCall (fun _ => true) ⟨2, 1⟩ (asc "big") []).1.flatten, .binary, asc "big", [], ⟨2, 1⟩⟩

/-- The call `f(1)`, of a client that does not keep the connection. -/
def pyWebLast : PyAsk :=
  ⟨webPost "/RPC2" [(asc "Content-Type", asc "application/x-frpc"), (asc "Connection", asc "close"), (asc "Content-Length", asc "9")]
    (sendCall (fun _ => true) ⟨2, 1⟩ (asc "f") [.int 1]).1.flatten, .binary, asc "f", [.int 1], ⟨2, 1⟩⟩

/-- C115: the field that was added for the first client is sent to the second. -/
example : (fun q : (PyWeb.At Nat × PyWeb.End) × (PyWeb.At Nat × PyWeb.End) => (q.1.1.wire.sent.take 25, q.1.2, q.2.1.wire.sent.take 32, q.2.2))
      (let q := PyWeb.serve pyWebConf pyWebReg (PyWeb.new 0) ⟨pyWebBig.post.text, [], []⟩ ⟨[], []⟩
       (q, PyWeb.serve pyWebConf pyWebReg q.1.live ⟨pyWebLast.post.text, [], []⟩ ⟨[], []⟩)) =
    (asc "HTTP/1.1 500 oops\r\nAccept", .done, asc "HTTP/1.1 200 OK\r\nX-Session: 1\r\nC", .done) := by
  decide +kernel

theorem pyWebBig_ok : pyWebBig.Ok pyWebConf :=
  ⟨webPost_ok _ _ _ (by unfold Spec.Http.IsWord; decide +kernel) (by decide +kernel) (by decide +kernel) (by decide +kernel) (by decide +kernel),
    (chooseKind_iff _ _).1 (by decide +kernel), .binary (S := pyWebConf) (strOk := fun _ => true) (args := []) Web.full21 (by simp [HeldItems])
      (by simp [SmallItems]) (by simp [LoadableItems]) (by rfl), by decide +kernel⟩

/-- The hypotheses about the first request of `C115_leak_violated` hold. -/
example : (∃ w1, Ran pyWebConf pyWebReg ⟨0, false⟩ pyWebBig (.int (2 ^ 70)) [(asc "x-session", asc "1")] w1) ∧ (PyWeb.script pyWebConf (.int (2 ^ 70))).2 = some .overflow ∧
    ∀ ver, ver = pyWebBig.ver ∨ ver = ⟨2, 1⟩ → ∀ out, AnsweredIn pyWebConf.useBinary (field (asc "Accept") pyWebBig.post.fields) out → out ≠ .binary ∧
      ∃ m ws k, Mar.new out ver = some m ∧ m.packAll pyWebConf.strOk pyWebConf.dbl (PyWeb.script pyWebConf (.int (2 ^ 70))).1 = (ws, k, none) := by
  refine ⟨⟨_, .mk (w1 := ⟨1, false⟩) (.no rfl) ?_⟩, by decide +kernel, ?_⟩
  · exact C111_call_partial pyOld rfl pyWebReg ⟨0, false⟩ (asc "big") (by decide +kernel) (.tuple []) [] _ rfl pyBig rfl 0 1 1 (.ok (.int (2 ^ 70))) _
      (.none rfl) rfl (.plain _ rfl (.value _))
  · intro ver hver out hout
    have hver : ver = ⟨2, 1⟩ := hver.elim id id
    subst hver
    have : out = .json := by
      have h := (chooseOut_in pyWebConf.useBinary (field (asc "Accept") pyWebBig.post.fields)).1
      rw [show (chooseOut pyWebConf.useBinary (field (asc "Accept") pyWebBig.post.fields)).1 = .json by decide +kernel] at h
      obtain ⟨a, ha, h1, h2⟩ := h
      cases out
      · have := hout a ha
        grind
      · obtain ⟨_, b, hb, h3⟩ := hout
        grind
      · rfl
      · obtain ⟨b, hb, h3, h4, h5⟩ := hout
        grind
    subst this
    exact ⟨by decide, _, _, _, rfl, rfl⟩

/-- An XML call that says that it is of protocol 9.1. -/
def pyWebNine : Post :=
  webPost "/RPC2" [(asc "Content-Type", asc "text/xml"), (asc "Content-Length", asc "117")]
    (asc "<?xml version=\"1.0\"?><!--protocolVersion=\"9.1\"--><methodCall><methodName>f</methodName><params></params></methodCall>")

/-- **C115 is violated: a version that is not known.** The call above ends the process: the exception of the marshaller for the answer is not caught. -/
theorem C115_version_violated : pyWebNine.Ok ∧ (PyWeb.serve pyWebConf pyReg (PyWeb.new 0) ⟨pyWebNine.text, [], []⟩ ⟨[], []⟩).2 = .terminate :=
  ⟨webPost_ok _ _ _ (by unfold Spec.Http.IsWord; decide +kernel) (by decide +kernel) (by decide +kernel) (by decide +kernel) (by decide +kernel), by decide +kernel⟩

namespace PyWeb

/-- There is always enough fuel. -/
theorem firstLine_fuel : ∀ (f g : Nat) (s : Conn), s.data.length < f → s.data.length < g → firstLine f s = firstLine g s
  | 0, _, _, h, _ => absurd h (by omega)
  | _, 0, _, _, h => absurd h (by omega)
  | f + 1, g + 1, s, hf, hg => by
    unfold firstLine
    cases h : readLine (srvCfg (fun _ => none)) true s with
    | mk r s' =>
      cases r with
      | error e => rfl
      | ok l =>
        have := readLineOpt_less h (.inl rfl)
        cases l with
        | nil => exact firstLine_fuel f g s' (by omega) (by omega)
        | cons c l => rfl

/-- Empty lines are skipped. -/
theorem firstLine_blank : ∀ (k f : Nat) (rest : Bytes) (sc : List Ev) (out : List Bytes), Calm sc → ((List.replicate k Spec.crlf).flatten ++ rest).length < f →
    ∃ sc', Calm sc' ∧ firstLine f ⟨(List.replicate k Spec.crlf).flatten ++ rest, sc, out⟩ = firstLine (rest.length + 1) ⟨rest, sc', out⟩
  | 0, f, rest, sc, out, hc, hf => ⟨sc, hc, firstLine_fuel _ _ _ hf (by simp)⟩
  | k + 1, 0, rest, sc, out, hc, hf => absurd hf (by omega)
  | k + 1, f + 1, rest, sc, out, hc, hf => by
    obtain ⟨sc1, hc1, h1⟩ := readLineOpt_crlf_any (srvCfg (fun _ => none)) true false ⟨(List.replicate (k + 1) Spec.crlf).flatten ++ rest, sc, out⟩ []
      ((List.replicate k Spec.crlf).flatten ++ rest) hc (by simp [List.replicate_succ]) (by simp) (by simp) (by decide)
    obtain ⟨sc2, hc2, h2⟩ := firstLine_blank k f rest sc1 out hc1 (by
      have : Spec.crlf.length = 2 := rfl
      simp only [List.replicate_succ, List.flatten_cons, List.length_append] at hf ⊢
      omega)
    refine ⟨sc2, hc2, ?_⟩
    rw [firstLine, show readLine (srvCfg (fun _ => none)) true _ = _ from h1]
    exact h2

end PyWeb

/-- **C114 (empty lines).** Any number of empty lines before a request change nothing, in whatever pieces they come. -/
theorem C114_blank_lines (S : PyWeb.Conf σ) (r : Reg σ) (x : PyWeb.Live σ) (k : Nat) (rest : Bytes) (sched : List Ev) (hc : Calm sched) (out : List Bytes) (wire : Wire)
    {w0 : World σ} {pre : HttpHeader.Fields} (h : PreRead S r x.world w0 pre) :
    ∃ sched', Calm sched' ∧ PyWeb.turn S r ⟨x, ⟨(List.replicate k Spec.crlf).flatten ++ rest, sched, out⟩, wire⟩ = PyWeb.turn S r ⟨x, ⟨rest, sched', out⟩, wire⟩ := by
  obtain ⟨sc, hc', h1⟩ := PyWeb.firstLine_blank k _ rest sched [] hc (Nat.lt_succ_self _)
  refine ⟨sc, hc', ?_⟩
  rw [PyWeb.turn_pre S r _ h, PyWeb.turn_pre S r ⟨x, _, _⟩ h]
  unfold PyWeb.readTurn PyWeb.readRequest
  simp only [h1]

/-- **C115 is violated: forms name no method.** A form posted to the path of a method, as C++ servers take it, calls the method `RPC2`. -/
theorem C115_form_violated (S : PyWeb.Conf σ) {dbl : Bytes → BitVec 64 → Prop} (henv : UrlForm.EnvOk S.url dbl) {ps : List Spec.Piece} (h1 : ∀ p ∈ ps, p.Ok dbl)
    (h3 : ps.length < 2 ^ 32) (l : List Bytes) (hl : l.flatten = Spec.body ps) : ∃ evs, UrlForm.run S.url [] l = (.methodCall (asc "RPC2") :: evs, none) := by
  obtain ⟨ns, hsort, hns⟩ := FormTree.names ps
  exact ⟨_, C34_request_partial S.url dbl henv [] l ps h1 h3 hl ns hsort hns⟩

example : (fun q : PyWeb.At Nat × PyWeb.End => (((asc "Method 'RPC2' not found.").isPrefixOf (q.1.wire.sent.drop 432)), q.2))
    (PyWeb.serve pyWebConf pyWebReg (PyWeb.new 0) ⟨webForm.post.text, [], []⟩ ⟨[], []⟩) = (true, .done) := by
  decide +kernel

end Frpc
