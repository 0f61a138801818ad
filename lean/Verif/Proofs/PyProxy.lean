import Verif.Model.PyProxy
import Verif.Props.PyWeb
/-!
# Facts for the Python client
-/
namespace Frpc
namespace PyProxy
open HttpIO HttpOut HttpServer Spec Spec.Http Spec.Web Spec.XmlRpc Remote
open Python (Py PB)
open PyWeb (binEnd)
open Spec.Python (shows Loadable)
open Spec.Xml (IsDocument)

/-! ## The request -/

/-- What a client sends for the writes is a request with them as its content. -/
theorem client_post (c : ClientCfg) (hok : ClientOk c) (ds : List Bytes) (hlen : LengthOk c.chunks ds) (hfirst : c.chunks = true → FirstWrite ds) (up : List SEv)
    (hs : CalmOut true up) :
    ∃ w' q, message (clientConf c) ds (.init ⟨up, []⟩) = (.ok (), w') ∧ w'.wire.sent = Post.text q ∧ q.Ok ∧ q.Kind (if c.binary then .binary else .xml) ∧ q.data = ds.flatten ∧
      q.path = c.path ∧ q.http11 = !c.http10 ∧ (q.Stays ↔ c.keepAlive = true) ∧ field (asc "Accept") q.fields = some (asc "text/xml, application/x-frpc") ∧
      c.custom.map (fun f => (f.1, trim f.2)) <:+ q.fields := by
  obtain ⟨w', h1, h2, h3⟩ := message_sent (clientConf c) (fun h n => clientHead_const c h n) ds ⟨up, []⟩ hs hfirst
  have hln : ds.flatten.length < 2 ^ 63 := by unfold LengthOk at hlen; split at hlen <;> omega
  have hpost : asc "POST " = asc "POST" ++ asc " " := by decide +kernel
  have hcr : asc "\r\n" = crlf := by decide +kernel
  have key : ∀ total body, (c.chunks = false → total = ds.flatten.length ∧ body = ds.flatten) →
      (c.chunks = true → ∃ ps, body = chunked ps ∧ (∀ p ∈ ps, p ≠ []) ∧ ps.flatten = ds.flatten) →
      ∃ q, clientHead c total ++ body = Post.text q ∧ q.Ok ∧ q.Kind (if c.binary then .binary else .xml) ∧ q.data = ds.flatten ∧
        q.path = c.path ∧ q.http11 = !c.http10 ∧ (q.Stays ↔ c.keepAlive = true) ∧ field (asc "Accept") q.fields = some (asc "text/xml, application/x-frpc") ∧
        c.custom.map (fun f => (f.1, trim f.2)) <:+ q.fields := by
    intro total body hp hch
    obtain ⟨f1, f2, f3⟩ := clientFields_first c total
    obtain ⟨f4, f5⟩ := clientFields_body hok total
    have hcoll := collect_asLine (clientFields c total) []
    rw [List.nil_append] at hcoll
    refine ⟨⟨c.path, !c.http10, (clientFields c total).map asLine, (clientFields c total).map (fun f : Bytes × Bytes => (f.1, trim f.2)), ds.flatten, body⟩, ?_,
      ⟨hok.path, ?_, hcoll, ?_, hln⟩, ?_, rfl, rfl, rfl, ?_, f2, ?_⟩
    · unfold clientHead Post.text requestText
      simp only
      rw [List.append_assoc _ ((clientFields c total).flatMap headLine), flatMap_headLine, hpost, hcr]
      cases c.http10 <;> simp [versionText]
    · intro l hl
      obtain ⟨f, hf, rfl⟩ := List.mem_map.1 hl
      exact (clientFields_ok hok total f hf).line
    · cases hcc : c.chunks with
      | false => exact .inl ⟨by rw [← (hp hcc).1]; exact f4 hcc, (hp hcc).2⟩
      | true =>
        obtain ⟨ps, a, b, d⟩ := hch hcc
        exact .inr ⟨(f5 hcc).1, ⟨_, (f5 hcc).2, by decide +kernel⟩, ps, a, b, d⟩
    · unfold Post.Kind
      show BodyIn ((first _ _).getD []) _
      rw [f1]
      cases c.binary
      · simp only [Bool.false_eq_true, if_false, Option.getD_some, BodyIn]
        rw [← hasSub_iff, ← hasSub_iff]; decide +kernel
      · simp only [if_true, Option.getD_some, BodyIn]
        rw [← hasSub_iff]; decide +kernel
    · unfold Post.Stays
      show Persists _ (first _ _) ↔ _
      rw [f3]
      unfold Persists
      cases c.http10 <;> cases c.keepAlive <;> simp <;> decide +kernel
    · show _ <:+ (clientFields c total).map _
      unfold clientFields
      rw [List.map_append]
      exact List.suffix_append _ _
  cases hch : c.chunks with
  | false =>
    have hl : ds.flatten.length < 2 ^ 32 := by simpa [LengthOk, hch] using hlen
    obtain ⟨q, e⟩ := key ds.flatten.length ds.flatten (fun _ => ⟨rfl, rfl⟩) (fun h => absurd h (by simp [hch]))
    refine ⟨w', q, h1, ?_, e.2⟩
    rw [h2 hch, Nat.mod_eq_of_lt hl, ← e.1]; rfl
  | true =>
    obtain ⟨ps, g1, g2, g3⟩ := h3 hch
    obtain ⟨q, e⟩ := key 0 (chunked ps) (fun h => absurd h (by simp [hch])) (fun _ => ⟨ps, rfl, g2, g3⟩)
    refine ⟨w', q, h1, ?_, e.2⟩
    rw [g1, ← e.1]; rfl

variable {σ : Type}

/-- What the marshaller is told is what the C++ proxy tells it. -/
theorem script_means (S : Conf σ) {name : Bytes} (hn : (0 : UInt8) ∉ name) {args : List Py} {vs : List Value} (hm : Spec.Python.meansItems args = some vs)
    (hs : Spec.Python.SmallItems args) (hl : args.length < 2 ^ 30) : script S name args = (.packMethodCall name :: Frpc.feedItems vs, none) := by
  unfold script
  have := Python.feed_items (L := S.opts.L) args vs hm hs
  simp only [Python.argc_small hl, show Registry.cstr name = name from PyServer.cstr_eq hn, Int.toNat_natCast, this, Python.andThen, List.cons_append, List.nil_append]

/-- The marshaller of the proxy on a call that the C++ proxy could send. -/
theorem pack_call (S : Conf σ) {binary : Bool} {ver : Version} (hv : ver.Full) {name : Bytes} {vs : List Value} {ws : List Bytes}
    (h : Proxy.packCall S.strOk S.dbl binary ver name vs = (ws, none)) :
    ∃ m ws' k, Mar.new (format binary) ver = some m ∧ m.packAll S.strOk S.dbl (.packMethodCall name :: Frpc.feedItems vs) = (ws', k, none) ∧ ws' ++ k.ending = ws ∧ FirstWrite ws := by
  obtain ⟨a1, a2⟩ := accepts_full hv
  cases binary with
  | true =>
    unfold Proxy.packCall at h
    simp only [if_true, a1] at h
    refine ⟨.bin ver, ws, .bin ver, by simp [Mar.new, format, a1], ?_, by simp [Mar.ending], (C41_binary_first_write S.strOk ver ws).1 name vs h⟩
    simp only [Mar.packAll, h]
  | false =>
    unfold Proxy.packCall at h
    simp only [Bool.false_eq_true, if_false] at h
    obtain ⟨ws', k, g1, g2⟩ := Web.mar_xml' (strOk := S.strOk) h
    exact ⟨.xml (XmlMarshaller.new ver), ws', k, by simp [Mar.new, format, a2], g1, g2, xml_firstWrite _ _ (.call name vs) _ h⟩

/-! ## The response -/

/-- The proxy takes the data for that outcome, in whatever pieces they come. -/
structure Told (S : Conf σ) (k : HttpServer.Kind) (data : Bytes) (o : Outcome) (V : Version → Prop) : Prop where
  feed : ∀ l : List Bytes, (∀ p ∈ l, p ≠ []) → l.flatten <+: data → PyProxy.feed S k l = none
  finish : ∀ l : List Bytes, (∀ p ∈ l, p ≠ []) → l.flatten = data → PyProxy.finish S k l = none
  built : ∀ l : List Bytes, (∀ p ∈ l, p ≠ []) → l.flatten = data → ofBuilder (PyProxy.built S k l) = o ∧ V (version S k l)

theorem Told.mono {S : Conf σ} {k : HttpServer.Kind} {data : Bytes} {o : Outcome} {V V' : Version → Prop} (h : Told S k data o V) (hv : ∀ v, V v → V' v) : Told S k data o V' :=
  ⟨h.feed, h.finish, fun l hne hl => ⟨(h.built l hne hl).1, hv _ (h.built l hne hl).2⟩⟩

theorem told_binary_of (S : Conf σ) {data : Bytes} {o : Outcome} {ver : Version} {u : BinUnMarshaller.Obj} {pb : PB} (hf : BinUnMarshaller.finish u = .ok ()) (ho : ofBuilder pb = o)
    (hs : Registry.versionSeen data = ver) (h : ∀ l : List Bytes, l.flatten = data → binRead S l = (u, pb, none)) : Told S .binary data o (· = ver) := by
  refine ⟨fun l _ hp => ?_, fun l _ hl => ?_, fun l _ hl => ?_⟩
  · obtain ⟨t, ht⟩ := hp
    refine HttpServer.unMarshallAll_prefix _ _ l [t] _ _ ?_
    have := h (l ++ [t]) (by simp [ht])
    unfold binRead at this
    rw [this]
  · show binEnd (binRead S l).1 = none
    rw [h l hl]
    unfold binEnd
    rw [hf]
  · show ofBuilder (binRead S l).2.1 = o ∧ Registry.versionSeen l.flatten = ver
    rw [h l hl, hl]
    exact ⟨ho, hs⟩

theorem ofBuilder_value {pb : PB} {v : Value} (he : pb.error = none) (hm : pb.methodName = none) (hf : pb.frames = []) (hr : pb.ret = shows v) : ofBuilder pb = .value (shows v) := by
  unfold ofBuilder
  have hs : Python.seen pb = shows v := by unfold Python.seen; rw [hf, hr]; rfl
  simp only [he, hm, hs]
  split
  · next c m h => exact absurd h (Python.shows_not_fault v c m)
  · rfl

/-- A value in the binary protocol. -/
theorem told_binary (S : Conf σ) (hp : Python.Plain S.opts) {strOk : Bytes → Bool} {ver : Version} (hv : ver.Full) {v : Value} (h1 : Held v) (h2 : Small v) (hl : Loadable v)
    {ws : List Bytes} (h3 : sendResponse strOk ver v = (ws, none)) : Told S .binary ws.flatten (.value (Python.got S.opts ver v)) (· = ver) := by
  have hrun : (BinMarshaller.run strOk ver (.packMethodResponse :: Frpc.feed v)).2 = none := by
    have : (sendResponse strOk ver v).2 = none := by rw [h3]
    exact this
  obtain ⟨wa, hr, hd⟩ := codec (req := .response) (stop := false) hv.1 v (accepted hv.2 v h1 h2 (run_one_none _ _ hrun).2)
  have hws : ws = [BinMarshaller.packMagic ver, [BinMarshaller.dataType T_RESPONSE 0]] ++ wa := by
    unfold sendResponse at h3
    rw [run_cons _ _ _ _ _ rfl, hr] at h3
    exact (Prod.mk.inj h3).1.symm
  have s1 := dec_response (req := .response) (stop := false) hv.1 (.inl rfl) wa.flatten
  have s2 := hd (top ver 0 0) [] (top_ready ver 0)
  rw [List.append_nil, after_top] at s2
  have s3 := s1.trans s2
  obtain ⟨m, hm⟩ := Python.build_value (ver := ver) hp v hl Python.init ⟨rfl, by intro s ms fs h; simp [Python.init] at h⟩
  have ha : BinUnMarshaller.applyEvents (Python.builder S.opts) Python.init ([.methodResponse] ++ (evs ver v ++ (BinUnMarshaller.closeUp (top ver 0 0).stack).2)) =
      ({ Python.place Python.init (Python.got S.opts ver v) with memberName := m }, none) := by
    rw [List.singleton_append, applyEvents_cons (b' := Python.init) rfl]
    simpa [top, BinUnMarshaller.closeUp] using hm
  refine told_binary_of S ?_ ?_ ?_ (fun l hl => s3.all (by simp [top]) ha l (by rw [hl, hws]; simp))
  · rfl
  · exact ofBuilder_value rfl rfl rfl rfl
  · exact Rpc.versionSeen_response h3

/-- A fault in the binary protocol. -/
theorem told_fault (S : Conf σ) {strOk : Bytes → Bool} {ver : Version} (hv : ver.Full) {code : Int} (hc : IsI32 code) {msg : Bytes} (hm : msg.length < 2 ^ 30) (hs : strOk msg = true)
    (hu : isUtf8 msg = true) {ws : List Bytes} (h3 : sendFault strOk ver code msg = (ws, none)) : Told S .binary ws.flatten (.raised (.fault code msg)) (· = ver) := by
  have hp : BinMarshaller.pack strOk ver (.packFault code msg) =
      ([BinMarshaller.packMagic ver, [BinMarshaller.dataType T_FAULT 0]] ++ BinMarshaller.packInt ver code ++ (BinMarshaller.sized ver T_STRING msg.length ++ [msg]), none) := by
    simp only [BinMarshaller.pack, BinMarshaller.packString, hs, if_true]
  have hws : ws = [BinMarshaller.packMagic ver, [BinMarshaller.dataType T_FAULT 0]] ++ BinMarshaller.packInt ver code ++ (BinMarshaller.sized ver T_STRING msg.length ++ [msg]) := by
    have h4 : BinMarshaller.run strOk ver [.packFault code msg] = (ws, none) := h3
    rw [run_one hp] at h4
    exact (Prod.mk.inj h4).1.symm
  have h64 : IsI64 code := by unfold IsI32 at hc; unfold IsI64; omega
  have s1 := dec_fault (req := .response) (stop := false) hv.1 (by simp)
    ((BinMarshaller.packInt ver code).flatten ++ ((BinMarshaller.sized ver T_STRING msg.length).flatten ++ (msg ++ [])))
  have s2 := dec_fault_body (req := .response) (stop := false) hv.1 code msg [] h64 (fun h1 => absurd (h1 ▸ hv.2) (by decide)) hm
  have s3 := s1.trans s2
  rw [List.nil_append, i32_u32 hc] at s3
  have key : BinUnMarshaller.applyEvents (Python.builder S.opts) Python.init [.fault code msg] = ({ Python.init with ret := .fault code msg, first := true }, none) := by
    refine applyEvents_one ?_
    simp [Python.builder, Python.build, Python.buildFault, Python.init, Python.decodes, hu]
  refine told_binary_of S ?_ ?_ (Rpc.versionSeen_fault h3) (fun l hl => s3.all (by simp [top]) key l (by rw [hl, hws]; simp))
  · rfl
  · rfl

theorem told_xml_of (S : Conf σ) {doc : Bytes} (hne : doc ≠ []) {o : Outcome} {V : Version → Prop}
    (h : ∀ d ds, (d :: ds).flatten = doc → (∀ p ∈ d :: ds, p ≠ []) →
      ∃ u pb, XmlUnMarshaller.run S.xml S.parser (Python.builder S.opts) .response Python.init (d :: ds) = (u, pb, none) ∧ ofBuilder pb = o ∧ V u.ver) : Told S .xml doc o V := by
  have h' : ∀ l : List Bytes, (∀ p ∈ l, p ≠ []) → l.flatten = doc → ∃ u pb, xmlDone S l = (u, pb, none) ∧ ofBuilder pb = o ∧ V u.ver := by
    intro l hne' hl
    cases l with
    | nil => exact absurd hl.symm hne
    | cons d ds => exact h d ds hl hne'
  refine ⟨fun l hne hl => ?_, fun l hne hl => ?_, fun l hne hl => ?_⟩
  · obtain ⟨t, ht⟩ := hl
    show (xmlRead S l).2.2 = none
    have key : ∀ l : List Bytes, (∀ p ∈ l, p ≠ []) → l.flatten = doc → (xmlRead S l).2.2 = none := by
      intro l hne hl
      obtain ⟨u, tb, h1, -⟩ := h' l hne hl
      unfold xmlDone XmlUnMarshaller.run at h1
      unfold xmlRead
      generalize XmlUnMarshaller.unMarshallAll S.xml S.parser (Python.builder S.opts) .response [] XmlUnMarshaller.init Python.init l = q at h1 ⊢
      obtain ⟨u1, b1, e⟩ := q
      cases e with
      | none => rfl
      | some e => simp at h1
    by_cases h0 : t = []
    · exact key l hne (by rw [← ht, h0, List.append_nil])
    · have := key (l ++ [t]) (by
        intro p hp
        rcases List.mem_append.1 hp with hp | hp
        · exact hne p hp
        · rw [List.mem_singleton.1 hp]; exact h0) (by simp [ht])
      exact xml_prefix _ _ _ _ [t] l _ _ _ this
  · obtain ⟨u, tb, h1, -⟩ := h' l hne hl
    show (xmlDone S l).2.2 = none
    rw [h1]
  · obtain ⟨u, tb, h1, h2⟩ := h' l hne hl
    show ofBuilder (xmlDone S l).2.1 = _ ∧ V (xmlDone S l).1.ver
    rw [h1]; exact h2

/-- The builder after a response in XML. -/
theorem xml_response {o : Python.Opts} (hp : Python.Plain o) (v : Value) (hl : Loadable v) :
    ∃ pb, BinUnMarshaller.applyEvents (Python.builder o) Python.init (Message.response v).calls = (pb, none) ∧ ofBuilder pb = .value (shows (plainWith (Python.xmlDate o) v)) := by
  obtain ⟨m, hm⟩ := Python.xml_value hp v hl Python.init ⟨rfl, by intro s ms fs h; simp [Python.init] at h⟩
  refine ⟨_, ?_, ofBuilder_value (pb := { Python.place Python.init (shows (plainWith (Python.xmlDate o) v)) with memberName := m }) rfl rfl rfl rfl⟩
  simp only [Message.calls]
  rw [applyEvents_cons (b' := Python.init) rfl, hm]

/-- The builder after a fault in XML. -/
theorem xml_fault (o : Python.Opts) (code : Int) (msg : Bytes) (hu : isUtf8 msg = true) :
    ∃ pb, BinUnMarshaller.applyEvents (Python.builder o) Python.init (Message.fault code msg).calls = (pb, none) ∧ ofBuilder pb = .raised (.fault code msg) := by
  refine ⟨{ Python.init with ret := .fault code msg, first := true }, ?_, rfl⟩
  refine applyEvents_one ?_
  simp [Python.builder, Python.build, Python.buildFault, Python.init, Python.decodes, hu]

/-- A message of this library in XML. -/
theorem told_own (S : Conf σ) (hP : Spec.Xml.Conforms S.parser) {ver : Version} (hv : ver.Full) {msg : Message} (hreq : XmlUnMarshaller.asked .response msg) (h2 : XmlMarshaller.SmallMessage msg)
    (dbl : BitVec 64 → Bytes) (h3 : msg.Leaves (xmlNeed ver S.xml dbl)) (h4 : msg.IntsAll (XmlUnMarshaller.readable S.xml.erange)) {ws : List Bytes}
    (h5 : XmlMarshaller.run dbl ver (XmlMarshaller.ops msg) = (ws, none)) {pb : PB} {o : Outcome}
    (a1 : BinUnMarshaller.applyEvents (Python.builder S.opts) Python.init msg.calls = (pb, none)) (a2 : ofBuilder pb = o) :
    Told S .xml ws.flatten o (fun v => v = ver ∨ v = ⟨2, 1⟩) := by
  obtain ⟨ws', g1, g2⟩ := XmlMarshaller.own_run (env := S.xml) (req := .response) (msg := msg) hP hreq (accepts_full hv).2 h2 h3 h4 a1
  rw [h5] at g1
  cases g1
  refine told_xml_of S (firstWrite_ne (xml_firstWrite _ _ _ _ h5)) (fun d ds hds hne => ?_)
  obtain ⟨u, b1, b2⟩ := g2 d ds hds hne
  exact ⟨u, pb, b1, a2, by rw [b2]; exact seen_or ver _⟩

/-- Any document that says nothing of a version. -/
theorem told_document (S : Conf σ) (hP : Spec.Xml.Conforms S.parser) {msg : Message} (hreq : XmlUnMarshaller.asked .response msg) {doc : Bytes} {root : Spec.Xml.Node}
    (h2 : IsDocument Spec.Xml.xmlChar doc root) (h3 : msg.Is (XmlUnMarshaller.understood S.xml.strtod) root) (h4 : msg.IntsAll (XmlUnMarshaller.readable S.xml.erange))
    (h7 : Web.Unversioned doc) {pb : PB} {o : Outcome} (a1 : BinUnMarshaller.applyEvents (Python.builder S.opts) Python.init msg.calls = (pb, none)) (a2 : ofBuilder pb = o) :
    Told S .xml doc o (· = ⟨2, 1⟩) := by
  have hne : doc ≠ [] := by
    rintro rfl
    obtain ⟨evs, g, -⟩ := h2
    rw [XmlUnMarshaller.read_nil] at g
    cases g
  refine told_xml_of S hne (fun d ds hds hne => ?_)
  obtain ⟨u, g1, g2⟩ := XmlUnMarshaller.run_document (req := .response) (msg := msg) hP hreq h2 h3 h4 hds hne
    (Web.sniff_unversioned (r := ds.flatten) h7 (by simpa using hds) (hne d (by simp))) a1
  exact ⟨u, pb, g1, a2, g2⟩

end PyProxy
end Frpc
