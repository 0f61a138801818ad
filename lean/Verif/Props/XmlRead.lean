import Verif.Proofs.XmlOwn
import Verif.Proofs.XmlBuild
import Verif.Proofs.XmlParser
/-!
# Reading XML: C30

The parser is any parser that conforms (`Spec.Xml.Conforms`): it reports the documents of a part of XML correctly, in whatever pieces they
come and however it cuts the text. `XmlUnMarshaller.run env P B req b ds` is a fresh unmarshaller for messages of type `req` with the
builder `B` in state `b`, given the pieces `ds`, then `finish`.
-/
namespace Frpc
open Spec.Xml Spec.XmlRpc BinUnMarshaller XmlMarshaller XmlUnMarshaller
open TreeBuilder (builder getData TB)
open Spec (Held HeldItems HeldMembers Small SmallItems plainWith plainItemsWith plain DatesAll StringsAll StringsAllItems StringsAllMembers)

/-- **C30 (interoperation).** Any document of XML-RPC, from whatever sender: if its root element stands for the message, with any layout and
any cutting into pieces, the builder gets exactly the calls of the message, and the unmarshaller finishes without error. (The mark
`protocolVersion="` must not begin at byte 61 to 63 of the first piece, see `C30_late_mark_violated`.) -/
theorem C30_interoperation {β : Type} (P : Spec.Xml.Parser) (hP : Conforms P) (env : Env) (B : Builder β) (req : Req) (msg : Message) (hreq : asked req msg)
    (doc : Bytes) (root : Node) (hdoc : IsDocument xmlChar doc root) (his : msg.Is (understood env.strtod) root) (hints : msg.IntsAll (readable env.erange))
    (ds : List Bytes) (hds : ds.flatten = doc) (hne : ∀ d ∈ ds, d ≠ []) (hearly : ∀ d, ds.head? = some d → versionEarly d)
    (b b' : β) (hb : applyEvents B b msg.calls = (b', none)) :
    ∃ u, XmlUnMarshaller.run env P B req b ds = (u, b', none) := by
  cases ds with
  | nil =>
    obtain ⟨evs, h1, -⟩ := hdoc
    simp only [List.flatten_nil] at hds
    subst hds
    rw [read_nil] at h1
    cases h1
  | cons d ds =>
    obtain ⟨v, hs⟩ := sniff_early (hearly d rfl) (hne d (by simp))
    obtain ⟨x, h1, -⟩ := run_document hP hreq hdoc his hints hds hne hs hb
    exact ⟨x, h1⟩

example : Conforms XmlParser.eager := XmlParser.eager_conforms

/-- A document of another sender: with layout and `int` for `i4`. -/
def otherSender : Bytes := asc "<?xml version=\"1.0\"?>\n<methodCall>\n <methodName>m</methodName>\n <params><param><value><int>5</int></value></param></params>\n</methodCall>"

/-- The root of it. -/
def otherRoot : Node := .elem (asc "methodCall") [.text (asc "\n "), .elem (asc "methodName") [.text (asc "m")], .text (asc "\n "), .elem (asc "params") [.elem (asc "param")
  [.elem (asc "value") [.elem (asc "int") [.text (asc "5")]]]], .text (asc "\n")]

example : IsDocument xmlChar otherSender otherRoot ∧ (Message.call (asc "m") [.int 5]).Is (understood (fun _ => (0, 0))) otherRoot := by
  have h : (Spec.Xml.read xmlChar otherSender).map canon = some (canon otherRoot.sax) := by decide +kernel
  refine ⟨Option.map_eq_some_iff.1 h, ?_⟩
  refine ⟨_, [.text (asc "m")], [.elem (asc "param") [.elem (asc "value") [.elem (asc "int") [.text (asc "5")]]]], asc "m", rfl, rfl, rfl, ?_, ?_⟩
  · exact ⟨[], rfl, rfl⟩
  · refine ⟨_, _, .elem (asc "value") [.elem (asc "int") [.text (asc "5")]], rfl, rfl, ?_, rfl⟩
    simp only [Stands]
    refine ⟨asc "int", by simp, ?_⟩
    exact ⟨_, _, rfl, rfl, [], by decide +kernel, rfl⟩

/-- What is asked of a tree that goes through XML: integers that the marshaller writes and that the reader reads; strings of characters of XML
without CR; doubles whose text gives them back; date-times whose fields fit. -/
def xmlNeed (ver : Version) (env : Env) (dbl : BitVec 64 → Bytes) : Need :=
  ⟨fun n => XmlInt ver n ∧ readable env.erange n, fun s => IsXmlText s ∧ (13 : UInt8) ∉ s,
   fun x => PlainText (dbl x) ∧ env.strtod (dbl x) = (x, (dbl x).length), Dated⟩

namespace XmlMarshaller

theorem lineEnds_noCR : ∀ {s : Bytes}, (13 : UInt8) ∉ s → lineEnds s = s
  | [], _ => rfl
  | c :: s, h => by
    rw [lineEnds_other (by rintro rfl; simp at h), lineEnds_noCR (fun hc => h (by simp [hc]))]

theorem fits_own (ver : Version) (env : Env) (dbl : BitVec 64 → Bytes) : Fits xmlChar (understood env.strtod) (xmlNeed ver env dbl) dbl where
  nice := nice_xmlChar
  str s h := by
    obtain ⟨ps, h1, h2⟩ := spell_legal h.1
    exact ⟨ps, h1, by rw [h2, lineEnds_noCR h.2]; rfl⟩
  dbl x h := by
    refine ⟨plain_of h.1, ?_, h.2⟩
    intro h0
    have := (h.1 0 h0).1
    exact absurd this (by decide)
  date d h := ⟨h, dateText_iso h⟩
  b64 := (fits_xmlChar dbl ver).b64

mutual
theorem ints_of {N : Need} {P : Int → Prop} (hp : ∀ n, N.int n → P n) : ∀ v : Value, Leaves N v → IntsAll P v
  | .int n, h => by simp only [Leaves] at h; simp only [IntsAll]; exact hp n h
  | .bool _, _ | .double _, _ | .string _, _ | .stringView _, _ | .dateTime _, _ | .binary _, _ | .binaryRef _, _ | .null, _ => by simp only [IntsAll]
  | .secret v, h => by simp only [Leaves] at h; simp only [IntsAll]; exact ints_of hp v h
  | .array vs, h => by simp only [Leaves] at h; simp only [IntsAll]; exact ints_of_items hp vs h
  | .struct ms, h => by simp only [Leaves] at h; simp only [IntsAll]; exact ints_of_members hp ms h
theorem ints_of_items {N : Need} {P : Int → Prop} (hp : ∀ n, N.int n → P n) : ∀ vs : List Value, LeavesItems N vs → IntsAllItems P vs
  | [], _ => trivial
  | v :: vs, h => ⟨ints_of hp v h.1, ints_of_items hp vs h.2⟩
theorem ints_of_members {N : Need} {P : Int → Prop} (hp : ∀ n, N.int n → P n) : ∀ ms : List (Bytes × Value), LeavesMembers N ms → IntsAllMembers P ms
  | [], _ => trivial
  | (k, v) :: ms, h => ⟨ints_of hp v h.2.2.1, ints_of_members hp ms h.2.2.2⟩
end

mutual
theorem ok_of {N : Need} {cfg : TreeBuilder.Cfg} : ∀ v : Value, Leaves N v → StringsAll (fun s => cfg.strOk s = true) v → XmlBuild.Ok cfg v
  | .string s, _, h | .stringView s, _, h => by simp only [StringsAll] at h; simp only [XmlBuild.Ok]; exact h
  | .bool _, _, _ | .double _, _, _ | .int _, _, _ | .dateTime _, _, _ | .binary _, _, _ | .binaryRef _, _, _ | .null, _, _ => by simp only [XmlBuild.Ok]
  | .secret v, h, h2 => by simp only [Leaves] at h; simp only [StringsAll] at h2; simp only [XmlBuild.Ok]; exact ok_of v h h2
  | .array vs, h, h2 => by simp only [Leaves] at h; simp only [StringsAll] at h2; simp only [XmlBuild.Ok]; exact ok_of_items vs h h2
  | .struct ms, h, h2 => by simp only [Leaves] at h; simp only [StringsAll] at h2; simp only [XmlBuild.Ok]; exact ok_of_members ms h h2
theorem ok_of_items {N : Need} {cfg : TreeBuilder.Cfg} : ∀ vs : List Value, LeavesItems N vs → StringsAllItems (fun s => cfg.strOk s = true) vs → XmlBuild.OkItems cfg vs
  | [], _, _ => trivial
  | v :: vs, h, h2 => ⟨ok_of v h.1 h2.1, ok_of_items vs h.2 h2.2⟩
theorem ok_of_members {N : Need} {cfg : TreeBuilder.Cfg} : ∀ ms : List (Bytes × Value), LeavesMembers N ms → StringsAllMembers (fun s => cfg.strOk s = true) ms → XmlBuild.OkMembers cfg ms
  | [], _, _ => trivial
  | (k, v) :: ms, h, h2 => ⟨h.1.2, ok_of v h.2.2.1 h2.1, ok_of_members ms h.2.2.2 h2.2⟩
end

/-- There and back for any builder. -/
theorem own_run {β : Type} {P : Spec.Xml.Parser} (hP : Conforms P) {env : Env} {B : Builder β} {req : Req} {msg : Message} (hreq : asked req msg)
    {dbl : BitVec 64 → Bytes} {ver : Version} (hv : accepts ver = true) (hsmall : SmallMessage msg) (hleaves : msg.Leaves (xmlNeed ver env dbl))
    (hints : msg.IntsAll (readable env.erange)) {b b' : β} (hb : applyEvents B b msg.calls = (b', none)) :
    ∃ ws, XmlMarshaller.run dbl ver (ops msg) = (ws, none) ∧ ∀ d ds, (d :: ds).flatten = ws.flatten → (∀ p ∈ d :: ds, p ≠ []) →
      ∃ u, XmlUnMarshaller.run env P B req b (d :: ds) = (u, b', none) ∧ u.ver = seenVersion ver d.length := by
  obtain ⟨ws, h1, h2⟩ := run_message dbl hv msg hsmall
    (messageLeaves_mono (N := xmlNeed ver env dbl) (N' := needs ver) (fun n h => h.1) (fun _ _ => trivial) (fun _ _ => trivial) (fun _ _ => trivial) msg hleaves)
  have hk : ∀ t : Bytes, t.all isAlnum = true → IsXmlText t ∧ (13 : UInt8) ∉ t := by
    intro t ht
    refine ⟨xmlText_ascii ?_, fun h => absurd (List.all_eq_true.1 ht _ h) (by decide)⟩
    intro c hc
    have := forall_byte (fun c => !isAlnum c || (decide (c.toNat < 128) && Spec.isXmlChar c.toNat)) (by decide +kernel) c
    rw [List.all_eq_true.1 ht c hc] at this
    simpa using this
  obtain ⟨root, h3, h4⟩ := message_document (fits_own ver env dbl) ver msg hleaves ⟨hk _ (by decide +kernel), hk _ (by decide +kernel)⟩
  refine ⟨ws, h1, fun d ds hds hne => ?_⟩
  rw [h2] at hds
  have hnoq := noq_message (N := xmlNeed ver env dbl) (dbl := dbl) (fun x h => noq_plain (plain_of h.1)) msg hleaves
  have hs := sniff_own (r := ds.flatten) hnoq (by simpa using hds) (hne d (by simp))
  exact run_document hP hreq h3 h4 hints hds hne hs hb

end XmlMarshaller

/-- **C30 (responses).** Every tree in memory within the size limits whose leaves can go through XML (`xmlNeed`) is written as a response, and
read back, by any conforming parser and in whatever pieces, as the same tree; only the week day and the time stamp of date-times, which
the text does not carry, are made anew by the receiver's configuration. -/
theorem C30_response_partial (P : Spec.Xml.Parser) (hP : Conforms P) (env : Env) (cfg : TreeBuilder.Cfg) (dbl : BitVec 64 → Bytes) (ver : Version)
    (hv : accepts ver = true) (v : Value) (hheld : Held v) (hsmall : Small v) (hleaves : Leaves (xmlNeed ver env dbl) v)
    (hstr : StringsAll (fun s => cfg.strOk s = true) v) :
    ∃ ws, XmlMarshaller.run dbl ver (ops (.response v)) = (ws, none) ∧ ∀ d ds, (d :: ds).flatten = ws.flatten → (∀ p ∈ d :: ds, p ≠ []) →
      ∃ u tb, XmlUnMarshaller.run env P (builder cfg) .response TreeBuilder.init (d :: ds) = (u, tb, none) ∧
        getData tb = .ok (plainWith (fun t => cfg.date (undated t)) v) ∧ u.ver = seenVersion ver d.length := by
  obtain ⟨m, hm⟩ := XmlBuild.build_value (cfg := cfg) v (ok_of v hleaves hstr) TreeBuilder.init
    { TreeBuilder.init with ret := some (XmlBuild.made cfg v), first := false } rfl
  have hb : applyEvents (builder cfg) TreeBuilder.init (Message.response v).calls =
      ({ TreeBuilder.init with ret := some (XmlBuild.made cfg v), first := false, memberName := m }, none) := by
    simp only [Message.calls]
    rw [applyEvents_cons (b' := TreeBuilder.init) rfl, hm]
  obtain ⟨ws, h1, h2⟩ := own_run (req := .response) (msg := .response v) hP (.inl rfl) hv hsmall hleaves (ints_of (N := xmlNeed ver env dbl) (fun n h => h.2) v hleaves) hb
  refine ⟨ws, h1, fun d ds hds hne => ?_⟩
  obtain ⟨u, h3, h4⟩ := h2 d ds hds hne
  refine ⟨u, _, h3, ?_, h4⟩
  rw [← XmlBuild.made_plain v hheld]
  rfl

/-- **C30 (responses, same tree).** If the date-times are as the receiver makes them, it is the same tree. -/
theorem C30_response_same_partial (P : Spec.Xml.Parser) (hP : Conforms P) (env : Env) (cfg : TreeBuilder.Cfg) (dbl : BitVec 64 → Bytes) (ver : Version)
    (hv : accepts ver = true) (v : Value) (hheld : Held v) (hsmall : Small v) (hleaves : Leaves (xmlNeed ver env dbl) v)
    (hstr : StringsAll (fun s => cfg.strOk s = true) v) (hdates : DatesAll (fun t => cfg.date (undated t) = t) v) :
    ∃ ws, XmlMarshaller.run dbl ver (ops (.response v)) = (ws, none) ∧ ∀ d ds, (d :: ds).flatten = ws.flatten → (∀ p ∈ d :: ds, p ≠ []) →
      ∃ u tb, XmlUnMarshaller.run env P (builder cfg) .response TreeBuilder.init (d :: ds) = (u, tb, none) ∧ getData tb = .ok (plain v) := by
  obtain ⟨ws, h1, h2⟩ := C30_response_partial P hP env cfg dbl ver hv v hheld hsmall hleaves hstr
  refine ⟨ws, h1, fun d ds hds hne => ?_⟩
  obtain ⟨u, tb, h3, h4, -⟩ := h2 d ds hds hne
  exact ⟨u, tb, h3, by rw [h4, plainWith_congr _ id v hdates]; rfl⟩

/-- **C30 (calls).** The same for the name and the arguments of a call. -/
theorem C30_call_partial (P : Spec.Xml.Parser) (hP : Conforms P) (env : Env) (cfg : TreeBuilder.Cfg) (dbl : BitVec 64 → Bytes) (ver : Version)
    (hv : accepts ver = true) (name : Bytes) (args : List Value) (hheld : HeldItems args) (hsmall : SmallItems args)
    (hleaves : (Message.call name args).Leaves (xmlNeed ver env dbl)) (hstr : StringsAllItems (fun s => cfg.strOk s = true) args) :
    ∃ ws, XmlMarshaller.run dbl ver (ops (.call name args)) = (ws, none) ∧ ∀ d ds, (d :: ds).flatten = ws.flatten → (∀ p ∈ d :: ds, p ≠ []) →
      ∃ u tb, XmlUnMarshaller.run env P (builder cfg) .call TreeBuilder.init (d :: ds) = (u, tb, none) ∧
        tb.methodName = name ∧ getData tb = .ok (.array (plainItemsWith (fun t => cfg.date (undated t)) args)) ∧ u.ver = seenVersion ver d.length := by
  obtain ⟨m, hm⟩ := XmlBuild.build_items (cfg := cfg) args (ok_of_items args hleaves.2.2 hstr)
    { TreeBuilder.init with methodName := name, first := true, frames := [(.root, .arr [])] } .root [] [] rfl
  have hb : applyEvents (builder cfg) TreeBuilder.init (Message.call name args).calls =
      ({ TreeBuilder.init with methodName := name, first := true, memberName := m, frames := [(.root, .arr (XmlBuild.madeItems cfg args))] }, none) := by
    simp only [Message.calls]
    rw [applyEvents_cons (b' := { TreeBuilder.init with methodName := name, first := true, frames := [(.root, .arr [])] }) rfl, hm]
    rfl
  obtain ⟨ws, h1, h2⟩ := own_run (req := .call) (msg := .call name args) hP (.inl rfl) hv hsmall hleaves (ints_of_items (N := xmlNeed ver env dbl) (fun n h => h.2) args hleaves.2.2) hb
  refine ⟨ws, h1, fun d ds hds hne => ?_⟩
  obtain ⟨u, h3, h4⟩ := h2 d ds hds hne
  refine ⟨u, _, h3, rfl, ?_, h4⟩
  rw [← XmlBuild.made_plainItems args hheld]
  rfl

/-- **C30 (faults).** Every 32-bit code (below protocol 2 but the least one) and every message of characters of XML without CR arrive. -/
theorem C30_fault_partial (P : Spec.Xml.Parser) (hP : Conforms P) (env : Env) (cfg : TreeBuilder.Cfg) (dbl : BitVec 64 → Bytes) (ver : Version)
    (hv : accepts ver = true) (code : Int) (hc : IsI32 code) (hc1 : ver.major < 2 → code ≠ -2 ^ 31) (msg : Bytes) (hm : IsXmlText msg) (hcr : (13 : UInt8) ∉ msg) :
    ∃ ws, XmlMarshaller.run dbl ver (ops (.fault code msg)) = (ws, none) ∧ ∀ d ds, (d :: ds).flatten = ws.flatten → (∀ p ∈ d :: ds, p ≠ []) →
      ∃ u tb, XmlUnMarshaller.run env P (builder cfg) .response TreeBuilder.init (d :: ds) = (u, tb, none) ∧
        getData tb = .error (.fault code (if msg = [] then asc "No data unmarshalled" else msg)) ∧ u.ver = seenVersion ver d.length := by
  have hb : applyEvents (builder cfg) TreeBuilder.init (Message.fault code msg).calls =
      ({ TreeBuilder.init with errNum := code, errMsg := msg, ret := none, first := true }, none) := applyEvents_one rfl
  have hint : XmlInt ver code ∧ readable env.erange code := by
    unfold IsI32 at hc
    refine ⟨⟨by omega, fun h => ?_⟩, by unfold IsI64; omega, fun _ => by omega⟩
    have := hc1 h
    omega
  obtain ⟨ws, h1, h2⟩ := own_run (req := .response) (msg := .fault code msg) hP (.inl rfl) (dbl := dbl) (ver := ver) hv trivial ⟨hint, hm, hcr⟩ hc hb
  refine ⟨ws, h1, fun d ds hds hne => ?_⟩
  obtain ⟨u, h3, h4⟩ := h2 d ds hds hne
  refine ⟨u, _, h3, ?_, h4⟩
  by_cases hn : msg = []
  · subst hn; rfl
  · rw [if_neg hn]
    simp only [getData, TreeBuilder.data, TreeBuilder.init, ne_eq, hn, not_false_eq_true, if_true]
    rfl

/-! ## Witnesses -/

/-- An environment for the examples. -/
def xmlExampleEnv : Env := ⟨fun s => (7, s.length), false⟩

/-- A tree for the examples. -/
def xmlTree : Value := .struct [(asc "a", .array [.int (-5), .array [], .double 7, .stringView (asc "x&<y")]), (asc "b", .secret (.binaryRef [[1], [2, 3]])),
  (asc "c", .dateTime ⟨2020, 1, 2, 3, 4, 5, -1, -1, -3600⟩), (asc "d", .null)]

example : Leaves (xmlNeed ⟨2, 1⟩ xmlExampleEnv xmlExampleDbl) xmlTree := by
  have h : ∀ t : Bytes, (∀ c ∈ t, (c.toNat < 128 ∧ Spec.isXmlChar c.toNat = true) ∧ c ≠ 13) → IsXmlText t ∧ (13 : UInt8) ∉ t :=
    fun t ht => ⟨xmlText_ascii (fun c hc => (ht c hc).1), fun hc => (ht _ hc).2 rfl⟩
  simp only [xmlTree, Leaves, LeavesItems, LeavesMembers, xmlNeed]
  refine ⟨by decide +kernel, h _ (by decide +kernel), ⟨⟨⟨by decide, by decide⟩, ⟨by decide, by decide⟩⟩, trivial, ⟨by unfold PlainText; decide +kernel, rfl⟩, h _ (by decide +kernel), trivial⟩,
    by decide +kernel, h _ (by decide +kernel), trivial, by decide +kernel, h _ (by decide +kernel), by unfold Dated; decide, by decide +kernel, h _ (by decide +kernel), trivial, trivial⟩
example : Held xmlTree := by
  simp only [xmlTree, Held, HeldItems, HeldMembers, IsI64, List.pairwise_cons, List.mem_cons, List.not_mem_nil, List.Pairwise.nil]
  refine ⟨⟨?_, ?_, ?_, ?_⟩, ?_⟩
  · rintro a (rfl | rfl | rfl | h) <;> first | rfl | contradiction
  · rintro a (rfl | rfl | h) <;> first | rfl | contradiction
  · rintro a (rfl | h) <;> first | rfl | contradiction
  · simp
  · decide
example : Small xmlTree := by simp only [xmlTree, Small, SmallItems, Spec.SmallMembers, asc]; decide

/-! ## Where it fails -/

/-- **C30 is violated** by CR: it is written as it is, and every conforming parser turns it to LF. -/
theorem C30_cr_violated (P : Spec.Xml.Parser) (hP : Conforms P) (env : Env) (cfg : TreeBuilder.Cfg) (hok : cfg.strOk [10] = true) (dbl : BitVec 64 → Bytes) (ver : Version)
    (hv : accepts ver = true) :
    ∃ ws, XmlMarshaller.run dbl ver (ops (.response (.string [13]))) = (ws, none) ∧ ∀ d ds, (d :: ds).flatten = ws.flatten → (∀ p ∈ d :: ds, p ≠ []) →
      ∃ u tb, XmlUnMarshaller.run env P (builder cfg) .response TreeBuilder.init (d :: ds) = (u, tb, none) ∧ getData tb = .ok (.string [10]) := by
  have hl : (Message.response (.string [13])).Leaves ⟨XmlInt ver, IsXmlText, fun x => PlainText (dbl x), fun _ => True⟩ :=
    xmlText_ascii (by decide)
  obtain ⟨ws, root, h1, h2, h3⟩ := C29_document_xml dbl ver hv (.response (.string [13])) (by simp [SmallMessage, Small]) hl
  obtain ⟨ws', h1', h2'⟩ := run_message dbl hv (.response (.string [13])) (by simp [SmallMessage, Small])
    (messageLeaves_mono (N' := needs ver) (fun n (h : XmlInt ver n) => h) (fun _ _ => trivial) (fun _ _ => trivial) (fun _ _ => trivial) _ hl)
  rw [h1] at h1'
  cases h1'
  refine ⟨ws, h1, fun d ds hds hne => ?_⟩
  have his : (Message.response (.string [10])).Is (understood env.strtod) root := by
    obtain ⟨c, p, rfl, hc, a, r, val, hp, ha, hs, hr⟩ := h3
    refine ⟨c, p, rfl, hc, a, r, val, hp, ha, ?_, hr⟩
    simp only [Stands] at hs ⊢
    obtain ⟨t, ht, hs⟩ := hs
    exact ⟨t, ht.trans (by decide), hs⟩
  rw [h2'] at hds h2
  have hnoq := noq_message (N := ⟨XmlInt ver, IsXmlText, fun x => PlainText (dbl x), fun _ => True⟩) (dbl := dbl) (fun x h => noq_plain (plain_of h)) _ hl
  have hs := sniff_own (r := ds.flatten) hnoq (by simpa using hds) (hne d (by simp))
  have hb : applyEvents (builder cfg) TreeBuilder.init (Message.response (.string [10])).calls =
      ({ TreeBuilder.init with ret := some (.string [10]), first := false }, none) := by
    simp only [Message.calls, calls]
    rw [applyEvents_cons (b' := TreeBuilder.init) rfl]
    refine applyEvents_one ?_
    simp only [builder, TreeBuilder.build, hok, if_true]
    rfl
  obtain ⟨u, h5, -⟩ := run_document (req := .response) (msg := .response (.string [10])) hP (.inl rfl) h2 his (by simp [Message.IntsAll, IntsAll]) hds hne hs hb
  exact ⟨u, _, h5, rfl⟩

/-- **C30 is violated** by control characters: the marshaller takes them, and what it writes is not XML. -/
theorem C30_control_violated :
    (XmlMarshaller.run xmlExampleDbl ⟨2, 1⟩ (ops (.response (.string [1])))).2 = none ∧
    Spec.Xml.read xmlChar (XmlMarshaller.run xmlExampleDbl ⟨2, 1⟩ (ops (.response (.string [1])))).1.flatten = none := by
  decide +kernel

/-- A document of XML-RPC with the mark of the version late in the first 80 bytes. -/
def lateMark : Bytes := asc "<?xml version=\"1.0\"?>\n<!-- by a sender with a name, so -->\n<!--protocolVersion=\"2.1\"-->\n<methodResponse><params><param><value><nil/></value></param></params></methodResponse>"

/-- **C30 is violated** by a late mark: the first piece of a correct document raises an error which is none of the library's, whatever the
parser. -/
theorem C30_late_mark_violated {β : Type} (P : Spec.Xml.Parser) (env : Env) (B : Builder β) (req : Req) (b : β) :
    (∃ root, IsDocument xmlChar lateMark root ∧ (Message.response .null).Is (understood env.strtod) root) ∧
    (XmlUnMarshaller.run env P B req b [lateMark]).2.2 = some .other := by
  constructor
  · refine ⟨.elem (asc "methodResponse") [.elem (asc "params") [.elem (asc "param") [.elem (asc "value") [.elem (asc "nil") []]]]], ⟨_, by
      show Spec.Xml.read xmlChar lateMark = some [.start (asc "methodResponse"), .start (asc "params"), .start (asc "param"), .start (asc "value"), .start (asc "nil"), .stop (asc "nil"),
        .stop (asc "value"), .stop (asc "param"), .stop (asc "params"), .stop (asc "methodResponse")]
      decide +kernel, rfl⟩, ?_⟩
    refine ⟨_, _, rfl, rfl, _, _, _, rfl, rfl, ?_, rfl⟩
    simp only [Stands]
    exact ⟨_, _, rfl, rfl, rfl⟩
  · have hs : sniff lateMark XmlUnMarshaller.init = (XmlUnMarshaller.init, some Err.other) := by decide +kernel
    unfold XmlUnMarshaller.run XmlUnMarshaller.unMarshallAll XmlUnMarshaller.unMarshall
    rw [hs]

end Frpc
