import Verif.Proofs.Web
import Verif.Props.Remote
import Verif.Props.Json
import Verif.Props.Base64
import Verif.Props.Xml
import Verif.Props.FormTree
import Verif.Props.Serve
/-!
# The whole server: C97, C98, C99
-/
namespace Frpc
open HttpIO HttpOut HttpServer Registry Spec.Registry Spec.XmlRpc Remote Web Spec.Web
open TreeBuilder (getData TB)
open Spec.Xml (IsDocument anyByte)
open Spec.Http (AnsweredIn field)
open Spec (Held Small HeldItems SmallItems plainItemsWith plainWith)
variable {σ : Type}

/-! ## What an answer says -/

/-- The data are a response in the binary protocol, from which every receiver that validates strings in the same way gets the value, in whatever pieces
it reads them; date-times as far as the version carries them. -/
def BinaryValue (strOk : Bytes → Bool) (ver : Version) (v : Value) (data : Bytes) : Prop :=
  ∀ cfg : TreeBuilder.Cfg, cfg.strOk = strOk → ∀ ps : List Bytes, ps.flatten = data →
    ∃ tb, receive cfg .response ps = .ok tb ∧ getData tb = .ok (plainWith (fun d => cfg.date (receivedDate ver d)) v)

/-- The same for a fault. -/
def BinaryFault (strOk : Bytes → Bool) (code : Int) (msg : Bytes) (data : Bytes) : Prop :=
  ∀ cfg : TreeBuilder.Cfg, cfg.strOk = strOk → ∀ ps : List Bytes, ps.flatten = data →
    ∃ tb, receive cfg .response ps = .ok tb ∧ getData tb = .error (.fault code (if msg = [] then asc "No data unmarshalled" else msg))

/-- The data, in the format, say that value. -/
def SaysValue (strOk : Bytes → Bool) (dbl : BitVec 64 → Bytes) (ver : Version) (v : Value) : OutType → Bytes → Prop
  | .binary, data => BinaryValue strOk ver v data
  | .base64, data => ∃ raw, data = Spec.base64 raw ∧ BinaryValue strOk ver v raw
  | .json, data => Spec.Json.parse data = some (Spec.Json.image dbl v)
  | .xml, data => ∃ root, IsDocument anyByte data root ∧ (Message.response v).Is (asWritten dbl) root

/-- The data, in the format, say that fault. -/
def SaysFault (strOk : Bytes → Bool) (dbl : BitVec 64 → Bytes) (code : Int) (msg : Bytes) : OutType → Bytes → Prop
  | .binary, data => BinaryFault strOk code msg data
  | .base64, data => ∃ raw, data = Spec.base64 raw ∧ BinaryFault strOk code msg raw
  | .json, data => Spec.Json.parse data = some (.obj [(asc "failure", .num (decInt code)), (asc "failureMessage", .str msg)])
  | .xml, data => ∃ root, IsDocument anyByte data root ∧ (Message.fault code msg).Is (asWritten dbl) root

/-- The data say the result of a method. -/
def SaysResult (strOk : Bytes → Bool) (dbl : BitVec 64 → Bytes) (ver : Version) (res : Except Exn Value) (out : OutType) (data : Bytes) : Prop :=
  match res with
  | .ok v => SaysValue strOk dbl ver v out data
  | .error e => ∃ c m, WireFault e c m ∧ SaysFault strOk dbl c m out data

/-- The format can say the value. -/
def FitsValue (strOk : Bytes → Bool) (dbl : BitVec 64 → Bytes) (ver : Version) (v : Value) : OutType → Prop
  | .binary | .base64 => Held v ∧ Small v ∧ ∃ ws, sendResponse strOk ver v = (ws, none)
  | .json => Small v ∧ Spec.Json.DoublesAll (fun x => Spec.Json.IsNumber (dbl x)) v
  | .xml => Small v ∧ Spec.XmlRpc.Leaves ⟨XmlInt ver, fun _ => True, fun x => PlainText (dbl x), fun _ => True⟩ v

/-- The format can say the fault. -/
def FitsFault (strOk : Bytes → Bool) (ver : Version) (code : Int) (msg : Bytes) : OutType → Prop
  | .binary | .base64 => IsI32 code ∧ msg.length < 2 ^ 30 ∧ strOk msg = true
  | .json => True
  | .xml => XmlInt ver code

/-- The format can say the result. -/
def FitsResult (strOk : Bytes → Bool) (dbl : BitVec 64 → Bytes) (ver : Version) (res : Except Exn Value) (out : OutType) : Prop :=
  match res with
  | .ok v => FitsValue strOk dbl ver v out
  | .error e => ∃ c m, WireFault e c m ∧ FitsFault strOk ver c m out

namespace Web

theorem mar_b64 {strOk : Bytes → Bool} {dbl : BitVec 64 → Bytes} {ver : Version} {ops : List PackOp} {ws : List Bytes} (h : BinMarshaller.run strOk ver ops = (ws, none)) :
    ∃ ws' k, (Mar.b64 ver .init).packAll strOk dbl ops = (ws', k, none) ∧ (ws' ++ k.ending).flatten = Spec.base64 ws.flatten := by
  refine ⟨(Base64.W.init.writes ws).1, .b64 ver (Base64.W.init.writes ws).2, ?_, (C22_writer ws).1⟩
  simp only [Mar.packAll, h]

theorem mar_json {strOk : Bytes → Bool} {dbl : BitVec 64 → Bytes} {ops : List PackOp} {ws : List Bytes} (h : JsonMarshaller.run dbl ops = (ws, none)) :
    ∃ ws' k, (Mar.json []).packAll strOk dbl ops = (ws', k, none) ∧ ws' ++ k.ending = ws := by
  unfold JsonMarshaller.run at h
  simp only [Mar.packAll]
  generalize JsonMarshaller.packAll dbl [] ops = q at h
  obtain ⟨w, m, e⟩ := q
  cases e with
  | some e => simp at h
  | none =>
    simp only [Prod.mk.injEq, and_true] at h
    exact ⟨w, .json m, rfl, h⟩

theorem mar_xml' {strOk : Bytes → Bool} {dbl : BitVec 64 → Bytes} {ver : Version} {ops : List PackOp} {ws : List Bytes} (h : XmlMarshaller.run dbl ver ops = (ws, none)) :
    ∃ ws' k, (Mar.xml (XmlMarshaller.new ver)).packAll strOk dbl ops = (ws', k, none) ∧ ws' ++ k.ending = ws := by
  unfold XmlMarshaller.run at h
  simp only [Mar.packAll]
  split at h
  · generalize XmlMarshaller.packAll dbl (XmlMarshaller.new ver) ops = q at h
    obtain ⟨w, m, e⟩ := q
    cases e with
    | some e => simp at h
    | none =>
      simp only [Prod.mk.injEq, and_true] at h
      exact ⟨w, .xml m, rfl, h⟩
  · simp at h

/-- What the marshaller of the format makes of a message is what it should say. -/
theorem pack_value {strOk : Bytes → Bool} {dbl : BitVec 64 → Bytes} {ver : Version} (hv : ver.Full) {v : Value} {out : OutType} (h : FitsValue strOk dbl ver v out) :
    ∃ m ws k, Mar.new out ver = some m ∧ m.packAll strOk dbl (.packMethodResponse :: Frpc.feed v) = (ws, k, none) ∧ (out = .binary → FirstWrite (ws ++ k.ending)) ∧
      SaysValue strOk dbl ver v out (ws ++ k.ending).flatten := by
  obtain ⟨a1, a2⟩ := accepts_full hv
  have bin : ∀ ws, Held v → Small v → sendResponse strOk ver v = (ws, none) → BinaryValue strOk ver v ws.flatten := by
    intro ws h1 h2 h3 cfg hc ps hps
    exact C01_response_only_dates_change cfg ver hv.1 hv.2 v h1 h2 ws (by rw [hc]; exact h3) ps hps
  cases out with
  | binary =>
    obtain ⟨h1, h2, ws, h3⟩ := h
    refine ⟨.bin ver, ws, .bin ver, by simp [Mar.new, a1], ?_, fun _ => ?_, ?_⟩
    · have h3' : BinMarshaller.run strOk ver (.packMethodResponse :: Frpc.feed v) = (ws, none) := h3
      simp only [Mar.packAll, h3']
    · simpa [Mar.ending] using (C41_binary_first_write strOk ver ws).2.1 v h3
    · simpa [Mar.ending, SaysValue] using bin ws h1 h2 h3
  | base64 =>
    obtain ⟨h1, h2, ws, h3⟩ := h
    obtain ⟨ws', k, g1, g2⟩ := mar_b64 (dbl := dbl) (ops := .packMethodResponse :: Frpc.feed v) h3
    exact ⟨.b64 ver .init, ws', k, by simp [Mar.new, a1], g1, fun h => absurd h (by simp), ws.flatten, g2, bin ws h1 h2 h3⟩
  | json =>
    obtain ⟨ws, h1, h2⟩ := C26_value dbl v h.1 h.2
    obtain ⟨ws', k, g1, g2⟩ := mar_json (strOk := strOk) h1
    exact ⟨.json [], ws', k, rfl, g1, fun h => absurd h (by simp), by rw [g2]; exact h2⟩
  | xml =>
    obtain ⟨ws, root, h1, h2, h3⟩ := C29_document dbl ver a2 (.response v) h.1 h.2
    obtain ⟨ws', k, g1, g2⟩ := mar_xml' (strOk := strOk) h1
    exact ⟨.xml (XmlMarshaller.new ver), ws', k, by simp [Mar.new, a2], g1, fun h => absurd h (by simp), by rw [g2]; exact ⟨root, h2, h3⟩⟩

theorem pack_fault {strOk : Bytes → Bool} {dbl : BitVec 64 → Bytes} {ver : Version} (hv : ver.Full) {c : Int} {m : Bytes} {out : OutType} (h : FitsFault strOk ver c m out) :
    ∃ k0 ws k, Mar.new out ver = some k0 ∧ k0.packAll strOk dbl [.packFault c m] = (ws, k, none) ∧ (out = .binary → FirstWrite (ws ++ k.ending)) ∧
      SaysFault strOk dbl c m out (ws ++ k.ending).flatten := by
  obtain ⟨a1, a2⟩ := accepts_full hv
  have bin : IsI32 c ∧ m.length < 2 ^ 30 ∧ strOk m = true → ∃ ws, sendFault strOk ver c m = (ws, none) ∧ BinaryFault strOk c m ws.flatten := by
    intro ⟨h1, h2, h3⟩
    obtain ⟨ws, g1, -⟩ := C03_fault_roundtrip ⟨strOk, none⟩ ver hv.1 .response (by decide) c h1 m h2 h3
    refine ⟨ws, g1, fun cfg hc ps hps => ?_⟩
    obtain ⟨ws', g2, g3⟩ := C03_fault_roundtrip cfg ver hv.1 .response (by decide) c h1 m h2 (by rw [hc]; exact h3)
    rw [hc] at g2
    have : ws = ws' := by
      have : (ws, (none : Option Err)) = (ws', none) := by rw [← g2]; exact g1.symm
      exact (Prod.mk.inj this).1
    subst this
    exact (g3 ps hps).2
  cases out with
  | binary =>
    obtain ⟨ws, h3, hb⟩ := bin h
    refine ⟨.bin ver, ws, .bin ver, by simp [Mar.new, a1], ?_, fun _ => ?_, ?_⟩
    · have h3' : BinMarshaller.run strOk ver [.packFault c m] = (ws, none) := h3
      simp only [Mar.packAll, h3']
    · simpa [Mar.ending] using (C41_binary_first_write strOk ver ws).2.2 c m h3
    · simpa [Mar.ending, SaysFault] using hb
  | base64 =>
    obtain ⟨ws, h3, hb⟩ := bin h
    obtain ⟨ws', k, g1, g2⟩ := mar_b64 (dbl := dbl) (ops := [.packFault c m]) h3
    exact ⟨.b64 ver .init, ws', k, by simp [Mar.new, a1], g1, fun h => absurd h (by simp), ws.flatten, g2, hb⟩
  | json =>
    obtain ⟨ws, h1, h2⟩ := C26_fault dbl c m
    obtain ⟨ws', k, g1, g2⟩ := mar_json (strOk := strOk) h1
    exact ⟨.json [], ws', k, rfl, g1, fun h => absurd h (by simp), by rw [g2]; exact h2⟩
  | xml =>
    obtain ⟨ws, root, h1, h2, h3⟩ := C29_document dbl ver a2 (.fault c m) trivial ⟨h, trivial⟩
    obtain ⟨ws', k, g1, g2⟩ := mar_xml' (strOk := strOk) h1
    exact ⟨.xml (XmlMarshaller.new ver), ws', k, by simp [Mar.new, a2], g1, fun h => absurd h (by simp), by rw [g2]; exact ⟨root, h2, h3⟩⟩

/-- The answer to a call. -/
theorem answer_says (S : Conf σ) {out : OutType} {ver : Version} (hv : ver.Full) (r : Reg σ) (st : σ) (name : Bytes) (params : List Value)
    (h : FitsResult S.side.cfg.strOk S.dbl ver (dispatch r st name params).1 out) :
    ∃ m ws cbs, Mar.new out ver = some m ∧ answerCall S.base r m st name params = ⟨ws, none, (dispatch r st name params).2, cbs⟩ ∧ (out = .binary → FirstWrite ws) ∧
      SaysResult S.side.cfg.strOk S.dbl ver (dispatch r st name params).1 out ws.flatten := by
  generalize hd : dispatch r st name params = d at h
  obtain ⟨d, st'⟩ := d
  cases d with
  | ok v =>
    obtain ⟨m, ws, k, h1, h2, h3, h4⟩ := pack_value hv h
    refine ⟨m, ws ++ k.ending, if r.callbacks then [.pre name params, .postOk name params v] else [], h1, ?_, h3, h4⟩
    unfold answerCall
    have h2' : m.packAll S.base.side.cfg.strOk S.base.dbl (.packMethodResponse :: Frpc.feed v) = (ws, k, none) := h2
    rw [(processCall_eq r st name _).1 v st' hd]
    simp only [h2']
  | error e =>
    obtain ⟨c, msg, hw, hf⟩ := h
    obtain ⟨m, ws, k, h1, h2, h3, h4⟩ := pack_fault (dbl := S.dbl) hv hf
    obtain ⟨m', b1, b2⟩ := answerFault_wire hw
    have h2' : m.packAll S.base.side.cfg.strOk S.base.dbl [.packFault c msg] = (ws, k, none) := h2
    refine ⟨m, ws ++ k.ending, (if r.callbacks then [.pre name params] else []) ++ (if r.callbacks then [.postFault name params c m'] else []), h1, ?_, h3, c, msg, hw, h4⟩
    · unfold answerCall
      rw [(processCall_eq r st name _).2 e st' hd]
      simp only [Remote.answerExn, b1, b2, h2', List.nil_append]

/-- What the client must have sent: the unmarshaller of the kind makes of it the call, in whatever pieces it comes. -/
def Understood (S : Conf σ) (path : Bytes) (k : HttpServer.Kind) (data name : Bytes) (params : List Value) (V : Version → Prop) : Prop :=
  Remote.Decodes S.side .call path k data (fun tb v => tb.methodName = name ∧ getData tb = .ok (.array params) ∧ V v)

/-- The application's header fields are ones that can be sent. -/
def HeadersOk (S : Conf σ) : Prop := ∀ st, (∀ f ∈ S.custom st, FieldOk f) ∧ ∀ f ∈ S.custom st, f.1.map toLower ≠ asc "content-length"

theorem getData_ok {tb : TB} {v : Value} (h : getData tb = .ok v) : TreeBuilder.data tb = some v := by
  unfold getData at h
  split at h
  · next heq => rw [heq]; cases h; rfl
  · cases h

/-- One request of any client. -/
theorem turn_post (S : Conf σ) (hS : HeadersOk S) (r : Reg σ) (a : At σ) (q : Post) (hq : q.Ok) {k : HttpServer.Kind} (hk : q.Kind k) {name : Bytes} {params : List Value}
    {V : Version → Prop} (hu : Understood S q.path k q.data name params V)
    (hfit : ∀ ver, V ver → ver.Full ∧ ∀ out, AnsweredIn S.http.useBinary (field (asc "Accept") q.fields) out →
      FitsResult S.side.cfg.strOk S.dbl ver (dispatch r a.live.st name params).1 out ∧
      ∀ m, Mar.new out ver = some m → (answerCall S.base r m a.live.st name params).writes.flatten.length < 2 ^ 32)
    (rest : Bytes) (hd : a.conn.data = q.text ++ rest) (hc : Calm a.conn.sched) (hw : CalmOut false a.wire.sched) :
    ∃ a' bytes out ver data, Web.turn S r a = (a', .again true) ∧ a'.conn.data = rest ∧ Calm a'.conn.sched ∧ CalmOut false a'.wire.sched ∧
      a'.wire.sent = a.wire.sent ++ bytes ∧ a'.live.st = (dispatch r a.live.st name params).2 ∧ a'.live.hdr = .null ∧ (a'.live.srv.close = false ↔ q.Stays) ∧
      V ver ∧ AnsweredIn S.http.useBinary (field (asc "Accept") q.fields) out ∧ IsReply bytes out (S.custom (dispatch r a.live.st name params).2) S.http.keepAlive q.http11 data ∧
      SaysResult S.side.cfg.strOk S.dbl ver (dispatch r a.live.st name params).1 out data := by
  obtain ⟨qs, srv', s', h1, h2, h3, h4, h5, h6, h7, h8, h9⟩ := C73_any_request S.base.env a.live.srv q.path hq.path q.http11 q.lines hq.lines q.fields hq.fields q.data q.body rest
    hq.framed hq.length a.conn hc (by rw [hd]; unfold Post.text; rw [List.append_assoc]) k hk hu.feed hu.finish
  obtain ⟨b1, b2, b3⟩ := hu.built qs h3 h2
  obtain ⟨hfull, hout⟩ := hfit _ b3
  obtain ⟨hf, hl⟩ := hout srv'.outType h7
  obtain ⟨m, ws, cbs, m1, m2, m3, m4⟩ := answer_says S hfull r a.live.st name params hf
  have hlen := hl m m1
  rw [m2] at hlen
  have hch : srv'.chunks = (q.http11 && decide (srv'.outType = .binary)) := by
    rw [Bool.eq_iff_iff, h8]; simp
  obtain ⟨w', bytes, g1, g2, g3, g4⟩ := reply_sent ⟨srv'.outType, S.http.useBinary, S.http.keepAlive, srv'.chunks, S.custom (dispatch r a.live.st name params).2⟩
    ⟨(hS _).1, fun _ => (hS _).2⟩ ws hlen (fun h => m3 (h8.1 h).2) a.wire hw q.http11 hch
  refine ⟨⟨⟨(dispatch r a.live.st name params).2, srv', .null⟩, s', w'.wire⟩, bytes, srv'.outType, _, ws.flatten, ?_, h4, h5, g3, g2, rfl, rfl, h6, b3, h7, g4, m4⟩
  unfold Web.turn
  rw [h1]
  simp only
  unfold callTurn
  simp only [getData_ok b2, m1, b1, m2]
  unfold respond
  have : Web.conf S ⟨(dispatch r a.live.st name params).2, srv', .here⟩ =
    serverConf ⟨srv'.outType, S.http.useBinary, S.http.keepAlive, srv'.chunks, S.custom (dispatch r a.live.st name params).2⟩ := rfl
  rw [this]
  simp only [g1]

/-! ### What clients send -/

theorem base64_prefix {β : Type} (B : BinUnMarshaller.Builder β) (req : BinUnMarshaller.Req) (l' : List Bytes) :
    ∀ (l : List Bytes) (a : Bytes) (o : BinUnMarshaller.Obj) (b : β), (Base64.unMarshallAll B req a o b (l ++ l')).2.2.2 = none → (Base64.unMarshallAll B req a o b l).2.2.2 = none
  | [], _, _, _, _ => rfl
  | d :: l, a, o, b, h => by
    simp only [List.cons_append, Base64.unMarshallAll] at h ⊢
    split
    · next h0 => rw [if_pos h0] at h; exact base64_prefix B req l' l _ _ _ h
    · next h0 =>
      rw [if_neg h0] at h
      generalize BinUnMarshaller.unMarshall B req o b (Base64.process a d).1 = q at h ⊢
      obtain ⟨o1, b1, e⟩ := q
      cases e with
      | none => exact base64_prefix B req l' l _ _ _ h
      | some e => simp at h

theorem understood_binary (S : Conf σ) (path : Bytes) {ver : Version} (hv : ver.Full) {name : Bytes} {args : List Value} (h1 : HeldItems args) (h2 : SmallItems args) {ws : List Bytes}
    (h3 : sendCall S.side.cfg.strOk ver name args = (ws, none)) :
    Understood S path .binary ws.flatten name (plainItemsWith (fun d => S.side.cfg.date (receivedDate ver d)) args) (· = ver) := by
  have := decodes_binary S.side .call path ws (fun tb => tb.methodName = name ∧ getData tb = .ok (.array (plainItemsWith (fun d => S.side.cfg.date (receivedDate ver d)) args)))
    (fun ps hps => C02_call_only_dates_change S.side.cfg ver hv.1 hv.2 name args h1 h2 ws h3 ps hps)
  exact this.mono (fun tb v hq => ⟨hq.1.1, hq.1.2, by rw [hq.2, sendCall_magic h3]⟩)

theorem understood_base64 (S : Conf σ) (path : Bytes) {ver : Version} (hv : ver.Full) {name : Bytes} {args : List Value} (h1 : HeldItems args) (h2 : SmallItems args) {ws : List Bytes}
    (h3 : sendCall S.side.cfg.strOk ver name args = (ws, none)) {text : Bytes} (ht : squeeze text = Spec.base64 ws.flatten) :
    Understood S path .base64 text name (plainItemsWith (fun d => S.side.cfg.date (receivedDate ver d)) args) (· = ver) := by
  have h3' : BinMarshaller.run S.side.cfg.strOk ver (.packMethodCall name :: Frpc.feedItems args) = (ws, none) := h3
  obtain ⟨tb, t1, t2, t3⟩ := C02_call_only_dates_change S.side.cfg ver hv.1 hv.2 name args h1 h2 ws h3 [ws.flatten] (by simp)
  obtain ⟨o, t4⟩ := Registry.receive_ok t1
  have hfin : BinUnMarshaller.finish o = .ok () := by
    unfold receive at t1
    rw [t4] at t1
    simp only at t1
    revert t1
    cases BinUnMarshaller.finish o with
    | ok u => intro; rfl
    | error e => intro h; cases h
  have key : ∀ l : List Bytes, l.flatten = text → (base64Read S.side .call l).2.2 = (tb, none) ∧ BinUnMarshaller.finish (base64Read S.side .call l).2.1 = .ok () := by
    intro l hl
    have := C25_transport (TreeBuilder.builder S.side.cfg) .call TreeBuilder.init S.side.cfg.strOk ver (.packMethodCall name :: Frpc.feedItems args) l [ws.flatten]
      (by rw [hl, ht]; unfold Base64.marshal; rw [h3']; exact (C22_writer ws).1.symm) (by rw [h3']; simp)
    simp only [t4] at this
    obtain ⟨g1, g2, g3⟩ := this
    refine ⟨Prod.ext g1 g2, ?_⟩
    rw [show (base64Read S.side .call l).2.1 = (Base64.unMarshallAll (TreeBuilder.builder S.side.cfg) .call [] BinUnMarshaller.init TreeBuilder.init l).2.1 from rfl, g3 g2, hfin]
  refine ⟨fun l _ hl => ?_, fun l _ hl => ?_, fun l _ hl => ⟨?_, ?_, ?_⟩⟩
  · obtain ⟨t, ht'⟩ := hl
    have h4 := (key (l ++ [t]) (by simp [ht'])).1
    exact base64_prefix _ _ [t] l _ _ _ (by
      have : (base64Read S.side .call (l ++ [t])).2.2.2 = none := by rw [h4]
      exact this)
  · show (match BinUnMarshaller.finish (base64Read S.side .call l).2.1 with | .ok _ => none | .error e => some e) = none
    rw [(key l hl).2]
  · show (base64Read S.side .call l).2.2.1.methodName = name
    rw [(key l hl).1]; exact t2
  · show getData (base64Read S.side .call l).2.2.1 = _
    rw [(key l hl).1]; exact t3
  · show versionSeen (Base64.processAll [] l).1 = ver
    rw [C23_decode ws.flatten l (by rw [hl, ht]), sendCall_magic h3]

theorem understood_xml (S : Conf σ) (hP : Spec.Xml.Conforms S.side.parser) (path : Bytes) {ver : Version} (hv : ver.Full) {name : Bytes} {args : List Value} (h1 : HeldItems args)
    (h2 : SmallItems args) (dbl : BitVec 64 → Bytes) (h3 : (Message.call name args).Leaves (xmlNeed ver S.side.xml dbl))
    (h4 : Spec.StringsAllItems (fun s => S.side.cfg.strOk s = true) args) {ws : List Bytes} (h5 : XmlMarshaller.run dbl ver (XmlMarshaller.ops (.call name args)) = (ws, none)) :
    Understood S path .xml ws.flatten name (plainItemsWith (fun d => S.side.cfg.date (undated d)) args) (fun v => v = ver ∨ v = ⟨2, 1⟩) := by
  obtain ⟨ws', g1, g2⟩ := C30_call_partial S.side.parser hP S.side.xml S.side.cfg dbl ver (accepts_full hv).2 name args h1 h2 h3 h4
  rw [h5] at g1
  cases g1
  refine decodes_xml S.side .call path ws.flatten (firstWrite_ne (xml_firstWrite _ _ _ _ h5)) _ (fun d ds hds hne => ?_)
  obtain ⟨u, tb, g1, g3, g4, g5⟩ := g2 d ds hds hne
  exact ⟨u, tb, g1, g3, g4, by rw [g5]; exact seen_or ver _⟩

/-- The document says nothing of a protocol version. -/
def Unversioned (doc : Bytes) : Prop := ¬ asc "protocolVersion=\"" <:+: doc.take 80

theorem sniff_unversioned {doc d r : Bytes} (h : Unversioned doc) (hd : d ++ r = doc) (hne : d ≠ []) :
    XmlUnMarshaller.sniff d XmlUnMarshaller.init = ({ XmlUnMarshaller.init with ver := ⟨2, 1⟩, check := false }, none) := by
  unfold XmlUnMarshaller.sniff
  rw [if_pos ⟨hne, rfl⟩]
  simp only
  cases hf : XmlUnMarshaller.findSub (asc "protocolVersion=\"") (d.take 80) with
  | none => rfl
  | some i =>
    obtain ⟨a, b, h1, -⟩ := XmlUnMarshaller.findSub_some hf
    refine absurd ?_ h
    have : d.take 80 <+: doc.take 80 := by
      rw [← hd, List.take_append]
      exact List.prefix_append _ _
    obtain ⟨t, ht⟩ := this
    exact ⟨a, b ++ t, by rw [← ht, h1]; simp⟩

theorem understood_document (S : Conf σ) (hP : Spec.Xml.Conforms S.side.parser) (path : Bytes) {name : Bytes} {args : List Value} (h1 : HeldItems args) {doc : Bytes} {root : Spec.Xml.Node}
    (h2 : IsDocument Spec.Xml.xmlChar doc root) (h3 : (Message.call name args).Is (XmlUnMarshaller.understood S.side.xml.strtod) root)
    (h4 : (Message.call name args).IntsAll (XmlUnMarshaller.readable S.side.xml.erange)) (h5 : LeavesItems ⟨fun _ => True, fun _ => True, fun _ => True, fun _ => True⟩ args)
    (h6 : Spec.StringsAllItems (fun s => S.side.cfg.strOk s = true) args) (h7 : Unversioned doc) :
    Understood S path .xml doc name (plainItemsWith (fun d => S.side.cfg.date (undated d)) args) (· = ⟨2, 1⟩) := by
  have hne : doc ≠ [] := by
    rintro rfl
    obtain ⟨evs, g, -⟩ := h2
    rw [XmlUnMarshaller.read_nil] at g
    cases g
  refine decodes_xml S.side .call path doc hne _ (fun d ds hds hne => ?_)
  obtain ⟨m, hm⟩ := XmlBuild.build_items (cfg := S.side.cfg) args (XmlMarshaller.ok_of_items args h5 h6)
    { TreeBuilder.init with methodName := name, first := true, frames := [(.root, .arr [])] } .root [] [] rfl
  have hb : BinUnMarshaller.applyEvents (TreeBuilder.builder S.side.cfg) TreeBuilder.init (Message.call name args).calls =
      ({ TreeBuilder.init with methodName := name, first := true, memberName := m, frames := [(.root, .arr (XmlBuild.madeItems S.side.cfg args))] }, none) := by
    simp only [Message.calls]
    rw [applyEvents_cons (b' := { TreeBuilder.init with methodName := name, first := true, frames := [(.root, .arr [])] }) rfl, hm]
    rfl
  obtain ⟨u, g1, g2⟩ := XmlUnMarshaller.run_document (req := .call) (msg := .call name args) hP (.inl rfl) h2 h3 h4 hds hne (sniff_unversioned (r := ds.flatten) h7 (by simpa using hds) (hne d (by simp))) hb
  refine ⟨u, _, g1, rfl, ?_, g2⟩
  rw [← XmlBuild.made_plainItems args h1]
  rfl

theorem understood_form (S : Conf σ) (path : Bytes) {dbl : Bytes → BitVec 64 → Prop} (henv : UrlForm.EnvOk S.side.url dbl) {ps : List Spec.Piece} (h1 : ∀ p ∈ ps, p.Ok dbl)
    (h2 : ∀ p ∈ ps, Spec.FormOk S.side.cfg p) (h3 : ps.length < 2 ^ 32) {ms : List (Bytes × Value)} (h4 : Spec.IsForm S.side.cfg ps ms) :
    Understood S path .urlEncoded (Spec.body ps) (UrlForm.methodOf path) [.struct ms] (· = ⟨2, 1⟩) := by
  have key : ∀ l : List Bytes, l.flatten = Spec.body ps → ∃ tb, urlDone S.side path l = (tb, none) ∧ tb.methodName = UrlForm.methodOf path ∧ getData tb = .ok (.array [.struct ms]) := by
    intro l hl
    obtain ⟨tb, evs, ms', g1, g2, g3, -, g4, g5⟩ := C34_tree_partial S.side.url dbl henv S.side.cfg path l ps h1 h2 h3 hl
    rw [← g4 ms h4] at g5
    refine ⟨tb, ?_, g3, g5⟩
    unfold urlDone
    simp only [g1, g2]
  refine ⟨fun l _ _ => rfl, fun l _ hl => ?_, fun l _ hl => ?_⟩
  · obtain ⟨tb, g1, -⟩ := key l hl
    show (urlDone S.side path l).2 = none
    rw [g1]
  · obtain ⟨tb, g1, g2, g3⟩ := key l hl
    show (urlDone S.side path l).1.methodName = _ ∧ getData (urlDone S.side path l).1 = _ ∧ _
    rw [g1]
    exact ⟨g2, g3, rfl⟩

theorem full21 : Version.Full ⟨2, 1⟩ := ⟨by unfold Version.Known; decide, by decide⟩

end Web

/-- What is posted to the path asks, in that format, for that call at that version. The client may be this library, at any version with all types, in the binary protocol, in base64 with
any white space, or in XML; any XML-RPC client whose document, with whatever layout, says nothing of a version; any form. The arguments are those that the receiver makes of the sender's. -/
inductive Carries (S : Conf σ) (path : Bytes) : HttpServer.Kind → Bytes → Bytes → List Value → Version → Prop
  | binary {ver name args ws} : ver.Full → HeldItems args → SmallItems args → sendCall S.side.cfg.strOk ver name args = (ws, none) →
      Carries S path .binary ws.flatten name (plainItemsWith (fun d => S.side.cfg.date (receivedDate ver d)) args) ver
  | base64 {ver name args ws text} : ver.Full → HeldItems args → SmallItems args → sendCall S.side.cfg.strOk ver name args = (ws, none) →
      squeeze text = Spec.base64 ws.flatten → Carries S path .base64 text name (plainItemsWith (fun d => S.side.cfg.date (receivedDate ver d)) args) ver
  | xml {ver name args ws} (dbl : BitVec 64 → Bytes) : ver.Full → HeldItems args → SmallItems args → (Message.call name args).Leaves (xmlNeed ver S.side.xml dbl) →
      Spec.StringsAllItems (fun s => S.side.cfg.strOk s = true) args → XmlMarshaller.run dbl ver (XmlMarshaller.ops (.call name args)) = (ws, none) →
      Carries S path .xml ws.flatten name (plainItemsWith (fun d => S.side.cfg.date (undated d)) args) ver
  | document {name args doc root} : HeldItems args → IsDocument Spec.Xml.xmlChar doc root → (Message.call name args).Is (XmlUnMarshaller.understood S.side.xml.strtod) root →
      (Message.call name args).IntsAll (XmlUnMarshaller.readable S.side.xml.erange) → LeavesItems ⟨fun _ => True, fun _ => True, fun _ => True, fun _ => True⟩ args →
      Spec.StringsAllItems (fun s => S.side.cfg.strOk s = true) args → Unversioned doc →
      Carries S path .xml doc name (plainItemsWith (fun d => S.side.cfg.date (undated d)) args) ⟨2, 1⟩
  | form {dbl ps ms} : UrlForm.EnvOk S.side.url dbl → (∀ p ∈ ps, p.Ok dbl) → (∀ p ∈ ps, Spec.FormOk S.side.cfg p) → ps.length < 2 ^ 32 → Spec.IsForm S.side.cfg ps ms →
      Carries S path .urlEncoded (Spec.body ps) (UrlForm.methodOf path) [.struct ms] ⟨2, 1⟩

namespace Web

theorem carries_understood {S : Conf σ} (hP : Spec.Xml.Conforms S.side.parser) {path : Bytes} {k : HttpServer.Kind} {data name : Bytes} {params : List Value} {ver : Version}
    (h : Carries S path k data name params ver) : Understood S path k data name params (fun v => v = ver ∨ v = ⟨2, 1⟩) ∧ ver.Full := by
  cases h with
  | binary h1 h2 h3 h4 => exact ⟨(understood_binary S path h1 h2 h3 h4).mono (fun _ _ h => ⟨h.1, h.2.1, .inl h.2.2⟩), h1⟩
  | base64 h1 h2 h3 h4 h5 => exact ⟨(understood_base64 S path h1 h2 h3 h4 h5).mono (fun _ _ h => ⟨h.1, h.2.1, .inl h.2.2⟩), h1⟩
  | xml dbl h1 h2 h3 h4 h5 h6 => exact ⟨understood_xml S hP path h1 h2 h3 dbl h4 h5 h6, h1⟩
  | document h1 h2 h3 h4 h5 h6 h7 => exact ⟨(understood_document S hP path h1 h2 h3 h4 h5 h6 h7).mono (fun _ _ h => ⟨h.1, h.2.1, .inl h.2.2⟩), full21⟩
  | form h1 h2 h3 h4 h5 => exact ⟨(understood_form S path h1 h2 h3 h4 h5).mono (fun _ _ h => ⟨h.1, h.2.1, .inl h.2.2⟩), full21⟩

end Web

/-- A request of a client: what it sends, and the call it means. -/
structure Ask where
  post : Post
  kind : HttpServer.Kind
  name : Bytes
  params : List Value
  ver : Version

/-- It is well formed, and means that call. -/
structure Ask.Ok (S : Conf σ) (a : Ask) : Prop where
  post : a.post.Ok
  kind : a.post.Kind a.kind
  call : Carries S a.post.path a.kind a.post.data a.name a.params a.ver

/-- What the call gives can be said in the format that the client asks for, in less than 4 GiB. -/
def CanAnswer (S : Conf σ) (r : Reg σ) (st : σ) (a : Ask) : Prop :=
  ∀ ver, ver = a.ver ∨ ver = ⟨2, 1⟩ → ∀ out, AnsweredIn S.http.useBinary (field (asc "Accept") a.post.fields) out →
    FitsResult S.side.cfg.strOk S.dbl ver (dispatch r st a.name a.params).1 out ∧
    ∀ m, Mar.new out ver = some m → (answerCall S.base r m st a.name a.params).writes.flatten.length < 2 ^ 32

/-- So for each of the calls, made one after another from the state. -/
def CanAnswerAll (S : Conf σ) (r : Reg σ) : σ → List Ask → Prop
  | _, [] => True
  | st, a :: as => CanAnswer S r st a ∧ CanAnswerAll S r (dispatch r st a.name a.params).2 as

/-- The bytes are the answer to the request in that state: one response, in the format that the client has asked for, with the header fields that the application
has set, and it says what a local caller gets. -/
def IsAnswer (S : Conf σ) (r : Reg σ) (st : σ) (a : Ask) (bytes : Bytes) : Prop :=
  ∃ out ver data, AnsweredIn S.http.useBinary (field (asc "Accept") a.post.fields) out ∧ (ver = a.ver ∨ ver = ⟨2, 1⟩) ∧
    IsReply bytes out (S.custom (dispatch r st a.name a.params).2) S.http.keepAlive a.post.http11 data ∧
    SaysResult S.side.cfg.strOk S.dbl ver (dispatch r st a.name a.params).1 out data

/-- The connection ends after the request, which is the `n`-th: the client or the server does not keep connections, or it was the last one allowed. -/
def Ends (S : Conf σ) (n : Nat) (a : Ask) : Prop := ¬ a.post.Stays ∨ S.http.keepAlive = false ∨ S.http.maxKeepalive ≤ n

/-- What is sent on a connection on which `n` requests have been served, for the requests that come, and the state that the methods are left in: the answers in order, up to the request that
ends the connection. -/
inductive Conversation (S : Conf σ) (r : Reg σ) : Nat → σ → List Ask → Bytes → σ → Prop
  | done {n st} : Conversation S r n st [] [] st
  | last {n st a as bytes} : IsAnswer S r st a bytes → Ends S (n + 1) a → Conversation S r n st (a :: as) bytes (dispatch r st a.name a.params).2
  | more {n st a as bytes rest st'} : IsAnswer S r st a bytes → ¬ Ends S (n + 1) a → Conversation S r (n + 1) (dispatch r st a.name a.params).2 as rest st' →
      Conversation S r n st (a :: as) (bytes ++ rest) st'

namespace Web

theorem turn_end (S : Conf σ) (r : Reg σ) (a : At σ) (hc : Calm a.conn.sched) (hd : a.conn.data = []) :
    ∃ a', Web.turn S r a = (a', .stop .done) ∧ a'.wire = a.wire ∧ a'.live.st = a.live.st ∧ a'.live.hdr = a.live.hdr := by
  have : ∃ srv' s', readRequest S.base.env a.live.srv a.conn = (.error .noRequest, srv', s') := by
    unfold readRequest
    obtain ⟨l, ⟨d, sc, o⟩, w⟩ := a
    simp only at hd hc
    subst hd
    have hp : ∃ a s', poll ⟨[], sc, []⟩ = (.ready a, s') ∧ s'.data = [] := by
      unfold poll
      cases sc with
      | nil => exact ⟨_, _, rfl, rfl⟩
      | cons e sc =>
        obtain ⟨k, rfl⟩ := hc e (by simp)
        exact ⟨_, _, rfl, rfl⟩
    obtain ⟨a, s', h1, h2⟩ := hp
    have : readLineOpt (srvCfg (fun _ => none)) true true ⟨[], sc, []⟩ = (.ok [], s') := by
      unfold readLineOpt readLineLoop
      simp [h1, h2]
    simp only [this]
    exact ⟨_, _, rfl⟩
  obtain ⟨srv', s', h⟩ := this
  unfold Web.turn
  rw [h]
  exact ⟨_, rfl, rfl, rfl, rfl⟩

theorem stop_ends (S : Conf σ) (srv : Srv) (n : Nat) (a : Ask) (h : srv.close = false ↔ a.post.Stays) : HttpServer.stop S.http srv n = true ↔ Ends S n a := by
  unfold HttpServer.stop Ends
  simp only [Bool.or_eq_true, decide_eq_true_eq, Bool.not_eq_true', ← h, Bool.not_eq_false, ge_iff_le, or_assoc]

theorem text_pos (q : Post) : 0 < q.text.length := by
  unfold Post.text Spec.Http.requestText
  simp only [List.length_append]
  have : 0 < (asc "POST").length := by decide +kernel
  omega

theorem serveLoop_asks (S : Conf σ) (hS : HeadersOk S) (hP : Spec.Xml.Conforms S.side.parser) (r : Reg σ) : ∀ (as : List Ask) (f n : Nat) (a : At σ), a.conn.data.length < f →
    (∀ x ∈ as, x.Ok S) → CanAnswerAll S r a.live.st as → a.conn.data = (as.map (·.post.text)).flatten → Calm a.conn.sched → CalmOut false a.wire.sched →
    ∃ a' bytes, Web.serveLoop S r f n a = (a', .done) ∧ a'.wire.sent = a.wire.sent ++ bytes ∧ Conversation S r n a.live.st as bytes a'.live.st ∧
      (a'.live.hdr = .null ∨ as = [] ∧ a'.live.hdr = a.live.hdr)
  | _, 0, _, _, h, _, _, _, _, _ => by omega
  | [], f + 1, n, a, hf, _, _, hd, hc, hw => by
    obtain ⟨a', h1, h2, h3, h4⟩ := turn_end S r a hc (by simpa using hd)
    refine ⟨a', [], ?_, by rw [h2]; simp, by rw [h3]; exact .done, .inr ⟨rfl, h4⟩⟩
    rw [Web.serveLoop, h1]
  | x :: as, f + 1, n, a, hf, hok, han, hd, hc, hw => by
    obtain ⟨hx1, hx2, hx3⟩ := hok x (by simp)
    obtain ⟨hu, hfull⟩ := carries_understood hP hx3
    have hpos := text_pos x.post
    have hd' : a.conn.data = x.post.text ++ (as.map (·.post.text)).flatten := by rw [hd]; simp
    have hlen := congrArg List.length hd'
    rw [List.length_append] at hlen
    obtain ⟨a1, bytes, out, ver, data, h1, h2, h3, h4, h5, h6, h7, h8, h9, h10, h11, h12⟩ := turn_post S hS r a x.post hx1 hx2 hu
      (fun ver hver => ⟨by rcases hver with rfl | rfl <;> first | exact hfull | exact full21, han.1 ver hver⟩) _ hd' hc hw
    have hans : IsAnswer S r a.live.st x bytes := ⟨out, ver, data, h10, h9, h11, h12⟩
    by_cases he : Ends S (n + 1) x
    · refine ⟨a1, bytes, ?_, h5, by rw [h6]; exact .last hans he, .inl h7⟩
      rw [Web.serveLoop, h1]
      simp only [if_true, (stop_ends S a1.live.srv (n + 1) x h8).2 he]
    · obtain ⟨a2, rest, g1, g2, g3, g4⟩ := serveLoop_asks S hS hP r as f (n + 1) a1 (by rw [h2]; omega) (fun y hy => hok y (by simp [hy])) (by rw [h6]; exact han.2) h2 h3 h4
      refine ⟨a2, bytes ++ rest, ?_, by rw [g2, h5, List.append_assoc], ?_, ?_⟩
      · rw [Web.serveLoop, h1]
        have hno : HttpServer.stop S.http a1.live.srv (n + 1) = false := by
          rw [← Bool.not_eq_true, stop_ends S a1.live.srv (n + 1) x h8]; exact he
        simp only [if_true, hno, Bool.false_eq_true, if_false, g1]
      · rw [h6] at g3
        exact .more hans he g3
      · rcases g4 with g4 | ⟨-, g4⟩
        · exact .inl g4
        · exact .inl (by rw [g4, h7])

end Web

/-- **C97.** Requests of any clients, of all kinds, one after another on one connection, which the network delivers in whatever pieces: the server answers each of them, in order, with one
response in the format that the client has asked for, which says what a local caller of the method gets, with the header fields set by the application; no request is answered
that comes after the one that ends the connection, and what is sent besides is nothing. The methods have been run in that order, each once, on the state that the last left. -/
theorem C97_conversation_partial (S : Conf σ) (hS : HeadersOk S) (hP : Spec.Xml.Conforms S.side.parser) (r : Reg σ) (x : Live σ) (as : List Ask) (hok : ∀ a ∈ as, a.Ok S)
    (han : CanAnswerAll S r x.st as) (s : Conn) (hd : s.data = (as.map (·.post.text)).flatten) (hc : Calm s.sched) (down : List SEv) (hw : CalmOut false down) :
    ∃ a, Web.serve S r x s ⟨down, []⟩ = (a, .done) ∧ Conversation S r 0 x.st as a.wire.sent a.live.st := by
  obtain ⟨a, bytes, h1, h2, h3, -⟩ := serveLoop_asks S hS hP r as (s.data.length + 2) 0 ⟨{ x with srv := { x.srv with close := false, head := false } }, s, ⟨down, []⟩⟩ (by simp only; omega)
    hok han hd hc hw
  unfold Web.serve
  rw [h1]
  refine ⟨_, rfl, ?_⟩
  simp only [List.nil_append] at h2
  simp only [h2]
  exact h3

/-- The conversations on connections one after another. -/
inductive Conversations (S : Conf σ) (r : Reg σ) : σ → List (List Ask) → List (Bytes × Web.End) → σ → Prop
  | nil {st} : Conversations S r st [] [] st
  | cons {st as bytes st1 ass l st2} : Conversation S r 0 st as bytes st1 → Conversations S r st1 ass l st2 → Conversations S r st (as :: ass) ((bytes, .done) :: l) st2

/-- **C97 (connections).** Connections one after another on the same server object: on each the conversation of its requests, from the state that the one before has left. -/
theorem C97_connections_partial (S : Conf σ) (hS : HeadersOk S) (hP : Spec.Xml.Conforms S.side.parser) (r : Reg σ) : ∀ (cs : List (List Ask × Conn × List SEv)) (x : Live σ),
    (∀ c ∈ cs, (∀ a ∈ c.1, a.Ok S) ∧ (∀ st, CanAnswerAll S r st c.1) ∧ c.2.1.data = (c.1.map (·.post.text)).flatten ∧ Calm c.2.1.sched ∧ CalmOut false c.2.2) →
    Conversations S r x.st (cs.map (·.1)) (serveAll S r x (cs.map (·.2))).1 (serveAll S r x (cs.map (·.2))).2.st
  | [], x, _ => .nil
  | (as, s, down) :: cs, x, h => by
    obtain ⟨h1, h2, h3, h4, h5⟩ := h (as, s, down) (by simp)
    obtain ⟨a, g1, g2⟩ := C97_conversation_partial S hS hP r x as h1 (h2 x.st) s h3 h4 down h5
    have ih := C97_connections_partial S hS hP r cs a.live (fun c hc => h c (by simp [hc]))
    simp only [List.map_cons, serveAll, g1]
    rw [if_neg (by simp)]
    exact .cons g2 ih

/-! ## Requests that are refused -/

namespace Web

theorem refused_type (env : HttpServer.Env) (srv : Srv) (q : Post) (hq : q.Ok) (hk : ∀ k, ¬ q.Kind k) (rest : Bytes) (s : Conn) (hc : Calm s.sched) (hd : s.data = q.text ++ rest) :
    ∃ srv' s', readRequest env srv s = (.error .stream, srv', s') ∧ s'.data = q.body ++ rest ∧ Calm s'.sched ∧ AnsweredIn env.useBinary (field (asc "Accept") q.fields) srv'.outType ∧
      (srv'.chunks = true ↔ srv'.outType = .binary) ∧ srv'.close = false := by
  obtain ⟨sc, hc1, hr⟩ := readRequest_head_read env srv (method := asc "POST") (by unfold Spec.Http.IsWord; decide +kernel) hq.path q.http11 q.lines hq.lines q.fields hq.fields (q.body ++ rest) s hc
    (by rw [hd]; unfold Post.text; rw [List.append_assoc])
  obtain ⟨o1, o2⟩ := chooseOut_in env.useBinary (field (asc "Accept") q.fields)
  rw [hr]
  unfold readBody
  rw [if_neg (by simp), getOr_stored, (chooseKind_none _).2 hk]
  simp only [get_stored]
  exact ⟨_, _, rfl, rfl, hc1, o1, o2, rfl⟩

theorem refused_body (env : HttpServer.Env) (srv : Srv) (q : Post) (hq : q.Ok) {k : HttpServer.Kind} (hk : q.Kind k)
    (hfeed : ∀ l : List Bytes, (∀ p ∈ l, p ≠ []) → l.flatten <+: q.data → env.feed k q.path l = none)
    (hfin : ∀ l : List Bytes, (∀ p ∈ l, p ≠ []) → l.flatten = q.data → env.finish k q.path l = some .stream)
    (rest : Bytes) (s : Conn) (hc : Calm s.sched) (hd : s.data = q.text ++ rest) :
    ∃ srv' s', readRequest env srv s = (.error .stream, srv', s') ∧ s'.data = rest ∧ Calm s'.sched ∧ AnsweredIn env.useBinary (field (asc "Accept") q.fields) srv'.outType ∧
      (srv'.chunks = true ↔ srv'.outType = .binary) ∧ srv'.close = false := by
  obtain ⟨sc, hc1, hr⟩ := readRequest_head_read env srv (method := asc "POST") (by unfold Spec.Http.IsWord; decide +kernel) hq.path q.http11 q.lines hq.lines q.fields hq.fields (q.body ++ rest) s hc
    (by rw [hd]; unfold Post.text; rw [List.append_assoc])
  obtain ⟨qs, sc2, hc2, hq1, hq2, hr2⟩ := readContent_sent (srvCfg (env.feed k q.path)) true (stored q.fields) ⟨q.body ++ rest, sc, []⟩ [q.data]
    (fun l hl0 hl => hfeed l hl0 (by simpa using hl)) q.body rest hc1 rfl rfl (.inl (by show (-1 : Int) < 0; omega)) (by simpa using hq.length) (framed_stored hq.framed)
  have hq1 : qs.flatten = q.data := by simpa using hq1
  obtain ⟨o1, o2⟩ := chooseOut_in env.useBinary (field (asc "Accept") q.fields)
  rw [hr]
  unfold readBody
  have hk' : Spec.Http.BodyIn ((field (asc "Content-Type") q.fields).getD []) k := hk
  rw [if_neg (by simp), getOr_stored, (chooseKind_iff _ _).2 hk']
  simp only [hr2, hfin qs hq2 hq1, get_stored]
  exact ⟨_, _, rfl, rfl, hc2, o1, o2, rfl⟩

/-- The answer to a request that is refused. -/
theorem turn_refused (S : Conf σ) (r : Reg σ) (a : At σ) (hh : a.live.hdr = .null) (hw : CalmOut false a.wire.sched) {srv' : Srv} {s' : Conn}
    (hr : readRequest S.base.env a.live.srv a.conn = (.error .stream, srv', s')) (hch : srv'.chunks = true ↔ srv'.outType = .binary)
    (hfit : FitsFault S.side.cfg.strOk ⟨2, 1⟩ PARSE_ERROR (visible (S.txt .stream)) srv'.outType)
    (hlen : ∀ m, Mar.new srv'.outType ⟨2, 1⟩ = some m → ∀ ws k, m.packAll S.side.cfg.strOk S.dbl [.packFault PARSE_ERROR (visible (S.txt .stream))] = (ws, k, none) →
      (ws ++ k.ending).flatten.length < 2 ^ 32) :
    ∃ bytes data w', Web.turn S r a = (⟨{ a.live with srv := srv', hdr := .null }, s', w'⟩, .again false) ∧ w'.sent = a.wire.sent ++ bytes ∧ CalmOut false w'.sched ∧
      IsReply bytes srv'.outType [] S.http.keepAlive true data ∧ SaysFault S.side.cfg.strOk S.dbl PARSE_ERROR (visible (S.txt .stream)) srv'.outType data := by
  obtain ⟨m, ws, k, h1, h2, h3, h4⟩ := pack_fault (dbl := S.dbl) full21 hfit
  obtain ⟨w', bytes, g1, g2, g3, g4⟩ := reply_sent ⟨srv'.outType, S.http.useBinary, S.http.keepAlive, srv'.chunks, []⟩ ⟨by simp, by simp⟩ (ws ++ k.ending) (hlen m h1 ws k h2)
    (fun h => h3 (hch.1 h)) a.wire hw true (by rw [Bool.true_and, Bool.eq_iff_iff, hch]; simp)
  refine ⟨bytes, _, w'.wire, ?_, g2, g3, g4, h4⟩
  have h2' : m.packAll S.side.cfg.strOk S.dbl [.packFault PARSE_ERROR (Registry.cstr (S.txt .stream))] = (ws, k, none) := h2
  unfold Web.turn
  rw [hr]
  simp only
  unfold refuse
  simp only [hh]
  rw [if_neg (by simp), h1]
  simp only [h2']
  unfold respond
  have : Web.conf S ⟨a.live.st, srv', .null⟩ = serverConf ⟨srv'.outType, S.http.useBinary, S.http.keepAlive, srv'.chunks, []⟩ := rfl
  simp only [this, g1]

end Web

/-- The answer to a request that is refused: one response, in the format that the client has asked for, that says that the request could not be parsed. -/
def IsRefusal (S : Conf σ) (q : Post) (bytes : Bytes) : Prop :=
  ∃ out data, AnsweredIn S.http.useBinary (field (asc "Accept") q.fields) out ∧ IsReply bytes out [] S.http.keepAlive true data ∧
    SaysFault S.side.cfg.strOk S.dbl (-503) (visible (S.txt .stream)) out data

/-- The text of the exception can be said in all formats, in less than 4 GiB. -/
def CanRefuse (S : Conf σ) : Prop := ∀ out, FitsFault S.side.cfg.strOk ⟨2, 1⟩ (-503) (visible (S.txt .stream)) out ∧
  ∀ m, Mar.new out ⟨2, 1⟩ = some m → ∀ ws k, m.packAll S.side.cfg.strOk S.dbl [.packFault (-503) (visible (S.txt .stream))] = (ws, k, none) → (ws ++ k.ending).flatten.length < 2 ^ 32

/-- A body that is cut short: every piece of it is taken, and the end is not. -/
def CutShort (S : Conf σ) (q : Post) (k : HttpServer.Kind) : Prop :=
  (∀ l : List Bytes, (∀ p ∈ l, p ≠ []) → l.flatten <+: q.data → Remote.feed S.side .call q.path k l = none) ∧
  ∀ l : List Bytes, (∀ p ∈ l, p ≠ []) → l.flatten = q.data → Remote.finish S.side .call q.path k l = some .stream

/-- **C98.** A request whose content type is unknown, or whose body is cut short, gets one answer, the fault −503, in the format asked for; no method is run. -/
theorem C98_refused (S : Conf σ) (hS : CanRefuse S) (r : Reg σ) (a : At σ) (hh : a.live.hdr = .null) (q : Post) (hq : q.Ok)
    (hbad : (∀ k, ¬ q.Kind k) ∨ ∃ k, q.Kind k ∧ CutShort S q k) (rest : Bytes) (hd : a.conn.data = q.text ++ rest) (hc : Calm a.conn.sched) (hw : CalmOut false a.wire.sched) :
    ∃ a' bytes, Web.turn S r a = (a', .again false) ∧ a'.wire.sent = a.wire.sent ++ bytes ∧ IsRefusal S q bytes ∧ a'.live.st = a.live.st ∧ a'.live.hdr = .null ∧
      CalmOut false a'.wire.sched ∧ Calm a'.conn.sched ∧ a'.live.srv.close = false ∧ ((∃ k, q.Kind k) → a'.conn.data = rest) ∧ ((∀ k, ¬ q.Kind k) → a'.conn.data = q.body ++ rest) := by
  have hex : ∃ srv' s', readRequest S.base.env a.live.srv a.conn = (.error .stream, srv', s') ∧ Calm s'.sched ∧
      AnsweredIn S.http.useBinary (field (asc "Accept") q.fields) srv'.outType ∧ (srv'.chunks = true ↔ srv'.outType = .binary) ∧ srv'.close = false ∧
      ((∃ k, q.Kind k) → s'.data = rest) ∧ ((∀ k, ¬ q.Kind k) → s'.data = q.body ++ rest) := by
    rcases hbad with hbad | ⟨k, hk, hcut⟩
    · obtain ⟨srv', s', h1, h2, h3, h4, h5, h6⟩ := refused_type S.base.env a.live.srv q hq hbad rest a.conn hc hd
      exact ⟨srv', s', h1, h3, h4, h5, h6, fun ⟨k, hk⟩ => absurd hk (hbad k), fun _ => h2⟩
    · obtain ⟨srv', s', h1, h2, h3, h4, h5, h6⟩ := refused_body S.base.env a.live.srv q hq hk hcut.1 hcut.2 rest a.conn hc hd
      exact ⟨srv', s', h1, h3, h4, h5, h6, fun _ => h2, fun h => absurd hk (h k)⟩
  obtain ⟨srv', s', h1, h3, h4, h5, h6, h7, h8⟩ := hex
  obtain ⟨bytes, data, w', g1, g2, g3, g4, g5⟩ := turn_refused S r a hh hw h1 h5 (hS _).1 (hS _).2
  exact ⟨_, bytes, g1, g2, ⟨srv'.outType, data, h4, g4, g5⟩, rfl, rfl, g3, h3, h6, h7, h8⟩

/-- **C98 is violated: the body of a refused request is served.** Whatever a client posts with a content type that the server does not know, it is not read; the server takes it for the next
requests and answers them. So who can make another client post text of its choice makes it call methods. -/
theorem C98_body_served_violated (S : Conf σ) (hS : CanRefuse S) (hH : HeadersOk S) (hP : Spec.Xml.Conforms S.side.parser) (hkeep : S.http.keepAlive = true) (hmax : 0 < S.http.maxKeepalive)
    (r : Reg σ) (st : σ) (q : Post) (hq : q.Ok) (hbad : ∀ k, ¬ q.Kind k) (as : List Ask) (hbody : q.body = (as.map (·.post.text)).flatten) (hok : ∀ a ∈ as, a.Ok S)
    (han : CanAnswerAll S r st as) (s : Conn) (hd : s.data = q.text) (hc : Calm s.sched) (down : List SEv) (hw : CalmOut false down) :
    ∃ a bytes rest, Web.serve S r (Web.new st) s ⟨down, []⟩ = (a, .done) ∧ a.wire.sent = bytes ++ rest ∧ IsRefusal S q bytes ∧ Conversation S r 0 st as rest a.live.st := by
  obtain ⟨a1, bytes, h1, h2, h3, h4, h5, h6, h7, h8, -, h9⟩ := C98_refused S hS r
    ⟨{ Web.new st with srv := { (Web.new st).srv with close := false, head := false } }, s, ⟨down, []⟩⟩ rfl q hq (.inl hbad) [] (by simpa using hd) hc hw
  have h9 := h9 hbad
  rw [List.append_nil] at h9
  have hlen : q.body.length ≤ s.data.length := by rw [hd]; unfold Post.text; rw [List.length_append]; omega
  obtain ⟨a2, rest, g1, g2, g3, -⟩ := serveLoop_asks S hH hP r as (s.data.length + 1) 0 a1 (by rw [h9]; omega) hok (by rw [h4]; exact han) (by rw [h9, hbody]) h7 h6
  have hno : HttpServer.stop S.http a1.live.srv 0 = false := by
    unfold HttpServer.stop
    rw [h8, hkeep]
    simp
    omega
  unfold Web.serve
  rw [Web.serveLoop, h1]
  simp only [Bool.false_eq_true, if_false, hno, g1]
  refine ⟨_, bytes, rest, rfl, ?_, h3, ?_⟩
  · simp only [g2, h2, List.nil_append]
  · rw [h4] at g3
    exact g3

/-! ## The application's header -/

namespace Web

theorem failHttp_not_bad (S : Conf σ) (a : At σ) (c : Nat) (m : Bytes) : (failHttp S a c m).2 ≠ .stop .bad ∧ (failHttp S a c m).2 ≠ .again true ∧ (failHttp S a c m).2 ≠ .again false := by
  unfold failHttp
  split <;> simp

theorem respond_hdr (S : Conf σ) (a : At σ) (ws : List Bytes) (c : Bool) : (respond S a ws c).1.live.hdr = .null ∧ (respond S a ws c).2 ≠ .stop .bad := by
  unfold respond
  split <;> simp

/-- A turn uses no dead header, unless the pointer was already one to such when it began; and when the loop goes on, it is none. -/
theorem turn_hdr (S : Conf σ) (r : Reg σ) (a : At σ) (h : a.live.hdr ≠ .gone) : (Web.turn S r a).2 ≠ .stop .bad ∧ ∀ c, (Web.turn S r a).2 = .again c → (Web.turn S r a).1.live.hdr ≠ .gone := by
  have fail : ∀ (b : At σ) (c : Nat) (m : Bytes), (failHttp S b c m).2 ≠ .stop .bad ∧ ∀ k, (failHttp S b c m).2 = .again k → (failHttp S b c m).1.live.hdr ≠ .gone := by
    intro b c m
    obtain ⟨h1, h2, h3⟩ := failHttp_not_bad S b c m
    refine ⟨h1, fun k hk => ?_⟩
    cases k
    · exact absurd hk h3
    · exact absurd hk h2
  have resp : ∀ (b : At σ) (ws : List Bytes) (c : Bool), (respond S b ws c).2 ≠ .stop .bad ∧ ∀ k, (respond S b ws c).2 = .again k → (respond S b ws c).1.live.hdr ≠ .gone := by
    intro b ws c
    obtain ⟨h1, h2⟩ := respond_hdr S b ws c
    exact ⟨h2, fun _ _ => by rw [h1]; simp⟩
  unfold Web.turn
  generalize readRequest S.base.env a.live.srv a.conn = q
  obtain ⟨res, srv, s⟩ := q
  cases res with
  | error e =>
    cases e with
    | stream =>
      simp only
      unfold refuse
      rw [if_neg (by simpa using h)]
      split
      · simp
      · split
        · exact resp _ _ _
        · simp
    | http c => exact fail _ _ _
    | _ => simp
  | ok o =>
    cases o with
    | none =>
      simp only
      unfold headTurn
      split
      · split <;> simp
      · split <;> exact fail _ _ _
    | some q =>
      simp only
      unfold callTurn
      split
      · exact fail _ _ _
      · split
        · simp
        · simp only
          split
          · exact resp _ _ _
          · split
            · split
              · exact fail _ _ _
              · simp
            · simp
      · simp

theorem serveLoop_hdr (S : Conf σ) (r : Reg σ) : ∀ (f n : Nat) (a : At σ), a.live.hdr ≠ .gone → (Web.serveLoop S r f n a).2 ≠ .bad
  | 0, _, _, _ => by simp [Web.serveLoop]
  | f + 1, n, a, h => by
    obtain ⟨h1, h2⟩ := turn_hdr S r a h
    rw [Web.serveLoop]
    generalize Web.turn S r a = q at h1 h2
    obtain ⟨a1, nx⟩ := q
    cases nx with
    | stop e => simp only; intro he; exact h1 (by rw [he])
    | again c =>
      simp only
      generalize (if c = true then n + 1 else n) = k
      split
      · simp
      · exact serveLoop_hdr S r f _ a1 (h2 c rfl)

end Web

/-- **C99 (one connection).** On the first connection of a server object, and on any that begins with the pointer clear, no header is used that is no more, whatever the client sends and whatever
the methods and the network do. -/
theorem C99_first_partial (S : Conf σ) (r : Reg σ) (x : Live σ) (h : x.hdr ≠ .gone) (s : Conn) (wire : Wire) : (Web.serve S r x s wire).2 ≠ .bad :=
  serveLoop_hdr S r _ _ _ h

/-- **C99 is violated.** The application has no use for `HEAD` (the default). A client asks for `HEAD` and gets its 405; whoever connects next and posts anything of a content type that is
not known makes the server use the header of the first connection, which is no more. -/
theorem C99_violated (S : Conf σ) (hno : S.headCall ≠ 0) (r : Reg σ) (st : σ) {path : Bytes} (hp : Spec.Http.IsWord path) (http11 : Bool) (ls : List Spec.HLine) (hls : ∀ l ∈ ls, l.Ok)
    (fs : List (Bytes × Bytes)) (hfs : Spec.collectFields [] ls = some fs) (s1 : Conn) (hc1 : Calm s1.sched) {more : Bytes} (hd1 : s1.data = Spec.Http.requestText (asc "HEAD") path http11 ls ++ more)
    (q : Post) (hq : q.Ok) (hbad : ∀ k, ¬ q.Kind k) (s2 : Conn) (hc2 : Calm s2.sched) {rest : Bytes} (hd2 : s2.data = q.text ++ rest) (down1 down2 : List SEv) :
    ∃ sent e x, e ≠ .bad ∧ serveAll S r (Web.new st) [(s1, down1), (s2, down2)] = ([(sent, e), ([], .bad)], x) := by
  obtain ⟨sc, -, hr⟩ := readRequest_head_read S.base.env { (Web.new st).srv with close := false, head := false } (method := asc "HEAD") (by unfold Spec.Http.IsWord; decide +kernel) hp http11 ls hls fs hfs
    more s1 hc1 hd1
  unfold readBody at hr
  rw [if_pos (by show asc "HEAD" ≠ asc "POST"; decide +kernel), if_pos rfl] at hr
  have hfail : ∀ (a : At σ) c m, ∃ a' e, failHttp S a c m = (a', .stop e) ∧ a'.live = a.live ∧ e ≠ .bad := by
    intro a c m
    unfold failHttp
    split
    · exact ⟨_, _, rfl, rfl, by simp⟩
    · exact ⟨_, _, rfl, rfl, by simp⟩
  have h1 : ∃ a e, Web.serve S r (Web.new st) s1 ⟨down1, []⟩ = (a, e) ∧ a.live.hdr = .gone ∧ e ≠ .bad := by
    unfold Web.serve
    rw [Web.serveLoop]
    have : ∃ a e, Web.turn S r ⟨{ Web.new st with srv := { (Web.new st).srv with close := false, head := false } }, s1, ⟨down1, []⟩⟩ = (a, .stop e) ∧ a.live.hdr = .here ∧ e ≠ .bad := by
      unfold Web.turn
      rw [hr]
      simp only
      unfold headTurn
      rw [if_neg hno]
      split
      · obtain ⟨a, e, h, h', h''⟩ := hfail _ 405 (asc "Method Not Allowed")
        exact ⟨a, e, h, by rw [h'], h''⟩
      · obtain ⟨a, e, h, h', h''⟩ := hfail _ 503 (asc "Service Unavailable")
        exact ⟨a, e, h, by rw [h'], h''⟩
    obtain ⟨a, e, h, h', h''⟩ := this
    rw [h]
    simp only [h', if_true]
    exact ⟨_, _, rfl, rfl, h''⟩
  obtain ⟨a, e, g1, g2, g3⟩ := h1
  obtain ⟨srv', s', k1, -⟩ := refused_type S.base.env { a.live.srv with close := false, head := false } q hq hbad rest s2 hc2 hd2
  have h2 : ∃ b, Web.serve S r a.live s2 ⟨down2, []⟩ = (b, .bad) ∧ b.wire.sent = [] := by
    unfold Web.serve
    rw [Web.serveLoop]
    unfold Web.turn
    simp only [k1]
    unfold refuse
    rw [if_pos (by exact g2)]
    exact ⟨_, rfl, rfl⟩
  obtain ⟨b, k2, k3⟩ := h2
  refine ⟨a.wire.sent, e, b.live, g3, ?_⟩
  rw [serveAll]
  simp only [g1]
  rw [if_neg g3, serveAll]
  simp only [k2, if_true, k3]

/-! ## Witnesses -/

/-- A server that keeps connections for three requests, with an application that sets a header field and has no use for `HEAD`. -/
def webConf : Conf Nat := ⟨exampleSide, fun _ => asc "bad", xmlExampleDbl, exampleEnv, fun _ => [(asc "X-A", asc "1")], -1, fun _ => false, fun _ => asc "no"⟩

/-- A post with those fields. -/
def webPost (path : String) (fields : List (Bytes × Bytes)) (data : Bytes) : Post :=
  ⟨asc path, true, fields.map (fun f => .field f.1 f.2), fields, data, data⟩

/-- The call `add(1)` in the binary protocol, of a client that wants JSON. -/
def webBinary : Ask :=
  ⟨webPost "/RPC2" [(asc "Content-Type", asc "application/x-frpc"), (asc "Accept", asc "application/json"), (asc "Content-Length", asc "11")]
    (sendCall (fun _ => true) ⟨2, 1⟩ (asc "add") [.int 1]).1.flatten, .binary, asc "add", [.int 1], ⟨2, 1⟩⟩

/-- A form for the method `get`, of a client that wants XML and the connection closed. -/
def webForm : Ask :=
  ⟨webPost "/get" [(asc "Content-Type", asc "application/x-www-form-urlencoded"), (asc "Connection", asc "Close"), (asc "Content-Length", asc "19")] (Spec.body bothForm), .urlEncoded, asc "get",
    [.struct [(asc "a", .array [.bool false])]], ⟨2, 1⟩⟩

/-- Something else, whose body is those two requests. -/
def webOther : Post := webPost "/" [(asc "Content-Type", asc "text/plain"), (asc "Content-Length", asc "237")] (webBinary.post.text ++ webForm.post.text)

theorem webPost_ok (path : String) (fields : List (Bytes × Bytes)) (data : Bytes) (hp : Spec.Http.IsWord (asc path))
    (h : ∀ f ∈ fields, ((10 : UInt8) ∉ f.1 ++ 58 :: f.2 ∧ (f.1 ++ 58 :: f.2).getLast? ≠ some 13) ∧ f.1 ≠ [] ∧ f.1.head?.all (fun c => !isSpace c) = true ∧ (58 : UInt8) ∉ f.1)
    (ht : ∀ f ∈ fields, Spec.trim f.2 = f.2) (hl : field (asc "Content-Length") fields = some (dec data.length)) (hd : data.length < 2 ^ 63) : (webPost path fields data).Ok := by
  refine ⟨hp, ?_, ?_, .inl ⟨hl, rfl⟩, hd⟩
  · intro l hm
    obtain ⟨f, hf, rfl⟩ := List.mem_map.1 hm
    obtain ⟨⟨h1, h2⟩, h3, h4, h5⟩ := h f hf
    refine ⟨by simpa [Spec.HLine.text] using h1, by simpa [Spec.HLine.text] using h2, h3, fun c hc => ?_, h5⟩
    rw [hc] at h4
    simpa using h4
  · show Spec.collectFields [] (fields.map (fun f => Spec.HLine.field f.1 f.2)) = some fields
    have : ∀ (fs acc : List (Bytes × Bytes)), (∀ f ∈ fs, Spec.trim f.2 = f.2) → Spec.collectFields acc (fs.map (fun f => Spec.HLine.field f.1 f.2)) = some (acc ++ fs) := by
      intro fs
      induction fs with
      | nil => intro acc _; simp [Spec.collectFields]
      | cons f fs ih =>
        intro acc hf
        simp only [List.map_cons, Spec.collectFields, Spec.addLine]
        rw [hf f (by simp), ih _ (fun g hg => hf g (by simp [hg]))]
        simp
    simpa using this fields [] ht

theorem webConf_headers : HeadersOk webConf := by
  intro st
  have h : ∀ f ∈ webConf.custom st, f = (asc "X-A", asc "1") := by intro f hf; simpa [webConf] using hf
  refine ⟨fun f hf => ?_, fun f hf => ?_⟩
  · rw [h f hf]; unfold FieldOk; decide +kernel
  · rw [h f hf]; decide +kernel

example : Spec.Xml.Conforms webConf.side.parser := XmlParser.eager_conforms

theorem webBinary_ok : webBinary.Ok webConf :=
  ⟨webPost_ok _ _ _ (by unfold Spec.Http.IsWord; decide +kernel) (by decide +kernel) (by decide +kernel) (by decide +kernel) (by decide +kernel),
    (chooseKind_iff _ _).1 (by decide +kernel), .binary (args := [.int 1]) Web.full21 (by simp [HeldItems, Held, IsI64]) (by simp [SmallItems, Small]) (by rfl)⟩

theorem webForm_ok : webForm.Ok webConf :=
  ⟨webPost_ok _ _ _ (by unfold Spec.Http.IsWord; decide +kernel) (by decide +kernel) (by decide +kernel) (by decide +kernel) (by decide +kernel),
    (chooseKind_iff _ _).1 (by decide +kernel), .form (S := webConf) (path := asc "/get") plainEnv_ok bothForm_ok.1 bothForm_ok.2.1 (by decide) bothForm_is⟩

theorem webOther_ok : webOther.Ok ∧ (∀ k, ¬ webOther.Kind k) ∧ webOther.body = ([webBinary, webForm].map (·.post.text)).flatten :=
  ⟨webPost_ok _ _ _ (by unfold Spec.Http.IsWord; decide +kernel) (by decide +kernel) (by decide +kernel) (by decide +kernel) (by decide +kernel),
    fun k hk => absurd ((chooseKind_iff _ _).2 hk) (by cases k <;> decide +kernel), by simp [webOther, webPost]⟩

theorem web_answers : CanAnswerAll webConf (Registry.built false true sampleOps) 7 [webBinary, webForm] := by
  refine ⟨fun ver hver out _ => ?_, fun ver hver out _ => ?_, trivial⟩
  · have hver : ver = ⟨2, 1⟩ := hver.elim id id
    subst hver
    refine ⟨?_, ?_⟩
    · show FitsValue _ _ _ (.int 1) out
      cases out
      · exact ⟨by simp [Small], by decide, by decide⟩
      · exact ⟨by simp [Held, IsI64], by simp [Small], _, rfl⟩
      · exact ⟨by simp [Small], by simp [Spec.Json.DoublesAll]⟩
      · exact ⟨by simp [Held, IsI64], by simp [Small], _, rfl⟩
    · cases out <;> (intro m hm; cases hm; decide +kernel)
  · have hver : ver = ⟨2, 1⟩ := hver.elim id id
    subst hver
    refine ⟨?_, ?_⟩
    · refine ⟨_, _, .index (asc "no"), ?_⟩
      cases out
      · exact ⟨by decide, by decide⟩
      · exact ⟨by unfold IsI32; omega, by decide +kernel, rfl⟩
      · trivial
      · exact ⟨by unfold IsI32; omega, by decide +kernel, rfl⟩
    · cases out <;> (intro m hm; cases hm; decide +kernel)

theorem webConf_refuses : CanRefuse webConf := by
  intro out
  refine ⟨?_, ?_⟩
  · cases out
    · exact ⟨by decide, by decide⟩
    · exact ⟨by unfold IsI32; omega, by decide +kernel, rfl⟩
    · trivial
    · exact ⟨by unfold IsI32; omega, by decide +kernel, rfl⟩
  · intro m hm ws k h
    have : (m.packAll webConf.side.cfg.strOk webConf.dbl [.packFault (-503) (visible (webConf.txt .stream))]).1 = ws ∧
      (m.packAll webConf.side.cfg.strOk webConf.dbl [.packFault (-503) (visible (webConf.txt .stream))]).2.1 = k := by rw [h]; exact ⟨rfl, rfl⟩
    rw [← this.1, ← this.2]
    cases out <;> (cases hm; decide +kernel)

/-- The first byte of the magic number, in the binary protocol. -/
def webCut : Post := webPost "/RPC2" [(asc "Content-Type", asc "application/x-frpc"), (asc "Content-Length", asc "1")] [202]

example : webCut.Ok ∧ webCut.Kind .binary ∧ CutShort webConf webCut .binary := by
  have pieces : ∀ l : List Bytes, (∀ p ∈ l, p ≠ []) → l.flatten <+: [202] → l = [] ∨ l = [[202]] := by
    intro l h1 h2
    rcases l with _ | ⟨p, l⟩
    · exact .inl rfl
    · rcases p with _ | ⟨c, p⟩
      · exact absurd rfl (h1 [] (by simp))
      · simp only [List.flatten_cons, List.cons_append] at h2
        obtain ⟨hc, h4⟩ := List.cons_prefix_cons.1 h2
        subst hc
        have := List.prefix_nil.1 h4
        obtain ⟨rfl, h3⟩ := List.append_eq_nil_iff.1 this
        rcases l with _ | ⟨p, l⟩
        · exact .inr rfl
        · simp only [List.flatten_cons] at h3
          exact absurd (List.append_eq_nil_iff.1 h3).1 (h1 p (by simp))
  refine ⟨webPost_ok _ _ _ (by unfold Spec.Http.IsWord; decide +kernel) (by decide +kernel) (by decide +kernel) (by decide +kernel) (by decide +kernel),
    (chooseKind_iff _ _).1 (by decide +kernel), ?_, ?_⟩
  · intro l h1 h2
    rcases pieces l h1 h2 with rfl | rfl <;> decide +kernel
  · intro l h1 h2
    rcases pieces l h1 (by rw [h2]; exact List.prefix_rfl) with rfl | rfl
    · cases h2
    · decide +kernel

/-- Both requests on one connection: JSON with the value, then XML with the fault; the methods end in state 8. -/
example : ∃ a, Web.serve webConf (Registry.built false true sampleOps) (Web.new 7) ⟨webBinary.post.text ++ webForm.post.text, [.bytes 3, .bytes 1], []⟩ ⟨[], []⟩ = (a, .done) ∧
    Conversation webConf (Registry.built false true sampleOps) 0 7 [webBinary, webForm] a.wire.sent a.live.st :=
  C97_conversation_partial webConf webConf_headers XmlParser.eager_conforms _ (Web.new 7) [webBinary, webForm]
    (by intro a ha; simp only [List.mem_cons, List.not_mem_nil, or_false] at ha; rcases ha with rfl | rfl; exact webBinary_ok; exact webForm_ok) web_answers _
    (by simp) (by intro e he; simp only [List.mem_cons, List.not_mem_nil, or_false] at he; rcases he with rfl | rfl <;> exact ⟨_, rfl⟩) [] (by intro e he; simp at he)

/-- The same, in bytes: the first answer, and the state that the methods are left in. -/
example : (fun q => (q.1.live.st, q.2, q.1.wire.sent.take 235))
      (Web.serve webConf (Registry.built false true sampleOps) (Web.new 7) ⟨webBinary.post.text ++ webForm.post.text, [], []⟩ ⟨[], []⟩) =
    (8, .done, asc ("HTTP/1.1 200 OK\r\nContent-Type: application/json\r\n" ++
      "Accept: text/xml, application/x-frpc, application/x-www-form-urlencoded, application/x-base64-frpc\r\n" ++
      "Connection: keep-alive\r\nContent-Length: 1\r\nServer: Fast-RPC  Server Linux\r\nX-A: 1\r\n\r\n1")) := by
  decide +kernel

/-- One post of something else makes the server run them; the method is called. -/
example : ∃ a bytes rest, Web.serve webConf (Registry.built false true sampleOps) (Web.new 7) ⟨webOther.text, [], []⟩ ⟨[], []⟩ = (a, .done) ∧ a.wire.sent = bytes ++ rest ∧
    IsRefusal webConf webOther bytes ∧ Conversation webConf (Registry.built false true sampleOps) 0 7 [webBinary, webForm] rest a.live.st :=
  C98_body_served_violated webConf webConf_refuses webConf_headers XmlParser.eager_conforms rfl (by decide) _ 7 webOther webOther_ok.1 webOther_ok.2.1 _ webOther_ok.2.2
    (by intro a ha; simp only [List.mem_cons, List.not_mem_nil, or_false] at ha; rcases ha with rfl | rfl; exact webBinary_ok; exact webForm_ok) web_answers ⟨webOther.text, [], []⟩ rfl
    (by intro e he; simp at he) [] (by intro e he; simp at he)

/-- C99: the two clients. -/
example (s2 : Conn) (h : Calm s2.sched) (hd : s2.data = webOther.text ++ []) : ∃ sent e x, e ≠ .bad ∧ serveAll webConf (Registry.built false true sampleOps) (Web.new 7)
    [(⟨Spec.Http.requestText (asc "HEAD") (asc "/") true [] ++ [], [], []⟩, []), (s2, [])] = ([(sent, e), ([], .bad)], x) :=
  C99_violated webConf (by decide) _ 7 (path := asc "/") (by unfold Spec.Http.IsWord; decide +kernel) true [] (by simp) [] rfl _ (by intro e he; simp at he) rfl webOther webOther_ok.1 webOther_ok.2.1 s2 h hd [] []

end Frpc
