import Verif.Props.Remote
import Verif.Proofs.RequestCut
/-!
# Calls over any network: C125
-/
namespace Frpc
open HttpIO HttpOut HttpServer Registry Spec.Registry Spec.XmlRpc Remote
open TreeBuilder (getData TB)
open Spec (Held Small DatesAll plain HeldItems SmallItems DatesAllItems plainItemsWith plainWith StringsAll StringsAllItems crlf chunked trim)
open Spec.Http (ResponseIn Framed responseText)
variable {σ : Type}

namespace HttpServer

theorem statusLine_out (cfg : Cfg) : ∀ (f : Nat) (s : Conn), (statusLine cfg f s).2.out = s.out := by
  intro f
  induction f with
  | zero => intro s; rfl
  | succ f ih =>
    intro s
    unfold statusLine readLine
    have h1 := (readLineOpt_plain cfg true false s).1
    generalize readLineOpt cfg true false s = q at h1
    obtain ⟨q, s1⟩ := q
    simp only at h1
    cases q with
    | error e => exact h1
    | ok line =>
      cases line with
      | nil => exact (ih s1).trans h1
      | cons a l =>
        simp only
        split
        · exact h1
        · split
          · exact h1
          · split <;> exact h1
        · exact h1

/-- The pieces of a response are not empty. -/
theorem readResponse_pieces {limits : Int × Int} {feed finish : HttpServer.Kind → List Bytes → Option Err} {keepAlive : Bool} {s s' : Conn} {r : Response}
    (h : readResponse limits feed finish keepAlive s = (.ok r, s')) : NoEmpty r.body := by
  unfold readResponse at h
  simp only at h
  have h1 := statusLine_out ⟨limits.1, limits.2, fun _ => none⟩ (s.data.length + 1) { s with out := [] }
  generalize statusLine ⟨limits.1, limits.2, fun _ => none⟩ (s.data.length + 1) { s with out := [] } = q at h h1
  obtain ⟨q, s1⟩ := q
  cases q with
  | error e => cases h
  | ok v =>
    simp only at h h1
    have h2 := (readHeaderLoop_plain ⟨limits.1, limits.2, fun _ => none⟩ false (s1.data.length + 1) true [] s1).1
    unfold readHeader at h
    generalize readHeaderLoop ⟨limits.1, limits.2, fun _ => none⟩ false (s1.data.length + 1) true [] s1 = q at h h2
    obtain ⟨q, s2⟩ := q
    cases q with
    | error e => cases h
    | ok hh =>
      simp only [readAnswer] at h h2
      split at h
      · cases h
      · next kind _ =>
        have h3 := readContent_ne ⟨limits.1, limits.2, feed kind⟩ false hh s2 (by rw [h2, h1]; intro p hp; cases hp)
        generalize readContent ⟨limits.1, limits.2, feed kind⟩ false hh s2 = q at h h3
        obtain ⟨q, s3⟩ := q
        cases q with
        | error e => cases h
        | ok h' =>
          simp only at h h3
          split at h
          · cases h
          · cases h; exact h3

/-- Where only the end of the last line is left, no response is read. -/
theorem readResponse_nothing (limits : Int × Int) (feed finish : HttpServer.Kind → List Bytes → Option Err) (keepAlive : Bool) (d : Bytes)
    (hd : Tail d ∨ d <+: crlf) (back : List Ev) (out : List Bytes) (r : Response) (s' : Conn) : readResponse limits feed finish keepAlive ⟨d, back, out⟩ ≠ (.ok r, s') := by
  intro h
  obtain ⟨pre, t, hpre, ht⟩ : ∃ pre t, Tail pre ∧ d ++ t = pre := by
    rcases hd with hd | ⟨t, ht⟩
    · exact ⟨d, [], hd, by simp⟩
    · exact ⟨crlf, t, .inr (.inr rfl), ht⟩
  unfold readResponse at h
  simp only at h
  generalize hq : statusLine ⟨limits.1, limits.2, fun _ => none⟩ (d.length + 1) ⟨d, back, []⟩ = q at h
  obtain ⟨q, s1⟩ := q
  cases q with
  | error e => cases h
  | ok v =>
    have := statusLine_own ⟨limits.1, limits.2, fun _ => none⟩ true 404 (by omega) (asc "No") (by decide) (by decide) (by decide) []
      (t ++ (Spec.Http.versionText true ++ asc " " ++ dec 404 ++ asc " " ++ asc "No" ++ crlf ++ [])) 0 (d.length + 1) pre ⟨d, back, []⟩ s1 v hpre
      (by show d ++ _ = _; rw [← ht]; simp) hq
    exact absurd this.1 (by omega)

/-- What the client reads of a response of the server that was cut anywhere, whatever the schedule: if it reads anything with success, it is that response. -/
theorem response_cut (limits : Int × Int) (feed finish : HttpServer.Kind → List Bytes → Option Err) (keepAlive : Bool) (c : ServerCfg) (hok : ServerOk c)
    (kind : HttpServer.Kind) (hkind : (kind = .binary ∧ c.outType = .binary) ∨ (kind = .xml ∧ c.outType = .xml))
    (ds : List Bytes) (hlen : LengthOk c.chunks ds) (hfirst : FirstWrite ds) (down : List SEv) (m : Except SErr Unit) (w : Writer)
    (hm : message (serverConf c) ds (.init ⟨down, []⟩) = (m, w)) (pre : Bytes) (hpre : Tail pre) (back : List Ev) (r : Response) (conn : Conn)
    (h : readResponse limits feed finish keepAlive ⟨pre ++ w.wire.sent, back, []⟩ = (.ok r, conn)) :
    r.kind = kind ∧ r.body.flatten = ds.flatten ∧ NoEmpty r.body ∧ r.accepts = some (true, c.useBinary) ∧ (Tail conn.data ∨ (m ≠ .ok () ∧ conn.data <+: crlf)) := by
  obtain ⟨total, body, ht, hb, hc⟩ : ∃ total body, Sends ⟨down, []⟩ m w.wire (serverHead c total ++ body) ∧ (c.chunks = false → total = ds.flatten.length ∧ body = ds.flatten) ∧
      (c.chunks = true → ∃ ps, body = chunked ps ∧ (∀ p ∈ ps, p ≠ []) ∧ ps.flatten = ds.flatten) := by
    cases hch : c.chunks with
    | false =>
      have hl : ds.flatten.length < 2 ^ 32 := by simpa [LengthOk, hch] using hlen
      have := message_plain (serverConf c) hch ds ⟨down, []⟩ m w hm
      rw [Nat.mod_eq_of_lt hl] at this
      exact ⟨_, _, this, by simp, by simp⟩
    | true =>
      obtain ⟨d, ds', rfl, hd1, hd2⟩ := hfirst
      obtain ⟨ps, g1, g2, g3⟩ := chunkStream_eq (serverHead c 0) ds' d false hd1
      have := message_chunks (serverConf c) hch (serverHead c 0) (fun n => serverHead_const c hch n) _ _ _ _ hm
      simp only [Writer.init] at this
      rw [chunkStream_first _ _ _ hd2, g1] at this
      exact ⟨0, chunked ps, by simpa using this, by simp, fun _ => ⟨ps, rfl, g2, by rw [g3]; simp⟩⟩
  obtain ⟨p, ⟨lost, hp⟩, hsent, hall⟩ := ht
  rw [List.nil_append] at hsent
  obtain ⟨f1, f2, f3, f4, f5⟩ := serverFields_first hok total
  unfold first at f1 f2 f3 f4 f5
  have hlines : ∀ l ∈ (serverFields c total).map asLine, l.Ok := by
    intro l hl
    obtain ⟨f, hf, rfl⟩ := List.mem_map.1 hl
    exact (serverFields_ok hok _ f hf).line
  have hframed : Framed ((serverFields c total).map (fun f => (f.1, trim f.2))) ds.flatten body := by
    cases hch : c.chunks with
    | false => exact .inl ⟨by rw [← (hb hch).1]; exact f4 hch, (hb hch).2⟩
    | true => exact .inr ⟨(f5 hch).1, ⟨_, (f5 hch).2, by decide +kernel⟩, hc hch⟩
  have htext : serverHead c total = responseText 0 true (dec 200) (asc "OK") ((serverFields c total).map asLine) := by
    unfold serverHead responseText
    rw [← flatMap_headLine]
    have : asc "HTTP/1.1 200 OK\r\n" = Spec.Http.versionText true ++ asc " " ++ dec 200 ++ asc " " ++ asc "OK" ++ crlf := by decide +kernel
    rw [this]
    simp
  obtain ⟨-, k1, k2, ⟨pre', k3, k4⟩, -, k6⟩ := readResponse_cut limits feed finish keepAlive 0 true 200 (by omega) (asc "OK") (by decide) (by decide) (by decide)
    ((serverFields c total).map asLine) hlines ((serverFields c total).map (fun f => (f.1, trim f.2))) (by rw [collect_asLine]; rfl) ds.flatten body [] lost hframed
    (by unfold LengthOk at hlen; split at hlen <;> omega) pre hpre _ conn (by
      show (pre ++ w.wire.sent) ++ lost = _
      rw [hsent, List.append_assoc, hp, htext]; simp) r h
  refine ⟨?_, k2, readResponse_pieces h, ?_, ?_⟩
  · unfold Spec.Http.field at k1
    rw [f1] at k1
    have hx : Spec.Http.Contains (asc "text/xml") (asc "text/xml") := by rw [← hasSub_iff]; decide +kernel
    have hnx : ¬ Spec.Http.Contains (asc "text/xml") (asc "application/x-frpc") := by rw [← hasSub_iff]; decide +kernel
    rcases hkind with ⟨rfl, e⟩ | ⟨rfl, e⟩
    · rw [e] at k1
      cases hk : r.kind with
      | binary => rfl
      | xml => rw [hk] at k1; exact absurd k1 hnx
      | urlEncoded => rw [hk] at k1; exact k1.elim
      | base64 => rw [hk] at k1; exact k1.elim
    · rw [e] at k1
      cases hk : r.kind with
      | binary => rw [hk] at k1; exact absurd hx k1.2
      | xml => rfl
      | urlEncoded => rw [hk] at k1; exact k1.elim
      | base64 => rw [hk] at k1; exact k1.elim
  · rw [k6]
    unfold Spec.Http.field
    rw [f2]
    cases c.useBinary <;> decide +kernel
  · rw [List.append_nil] at k4
    by_cases hm0 : m = .ok ()
    · left
      have : lost = [] := by
        have := hall hm0
        rw [this] at hp
        exact List.append_right_eq_self.1 hp
      rw [this, List.append_nil] at k4
      rw [k4]; exact k3
    · rcases k3 with rfl | rfl | rfl
      · left; rw [(List.append_eq_nil_iff.1 k4).1]; exact .inl rfl
      · left
        cases hcd : conn.data with
        | nil => exact .inl rfl
        | cons a l =>
          rw [hcd] at k4
          simp only [List.cons_append, List.cons.injEq, List.append_eq_nil_iff] at k4
          rw [k4.1, k4.2.1]; exact .inr (.inl rfl)
      · exact .inr ⟨hm0, ⟨lost, k4⟩⟩

end HttpServer

namespace Remote

/-- What is known of the connection that a proxy keeps, over any network: of what was sent on it at most the end of a last line is unread; if that end was cut, the
server has closed the connection. -/
structure Joined (p : Proxy.Proxy) (x : State σ) : Prop where
  clean : ∀ s, p.sock = some s → s.id < p.made ∧ (Tail s.unread ∨ (x.served s.id = none ∧ s.unread <+: crlf))
  last : ∀ i c, x.last = some (i, c) → i < p.made

theorem Joined.fresh {p : Proxy.Proxy} {x : State σ} (h : Joined p x) : x.served p.made = some 0 := by
  unfold State.served
  split
  · next i c hl =>
    have := h.last i c hl
    rw [if_neg (by omega)]
  · rfl

/-- The connection that a call uses. -/
theorem connect_joined {p : Proxy.Proxy} {x : State σ} (h : Joined p x) (net : Remote.Net) :
    ∃ s made, (∀ reply, Proxy.connectSocket p (turnWith p x net reply) = (some s, made)) ∧ s.id < made ∧ p.made ≤ made ∧
      (Tail s.unread ∨ (x.served s.id = none ∧ s.unread <+: crlf)) := by
  unfold Proxy.connectSocket turnWith
  simp only [if_true, List.append_nil]
  have fresh : ∃ s made, (((some ⟨p.made, []⟩, p.made + 1) : Option Proxy.Sock × Nat) = (some s, made)) ∧ s.id < made ∧ p.made ≤ made ∧
      (Tail s.unread ∨ (x.served s.id = none ∧ s.unread <+: crlf)) := ⟨⟨p.made, []⟩, p.made + 1, rfl, Nat.lt_succ_self _, Nat.le_succ _, .inl (.inl rfl)⟩
  cases hs : p.sock with
  | none =>
    obtain ⟨s, made, h1, h2⟩ := fresh
    exact ⟨s, made, fun _ => h1, h2⟩
  | some s =>
    obtain ⟨h1, h2⟩ := h.clean s hs
    simp only
    by_cases hk : p.cfg.keepAlive = false
    · rw [if_pos hk]; obtain ⟨s, made, h1, h2⟩ := fresh; exact ⟨s, made, fun _ => h1, h2⟩
    · rw [if_neg hk]
      by_cases hb : net.broken = true
      · rw [if_pos hb]; obtain ⟨s, made, h1, h2⟩ := fresh; exact ⟨s, made, fun _ => h1, h2⟩
      · rw [if_neg hb]
        by_cases hc : s.unread = [] ∧ (net.lost || !net.late && goneBy p x) = true
        · rw [if_pos hc]; obtain ⟨s, made, h1, h2⟩ := fresh; exact ⟨s, made, fun _ => h1, h2⟩
        · rw [if_neg hc]; exact ⟨s, p.made, fun _ => rfl, h1, Nat.le_refl _, h2⟩

/-- What a call over any network may come to. -/
structure AfterCall (p : Proxy.Proxy) (p' : Proxy.Proxy) (x' : State σ) : Prop where
  joined : Joined p' x'
  hurl : p'.url = p.url
  hcfg : p'.cfg = p.cfg
  version : p'.version = p.version ∨ p'.version = ⟨2, 1⟩
  once : p'.once = []
  permanent : p'.permanent = p.permanent

/-- What the server makes of the bytes of a request that were sent. -/
theorem turn_any {C : Client} {S : Server} (hok : Compatible C S) (r : Reg σ) (p : Proxy.Proxy) (x : State σ) (hp : ClientOk (Proxy.clientOf p))
    (hv : p.version.Full) (name : Bytes) (args : List Value) (hc : CallTravels C S (Proxy.chooseBinary p) p.version name args) (up : List SEv) (ws : List Bytes)
    (hws : Proxy.packCall C.side.cfg.strOk C.dbl (Proxy.chooseBinary p) p.version name args = (ws, none)) (m : Except SErr Unit) (w : Writer)
    (hm : message (clientConf (Proxy.clientOf p)) ws (.init ⟨up, []⟩) = (m, w)) (id : Nat) (arrive : List Ev) (down : List SEv) :
    (∃ x', turn S r x id w.wire.sent arrive down = ([], x') ∧ x'.st = x.st ∧ (x' = x ∨ ∃ c, x'.last = some (id, c))) ∨
    (∃ srv n ver, x.served id = some n ∧ (ver = p.version ∨ ver = ⟨2, 1⟩) ∧ srv.outType = outOf S ∧
      let a := answerCall S r (marOf S ver) x.st name (plainItemsWith (carried S.side.cfg (Proxy.chooseBinary p) p.version) args)
      turn S r x id w.wire.sent arrive down = match a.thrown with
        | some _ => ([], ⟨a.state, srv, some (id, none)⟩)
        | none => send S a.state srv id (n + 1) S.custom a.writes down) := by
  have hfull21 : Version.Full ⟨2, 1⟩ := ⟨by unfold Version.Known; decide, by decide⟩
  obtain ⟨ws', h2, hlen, hdec⟩ := call_decodes hok hv hc
  rw [hws] at h2
  cases h2
  have hdec := hdec (Proxy.clientOf p).path
  unfold turn
  cases hserved : x.served id with
  | none => exact .inl ⟨x, rfl, rfl, .inl rfl⟩
  | some n =>
    obtain ⟨pp, ⟨lost, hpp⟩, hsent, -⟩ := message_plain (clientConf (Proxy.clientOf p)) rfl ws ⟨up, []⟩ m w hm
    rw [List.nil_append] at hsent
    rw [Nat.mod_eq_of_lt hlen] at hpp
    have hheard := readRequest_cut S.env x.srv (Proxy.clientOf p) hp rfl ws.flatten lost ⟨w.wire.sent, arrive, []⟩ (by show w.wire.sent ++ lost = _; rw [hsent]; exact hpp)
      (by omega) hdec.feed hdec.finish
    simp only
    rcases hheard with ⟨qs, srv, s, g1, g2, g3, g4, -⟩ | ⟨e, srv, s, g1, g2, g3⟩
    · right
      obtain ⟨b1, b2, b3⟩ := hdec.built qs g3 g2
      generalize hver : version S.side .call (if Proxy.chooseBinary p = true then .binary else .xml) qs = ver at b3
      have hverf : ver.Full := by rcases b3 with h | h <;> rw [h] <;> assumption
      refine ⟨srv, n, ver, rfl, b3, g4, ?_⟩
      rw [g1]
      have e1 : built S.side .call (Proxy.clientOf p).path (if (Proxy.clientOf p).binary = true then HttpServer.Kind.binary else .xml) qs =
        built S.side .call (Proxy.clientOf p).path (if Proxy.chooseBinary p = true then .binary else .xml) qs := rfl
      have e2 : version S.side .call (if (Proxy.clientOf p).binary = true then HttpServer.Kind.binary else .xml) qs = ver := hver
      have gout' : srv.outType = outOf S := g4
      simp only [e1, e2, b2, gout', mar_new hverf, b1]
      rfl
    · left
      rw [g1]
      cases e with
      | stream => exact absurd rfl g2
      | http code => exact absurd rfl (g3 code)
      | io e => exact ⟨_, rfl, rfl, .inr ⟨_, rfl⟩⟩
      | other e => exact ⟨_, rfl, rfl, .inr ⟨_, rfl⟩⟩
      | noRequest => exact ⟨_, rfl, rfl, .inr ⟨_, rfl⟩⟩

/-- One call over any network, in detail. -/
theorem call_any {C : Client} {S : Server} (hok : Compatible C S) (r : Reg σ) (p : Proxy.Proxy) (x : State σ) (hl : Joined p x) (hp : ClientOk (Proxy.clientOf p))
    (hv : p.version.Full) (name : Bytes) (args : List Value) (hc : CallTravels C S (Proxy.chooseBinary p) p.version name args) (net : Remote.Net)
    (ha : ∀ ver, ver = p.version ∨ ver = ⟨2, 1⟩ →
      AnswerTravels C S ver (dispatch r x.st name (plainItemsWith (carried S.side.cfg (Proxy.chooseBinary p) p.version) args)).1) :
    ∃ o p' x', remoteCall C S r p x name args net = (o, p', x') ∧ AfterCall p p' x' ∧
      ((x'.st = x.st ∧ o = .failed) ∨
       (x'.st = (dispatch r x.st name (plainItemsWith (carried S.side.cfg (Proxy.chooseBinary p) p.version) args)).2 ∧
         (o = .failed ∨ ∃ ver', (ver' = p.version ∨ ver' = ⟨2, 1⟩) ∧
          match (dispatch r x.st name (plainItemsWith (carried S.side.cfg (Proxy.chooseBinary p) p.version) args)).1 with
          | .ok v => o = .value (plainWith (carried C.side.cfg S.http.useBinary ver') v)
          | .error e => ∃ c m, WireFault e c m ∧ o = .fault c (if m = [] then asc "No data unmarshalled" else m)))) := by
  have hfull21 : Version.Full ⟨2, 1⟩ := ⟨by unfold Version.Known; decide, by decide⟩
  obtain ⟨sk, made, h1, hid, hmade, hunread⟩ := connect_joined hl net
  have hconn : connection p x net = sk.id := by unfold connection; rw [h1]
  obtain ⟨ws, h2, hlen, -⟩ := call_decodes hok hv hc
  have hmlast : ∀ {x' : State σ}, (x' = x ∨ ∃ c, x'.last = some (sk.id, c)) → ∀ i c, x'.last = some (i, c) → i < made := by
    rintro x' (rfl | ⟨c, hx⟩) i c' hi
    · have := hl.last i c' hi; omega
    · rw [hx] at hi; cases hi; exact hid
  have hends := Proxy.call_ends C.env p name args (turnWith p x net (fun b => (turn S r x sk.id b net.arrive net.down).1))
  unfold remoteCall
  simp only [hconn]
  generalize hcall : Proxy.call C.env p name args (turnWith p x net (fun b => (turn S r x sk.id b net.arrive net.down).1)) = q at hends
  have h2' : Proxy.packCall C.env.strOk C.env.dbl (Proxy.chooseBinary p) p.version name args = (ws, none) := h2
  have failed : ∀ {x' : State σ}, (x' = x ∨ ∃ c, x'.last = some (sk.id, c)) → AfterCall p { p with once := [], sock := none, made := made } x' :=
    fun hx => ⟨⟨fun s hs => (by cases hs), hmlast hx⟩, rfl, rfl, .inl rfl, rfl, rfl⟩
  have tstate : ∀ (m : Except SErr Unit) (w : Writer), message (clientConf (Proxy.clientOf p)) ws (.init ⟨net.up, []⟩) = (m, w) →
      ∃ x', (turn S r x sk.id w.wire.sent net.arrive net.down).2 = x' ∧ (x' = x ∨ ∃ c, x'.last = some (sk.id, c)) ∧
        (x'.st = x.st ∨ x'.st = (dispatch r x.st name (plainItemsWith (carried S.side.cfg (Proxy.chooseBinary p) p.version) args)).2) := by
    intro m w hm
    rcases turn_any hok r p x hp hv name args hc net.up ws h2 m w hm sk.id net.arrive net.down with ⟨x', t1, t2, t3⟩ | ⟨srv, n, ver, t1, t2, t3, t4⟩
    · exact ⟨x', by rw [t1], t3, .inl t2⟩
    · have hverf : ver.Full := by rcases t2 with h | h <;> rw [h] <;> assumption
      obtain ⟨out, cbs, a1, -⟩ := answer_decodes hok hverf r x.st name _ (ha ver t2)
      rw [a1] at t4
      simp only at t4
      rw [t4]
      unfold send
      split
      · exact ⟨_, rfl, .inr ⟨_, rfl⟩, .inr rfl⟩
      · exact ⟨_, rfl, .inr ⟨_, rfl⟩, .inr rfl⟩
  cases hends with
  | packing ws' e g1 => rw [h2'] at g1; cases g1
  | connect ws' made' g1 g2 => rw [h1] at g2; cases g2
  | sending ws' s made' e w g1 g2 g3 =>
    rw [h2'] at g1; cases g1
    rw [h1] at g2; cases g2
    obtain ⟨x', t1, t2, t3⟩ := tstate _ _ g3
    simp only [t1]
    refine ⟨_, _, _, rfl, failed t2, ?_⟩
    rcases t3 with t3 | t3
    · exact .inl ⟨t3, rfl⟩
    · exact .inr ⟨t3, .inl rfl⟩
  | reading ws' s made' m e w conn g1 g2 g3 g4 =>
    rw [h2'] at g1; cases g1
    rw [h1] at g2; cases g2
    obtain ⟨x', t1, t2, t3⟩ := tstate _ _ g3
    simp only [t1]
    refine ⟨_, _, _, rfl, failed t2, ?_⟩
    rcases t3 with t3 | t3
    · exact .inl ⟨t3, rfl⟩
    · exact .inr ⟨t3, .inl rfl⟩
  | response ws' s made' m q w conn g1 g2 g3 g4 =>
    rw [h2'] at g1; cases g1
    rw [h1] at g2; cases g2
    have g4 : readResponse (-1, -1) C.env.codec.feed C.env.codec.finish p.cfg.keepAlive ⟨sk.unread ++ (turn S r x sk.id w.wire.sent net.arrive net.down).1, net.back, []⟩ = (.ok q, conn) := g4
    rcases turn_any hok r p x hp hv name args hc net.up ws h2 m w g3 sk.id net.arrive net.down with ⟨x', t1, t2, t3⟩ | ⟨srv, n, ver, t1, t2, t3, t4⟩
    · rw [t1, List.append_nil] at g4
      exact absurd g4 (readResponse_nothing _ _ _ _ _ (hunread.imp id (fun h => h.2)) _ _ _ _)
    · have htail : Tail sk.unread := by
        rcases hunread with h | h
        · exact h
        · rw [t1] at h; cases h.1
      have hverf : ver.Full := by rcases t2 with h | h <;> rw [h] <;> assumption
      generalize hargs : plainItemsWith (carried S.side.cfg (Proxy.chooseBinary p) p.version) args = args' at *
      obtain ⟨out, cbs, a1, alen, afirst, adec⟩ := answer_decodes hok hverf r x.st name args' (ha ver t2)
      have adec := adec []
      rw [a1] at t4
      simp only at t4
      obtain ⟨ms, hms⟩ : ∃ ms, message (serverConf ⟨srv.outType, S.http.useBinary, S.http.keepAlive, srv.chunks, S.custom⟩) out (.init ⟨net.down, []⟩) = ms := ⟨_, rfl⟩
      obtain ⟨ms, w2⟩ := ms
      have hturn : turn S r x sk.id w.wire.sent net.arrive net.down = (w2.wire.sent, ⟨(dispatch r x.st name args').2, srv,
          some (sk.id, if ms = .ok () then (if stop S.http srv (n + 1) then none else some (n + 1)) else none)⟩) := by
        rw [t4]
        unfold send
        rw [hms]
        cases ms <;> rfl
      rw [hturn] at g4
      simp only [hturn]
      rw [t3] at hms
      obtain ⟨k1, k2, k3, k4, k5⟩ := response_cut (-1, -1) C.env.codec.feed C.env.codec.finish p.cfg.keepAlive
        ⟨outOf S, S.http.useBinary, S.http.keepAlive, srv.chunks, S.custom⟩ ⟨hok.custom, fun _ => hok.length⟩ (if S.http.useBinary = true then .binary else .xml)
        (by unfold outOf; cases S.http.useBinary <;> simp) out (by
          unfold LengthOk
          show out.flatten.length < if srv.chunks = true then _ else _
          split <;> omega) afirst net.down ms w2 hms sk.unread htail net.back q conn g4
      obtain ⟨c1, c2⟩ := adec.built q.body k3 k2
      refine ⟨_, _, _, rfl, ⟨⟨fun s hs => ?_, fun i c hs => ?_⟩, rfl, rfl, ?_, rfl, rfl⟩, .inr ⟨rfl, .inr ⟨ver, t2, ?_⟩⟩⟩
      · simp only at hs ⊢
        split at hs
        · cases hs
        · cases hs
          refine ⟨hid, ?_⟩
          rcases k5 with h | ⟨h, h'⟩
          · exact .inl h
          · right
            refine ⟨?_, h'⟩
            unfold State.served
            simp [h]
      · simp only [Option.some.injEq, Prod.mk.injEq] at hs
        simp only
        rw [← hs.1]; exact hid
      · show version C.side .response q.kind q.body = _ ∨ version C.side .response q.kind q.body = _
        rw [k1]
        rcases c1 with h | h
        · exact t2.imp (fun h' => h.trans h') (fun h' => h.trans h')
        · exact .inr h
      · unfold outcome
        simp only [k1]
        revert c2
        cases hd : (dispatch r x.st name args').1 with
        | ok v => intro c2; simp only at c2 ⊢; rw [c2]
        | error e =>
          intro c2
          simp only at c2 ⊢
          obtain ⟨c, m, hw, c2⟩ := c2
          exact ⟨c, m, hw, by rw [c2]⟩


theorem answerExn_state (S : Server) (callbacks : Bool) (name : Bytes) (params : List Value) (ws : List Bytes) (m : Mar) (st : σ) (cbs : List Cb) (e : Exn) :
    (Remote.answerExn S callbacks name params ws m st cbs e).state = st := by
  unfold Remote.answerExn
  split
  · rfl
  · simp only
    split <;> rfl

/-- Answering a call leaves the state that the method left, whatever becomes of the answer. -/
theorem answerCall_state (S : Server) (r : Reg σ) (m : Mar) (st : σ) (name : Bytes) (args : List Value) :
    (answerCall S r m st name args).state = (dispatch r st name args).2 := by
  generalize hd : dispatch r st name args = d
  obtain ⟨d, st'⟩ := d
  unfold answerCall
  cases d with
  | ok v =>
    rw [(processCall_eq r st name _).1 v st' hd]
    simp only
    split
    · rfl
    · exact answerExn_state _ _ _ _ _ _ _ _ _
  | error e =>
    rw [(processCall_eq r st name _).2 e st' hd]
    exact answerExn_state _ _ _ _ _ _ _ _ _

theorem send_state (S : Server) (st : σ) (srv : Srv) (id count : Nat) (custom : HttpHeader.Fields) (ws : List Bytes) (down : List SEv) :
    (send S st srv id count custom ws down).2.st = st := by
  unfold send
  split <;> rfl

end Remote

/-- **C125 (at most once).** One call over any network (bytes lost in either direction at any place, timeouts, failures of system calls, connections that the server has
closed without the proxy seeing it), whatever the method returns or throws and whether or not that can be sent: the method is run once with the caller's arguments, or it is
not run; and if it is not run the call fails: the caller gets no value and no fault. -/
theorem C125_at_most_once {C : Client} {S : Server} (hok : Compatible C S) (r : Reg σ) (p : Proxy.Proxy) (x : State σ) (hl : Joined p x) (hp : ClientOk (Proxy.clientOf p))
    (hv : p.version.Full) (name : Bytes) (args : List Value) (hc : CallTravels C S (Proxy.chooseBinary p) p.version name args) (net : Remote.Net) :
    let q := remoteCall C S r p x name args net
    (q.2.2.st = x.st ∧ q.1 = .failed) ∨
      q.2.2.st = (dispatch r x.st name (plainItemsWith (carried S.side.cfg (Proxy.chooseBinary p) p.version) args)).2 := by
  obtain ⟨sk, made, h1, hid, hmade, hunread⟩ := connect_joined hl net
  have hconn : connection p x net = sk.id := by unfold connection; rw [h1]
  obtain ⟨ws, h2, hlen, -⟩ := call_decodes hok hv hc
  have h2' : Proxy.packCall C.env.strOk C.env.dbl (Proxy.chooseBinary p) p.version name args = (ws, none) := h2
  have hends := Proxy.call_ends C.env p name args (turnWith p x net (fun b => (turn S r x sk.id b net.arrive net.down).1))
  unfold remoteCall
  simp only [hconn]
  generalize hcall : Proxy.call C.env p name args (turnWith p x net (fun b => (turn S r x sk.id b net.arrive net.down).1)) = q at hends
  have hturn : ∀ (m : Except SErr Unit) (w : Writer), message (clientConf (Proxy.clientOf p)) ws (.init ⟨net.up, []⟩) = (m, w) →
      ((turn S r x sk.id w.wire.sent net.arrive net.down).1 = [] ∧ (turn S r x sk.id w.wire.sent net.arrive net.down).2.st = x.st) ∨
      (turn S r x sk.id w.wire.sent net.arrive net.down).2.st = (dispatch r x.st name (plainItemsWith (carried S.side.cfg (Proxy.chooseBinary p) p.version) args)).2 := by
    intro m w hm
    rcases turn_any hok r p x hp hv name args hc net.up ws h2 m w hm sk.id net.arrive net.down with ⟨x', t1, t2, t3⟩ | ⟨srv, n, ver, t1, t2, t3, t4⟩
    · exact .inl ⟨by rw [t1], by rw [t1]; exact t2⟩
    · right
      rw [t4]
      have := answerCall_state S r (marOf S ver) x.st name (plainItemsWith (carried S.side.cfg (Proxy.chooseBinary p) p.version) args)
      split
      · exact this
      · rw [send_state]; exact this
  cases hends with
  | packing ws' e g1 => rw [h2'] at g1; cases g1
  | connect ws' made' g1 g2 => rw [h1] at g2; cases g2
  | sending ws' s made' e w g1 g2 g3 =>
    rw [h2'] at g1; cases g1
    rw [h1] at g2; cases g2
    rcases hturn _ _ g3 with h | h
    · exact .inl ⟨h.2, rfl⟩
    · exact .inr h
  | reading ws' s made' m e w conn g1 g2 g3 g4 =>
    rw [h2'] at g1; cases g1
    rw [h1] at g2; cases g2
    rcases hturn _ _ g3 with h | h
    · exact .inl ⟨h.2, rfl⟩
    · exact .inr h
  | response ws' s made' m q w conn g1 g2 g3 g4 =>
    rw [h2'] at g1; cases g1
    rw [h1] at g2; cases g2
    rcases hturn _ _ g3 with h | h
    · have g4 : readResponse (-1, -1) C.env.codec.feed C.env.codec.finish p.cfg.keepAlive ⟨sk.unread ++ (turn S r x sk.id w.wire.sent net.arrive net.down).1, net.back, []⟩ = (.ok q, conn) := g4
      rw [h.1, List.append_nil] at g4
      exact absurd g4 (readResponse_nothing _ _ _ _ _ (hunread.imp id (fun h => h.2)) _ _ _ _)
    · exact .inr h

/-! ## Sessions -/

/-- What the caller of several calls sees, and the state they leave, when each is run at most once: a call that is lost is not run and fails; of a call that is not heard
of the method is run once, and the call fails; a call that is done gives what the local call gives. -/
inductive Spec.Registry.AtMostOnce (r : Reg σ) : σ → List (Bytes × List Value) → List Rpc.Outcome → σ → Prop
  | nil {st} : AtMostOnce r st [] [] st
  | lost {st st2 name args cs os} : AtMostOnce r st cs os st2 → AtMostOnce r st ((name, args) :: cs) (.failed :: os) st2
  | unheard {st st1 st2 name args cs o os} : dispatch r st name args = (o, st1) → AtMostOnce r st1 cs os st2 →
      AtMostOnce r st ((name, args) :: cs) (.failed :: os) st2
  | done {st st1 st2 name args cs o os} : Spec.Registry.Local r st name args o st1 → AtMostOnce r st1 cs os st2 →
      AtMostOnce r st ((name, args) :: cs) (o :: os) st2

/-- As `StepOk`, for any network. -/
def StepAny (C : Client) (S : Server) (cfg : Proxy.Config) : Step → Prop
  | .call name args _ => ∀ binary ver, Usable cfg.mode binary → Spoken cfg ver →
      CallTravels C S binary ver name args ∧ DatesAllItems (fun d => carried S.side.cfg binary ver d = d) args
  | .addOnce f => FieldOk f
  | .addPermanent f => FieldOk f
  | .deleteHeaders => True

/-- As `ResultsOk`, whichever of the calls are run. -/
def ResultsAny (C : Client) (S : Server) (cfg : Proxy.Config) (r : Reg σ) : σ → List Step → Prop
  | _, [] => True
  | st, .call name args _ :: cs =>
    (∀ ver, Spoken cfg ver → AnswerTravels C S ver (dispatch r st name (plainItemsWith id args)).1 ∧
      ∀ v, (dispatch r st name (plainItemsWith id args)).1 = .ok v → DatesAll (fun d => carried C.side.cfg S.http.useBinary ver d = d) v) ∧
    ResultsAny C S cfg r st cs ∧ ResultsAny C S cfg r (dispatch r st name (plainItemsWith id args)).2 cs
  | st, _ :: cs => ResultsAny C S cfg r st cs

namespace Remote

theorem session_any {C : Client} {S : Server} (hok : Compatible C S) (url : Url.Url) (cfg : Proxy.Config) (hurl : ClientOk (clientFor url cfg.http10 true cfg.keepAlive false []))
    (hv : cfg.version.Full) (r : Reg σ) : ∀ (cs : List Step) (p : Proxy.Proxy) (x : State σ), Ready url cfg p → Joined p x → (∀ c ∈ cs, StepAny C S cfg c) →
      ResultsAny C S cfg r x.st cs → AtMostOnce r x.st (callsOf cs) (session C S r p x cs).1 (session C S r p x cs).2.2.st
  | [], _, _, _, _, _, _ => .nil
  | .addOnce f :: cs, p, x, hr, hl, hs, ho => by
    refine session_any hok url cfg hurl hv r cs { p with once := p.once ++ [f] } x ⟨hr.hurl, hr.hcfg, hr.version, ?_⟩ ⟨hl.clean, hl.last⟩ (fun c hc => hs c (by simp [hc])) ho
    have hf : FieldOk f := hs (.addOnce f) (by simp)
    intro g hg
    simp only [List.mem_append, List.mem_singleton] at hg
    rcases hg with hg | hg | hg
    · exact hr.fields g (by simp [hg])
    · exact hr.fields g (by simp [hg])
    · rw [hg]; exact hf
  | .addPermanent f :: cs, p, x, hr, hl, hs, ho => by
    refine session_any hok url cfg hurl hv r cs { p with permanent := p.permanent ++ [f] } x ⟨hr.hurl, hr.hcfg, hr.version, ?_⟩ ⟨hl.clean, hl.last⟩ (fun c hc => hs c (by simp [hc])) ho
    have hf : FieldOk f := hs (.addPermanent f) (by simp)
    intro g hg
    simp only [List.mem_append, List.mem_singleton] at hg
    rcases hg with (hg | hg) | hg
    · exact hr.fields g (by simp [hg])
    · rw [hg]; exact hf
    · exact hr.fields g (by simp [hg])
  | .deleteHeaders :: cs, p, x, hr, hl, hs, ho =>
    session_any hok url cfg hurl hv r cs { p with once := [], permanent := [] } x ⟨hr.hurl, hr.hcfg, hr.version, by simp⟩ ⟨hl.clean, hl.last⟩ (fun c hc => hs c (by simp [hc])) ho
  | .call name args net :: cs, p, x, hr, hl, hs, ho => by
    have hc : ∀ binary ver, Usable cfg.mode binary → Spoken cfg ver →
      CallTravels C S binary ver name args ∧ DatesAllItems (fun d => carried S.side.cfg binary ver d = d) args := hs (.call name args net) (by simp)
    have hfull : ∀ ver, Spoken cfg ver → ver.Full := by
      rintro ver (h | h)
      · rw [h]; exact hv
      · rw [h]; exact ⟨by unfold Version.Known; decide, by decide⟩
    have hu := chooseBinary_usable p
    rw [hr.hcfg] at hu
    obtain ⟨hc1, hc2⟩ := hc (Proxy.chooseBinary p) p.version hu hr.version
    have hsp : ∀ ver, ver = p.version ∨ ver = ⟨2, 1⟩ → Spoken cfg ver := by
      rintro ver (h | h)
      · rw [h]; exact hr.version
      · exact .inr h
    have hargs : plainItemsWith (carried S.side.cfg (Proxy.chooseBinary p) p.version) args = plainItemsWith id args := plainWith_congrItems _ id args hc2
    have hclient : ClientOk (Proxy.clientOf p) := by
      have h0 : Proxy.clientOf p = { clientFor url cfg.http10 true cfg.keepAlive false [] with binary := Proxy.chooseBinary p, custom := p.permanent ++ p.once } := by
        unfold Proxy.clientOf clientFor; rw [hr.hurl, hr.hcfg]
      rw [h0]
      exact ⟨hurl.path, hurl.host, hr.fields, fun h => absurd h (by simp [clientFor])⟩
    obtain ⟨hres, hrest0, hrest1⟩ := ho
    obtain ⟨o, p', x', h1, h2, h3⟩ := call_any hok r p x hl hclient (hfull _ hr.version) name args hc1 net
      (fun ver hver => by rw [hargs]; exact (hres ver (hsp ver hver)).1)
    rw [hargs] at h3
    have hready : Ready url cfg p' := ⟨h2.hurl.trans hr.hurl, h2.hcfg.trans hr.hcfg, h2.version.elim (fun h => by rw [h]; exact hr.version) .inr, by
      rw [h2.once, h2.permanent, List.append_nil]
      exact fun f hf => hr.fields f (by simp [hf])⟩
    have ih := fun hrest => session_any hok url cfg hurl hv r cs p' x' hready h2.joined (fun c hc => hs c (by simp [hc])) hrest
    simp only [session, h1]
    rcases h3 with ⟨h3, rfl⟩ | ⟨h3, h4⟩
    · refine .lost ?_
      rw [← h3]
      exact ih (by rw [h3]; exact hrest0)
    · have ih := ih (by rw [h3]; exact hrest1)
      generalize hd : dispatch r x.st name (plainItemsWith id args) = d at h3 h4 hres
      obtain ⟨d, st'⟩ := d
      simp only at h3 h4 hres
      subst h3
      rcases h4 with rfl | ⟨ver', hver', h4⟩
      · exact .unheard hd ih
      · refine .done ?_ ih
        cases d with
        | ok v =>
          simp only at h4
          rw [h4, plainWith_congr _ id v ((hres ver' (hsp ver' hver')).2 v rfl)]
          exact .value hd
        | error e =>
          obtain ⟨c, m, hw, h⟩ := h4
          rw [h]
          exact .fault hd hw

end Remote

/-- **C125 (never a wrong answer).** One call over any network: it is not run and fails; or it is run once with the caller's arguments, and the caller gets a failure, or the value
that the method returned (date-times as far as the protocol carries them), or the fault for what it threw. No other value or fault is ever seen, and the proxy is again in a state
from which this holds. -/
theorem C125_never_wrong {C : Client} {S : Server} (hok : Compatible C S) (r : Reg σ) (p : Proxy.Proxy) (x : State σ) (hl : Joined p x) (hp : ClientOk (Proxy.clientOf p))
    (hv : p.version.Full) (name : Bytes) (args : List Value) (hc : CallTravels C S (Proxy.chooseBinary p) p.version name args) (net : Remote.Net)
    (ha : ∀ ver, ver = p.version ∨ ver = ⟨2, 1⟩ →
      AnswerTravels C S ver (dispatch r x.st name (plainItemsWith (carried S.side.cfg (Proxy.chooseBinary p) p.version) args)).1) :
    ∃ o p' x', remoteCall C S r p x name args net = (o, p', x') ∧ Joined p' x' ∧
      ((x'.st = x.st ∧ o = .failed) ∨
       (∃ d, dispatch r x.st name (plainItemsWith (carried S.side.cfg (Proxy.chooseBinary p) p.version) args) = (d, x'.st) ∧ o = .failed) ∨
       (∃ v ver', dispatch r x.st name (plainItemsWith (carried S.side.cfg (Proxy.chooseBinary p) p.version) args) = (.ok v, x'.st) ∧ (ver' = p.version ∨ ver' = ⟨2, 1⟩) ∧
          o = .value (plainWith (carried C.side.cfg S.http.useBinary ver') v)) ∨
       (∃ e c m, dispatch r x.st name (plainItemsWith (carried S.side.cfg (Proxy.chooseBinary p) p.version) args) = (.error e, x'.st) ∧ WireFault e c m ∧
          o = .fault c (if m = [] then asc "No data unmarshalled" else m))) := by
  obtain ⟨o, p', x', h1, h2, h3⟩ := call_any hok r p x hl hp hv name args hc net ha
  refine ⟨o, p', x', h1, h2.joined, ?_⟩
  generalize dispatch r x.st name (plainItemsWith (carried S.side.cfg (Proxy.chooseBinary p) p.version) args) = d at h3
  obtain ⟨d, st'⟩ := d
  rcases h3 with h3 | ⟨h3, h4⟩
  · exact .inl h3
  · simp only at h3 h4
    subst h3
    rcases h4 with rfl | ⟨ver', hver', h4⟩
    · exact .inr (.inl ⟨d, rfl, rfl⟩)
    · cases d with
      | ok v => exact .inr (.inr (.inl ⟨v, ver', rfl, hver', h4⟩))
      | error e =>
        obtain ⟨c, m, hw, h⟩ := h4
        exact .inr (.inr (.inr ⟨e, c, m, rfl, hw, h⟩))

/-- **C125 (a session).** Any number of calls through one proxy, over a network that may do anything to each of them, whatever header fields are set in between: each is run at
most once, in the order of the calls; each gives a failure or what the local call gives at that place; none that was not run gives anything but a failure. -/
theorem C125_session {C : Client} {S : Server} (hok : Compatible C S) (url : Url.Url) (cfg : Proxy.Config)
    (hurl : ClientOk (clientFor url cfg.http10 true cfg.keepAlive false [])) (hv : cfg.version.Full) (r : Reg σ) (st : σ) (srv : Srv) (cs : List Step)
    (hs : ∀ c ∈ cs, StepAny C S cfg c) (ho : ResultsAny C S cfg r st cs) :
    let q := session C S r (Proxy.new url cfg) ⟨st, srv, none⟩ cs
    AtMostOnce r st (callsOf cs) q.1 q.2.2.st :=
  session_any hok url cfg hurl hv r cs (Proxy.new url cfg) ⟨st, srv, none⟩ ⟨rfl, rfl, .inl rfl, by simp [Proxy.new]⟩ ⟨by simp [Proxy.new], by simp⟩ hs ho

namespace Remote

/-- A message of the server that was sent is not empty. -/
theorem send_silent (S : Server) (st : σ) (srv : Srv) (id count : Nat) (custom : HttpHeader.Fields) (ws : List Bytes) (down : List SEv)
    (h : (send S st srv id count custom ws down).1 = []) : (send S st srv id count custom ws down).2.served id = none := by
  unfold send at h ⊢
  generalize hc : serverConf ⟨srv.outType, S.http.useBinary, S.http.keepAlive, srv.chunks, custom⟩ = c at h ⊢
  generalize hm : HttpOut.message c ws (.init ⟨down, []⟩) = q at h ⊢
  obtain ⟨m, w⟩ := q
  cases m with
  | error e => simp [State.served]
  | ok u =>
    exfalso
    simp only at h
    have hne : ∀ n, c.head n ≠ [] := by
      intro n e
      rw [← hc] at e
      have := congrArg List.length e
      simp only [serverConf, serverHead, List.length_append, List.length_nil] at this
      have h2 : (asc "\r\n").length = 2 := by decide +kernel
      omega
    by_cases hch : c.chunks = true
    · have hH : ∀ n, c.head n = c.head 0 := by
        intro n
        rw [← hc] at hch ⊢
        exact serverHead_const _ hch n
      obtain ⟨p, -, h2, h3⟩ := message_chunks c hch (c.head 0) hH ws (.init ⟨down, []⟩) _ _ hm
      rw [h2, h3 rfl] at h
      simp only [Writer.init, List.nil_append] at h
      have : ∀ (ws : List Bytes) (back : Bytes), chunkStream (c.head 0) ws back false ≠ [] := by
        intro ws
        induction ws with
        | nil =>
          intro back e
          simp [chunkStream, hne] at e
        | cons d ws ih =>
          intro back e
          unfold chunkStream at e
          split at e
          · simp [hne] at e
          · exact ih _ e
      exact this ws [] h
    · obtain ⟨p, -, h2, h3⟩ := message_plain c (by simpa using hch) ws ⟨down, []⟩ _ _ hm
      rw [h2, h3 rfl] at h
      simp only [List.nil_append, List.append_eq_nil_iff] at h
      exact hne _ h.1

end Remote

/-- **C125 (no silence).** Whatever arrives at the server: if it sends nothing it closes the connection, so the client that waits for an answer is told. -/
theorem C125_silent (S : Server) (r : Reg σ) (x : State σ) (id : Nat) (got : Bytes) (arrive : List Ev) (down : List SEv)
    (h : (turn S r x id got arrive down).1 = []) : (turn S r x id got arrive down).2.served id = none := by
  have http : ∀ code reason, httpError S code reason ≠ [] := by
    intro code reason e
    have := congrArg List.length e
    have h2 : (asc "HTTP/1.1 ").length = 9 := by decide +kernel
    simp only [httpError, List.length_append, List.length_nil] at this
    omega
  unfold turn at h ⊢
  cases hs : x.served id with
  | none => exact hs
  | some n =>
    simp only [hs] at h ⊢
    generalize readRequest S.env x.srv ⟨got, arrive, []⟩ = q at h ⊢
    obtain ⟨q, srv, s'⟩ := q
    cases q with
    | ok q =>
      cases q with
      | none => simp [State.served]
      | some q =>
        simp only at h ⊢
        split at h
        · next params hd =>
          generalize Mar.new srv.outType (version S.side .call q.kind q.body) = m at h ⊢
          cases m with
          | none => simp [State.served]
          | some m =>
            simp only at h ⊢
            generalize answerCall S r m x.st (built S.side .call q.path q.kind q.body).methodName params = a at h ⊢
            cases ht : a.thrown with
            | some e => simp [State.served]
            | none =>
              simp only [ht] at h ⊢
              exact send_silent S _ _ _ _ _ _ _ h
        · exact absurd h (http _ _)
    | error e =>
      cases e with
      | stream =>
        simp only at h ⊢
        generalize Mar.new srv.outType ⟨2, 1⟩ = m at h ⊢
        cases m with
        | none => simp [State.served]
        | some m =>
          simp only at h ⊢
          generalize m.packAll S.side.cfg.strOk S.dbl [.packFault PARSE_ERROR (Registry.cstr (S.txt .stream))] = f at h ⊢
          obtain ⟨ws, m', e⟩ := f
          cases e with
          | some e => simp [State.served]
          | none => exact send_silent S _ _ _ _ _ _ _ h
      | http code => exact absurd h (http _ _)
      | io e => simp [State.served]
      | other e => simp [State.served]
      | noRequest => simp [State.served]

/-! ## Witnesses -/

/-- The request is cut after nine bytes. -/
def lostNet : Remote.Net := { quickNet with up := [⟨false, .sent 9⟩, ⟨false, .timeout⟩] }

/-- The answer does not come in time. -/
def unheardNet : Remote.Net := { quickNet with back := [.bytes 8, .timeout] }

/-- The server cannot send more than nine bytes of the answer. -/
def cutNet : Remote.Net := { quickNet with down := [⟨false, .sent 9⟩, ⟨false, .fail⟩] }

/-- Five calls over a network that fails in different ways. -/
def anySteps : List Step :=
  [.call (asc "add") [.int 1] quickNet, .call (asc "add") [.int 1] lostNet, .call (asc "add") [.int 1] unheardNet, .call (asc "add") [.int 1] cutNet, .call (asc "get") [] quickNet]

theorem step_add (b : Bool) (net : Remote.Net) : StepAny exampleRemoteClient (exampleServer b) exampleRemoteCfg (.call (asc "add") [.int 1] net) := by
  have hx : ∀ t : Bytes, (∀ c ∈ t, (c.toNat < 128 ∧ Spec.isXmlChar c.toNat = true) ∧ c ≠ 13) → Spec.Xml.IsXmlText t ∧ (13 : UInt8) ∉ t :=
    fun t ht => ⟨XmlMarshaller.xmlText_ascii (fun c hc => (ht c hc).1), fun hc => (ht _ hc).2 rfl⟩
  intro binary ver _ hver
  have hver : ver = ⟨2, 1⟩ := hver.elim id id
  subst hver
  refine ⟨⟨by simp [HeldItems, Held, IsI64], by simp [SmallItems, Small], ?_⟩, by simp [DatesAllItems, DatesAll]⟩
  cases binary with
  | true => exact ⟨_, rfl, by decide +kernel⟩
  | false =>
    refine ⟨⟨by decide +kernel, hx _ (by decide +kernel), ⟨⟨⟨by decide, by decide⟩, by decide, fun _ => by decide⟩, trivial⟩⟩, by simp [StringsAllItems, StringsAll], ?_⟩
    exact example_length _ _ _ (by decide +kernel)

theorem step_get (b : Bool) (net : Remote.Net) : StepAny exampleRemoteClient (exampleServer b) exampleRemoteCfg (.call (asc "get") [] net) := by
  have hx : ∀ t : Bytes, (∀ c ∈ t, (c.toNat < 128 ∧ Spec.isXmlChar c.toNat = true) ∧ c ≠ 13) → Spec.Xml.IsXmlText t ∧ (13 : UInt8) ∉ t :=
    fun t ht => ⟨XmlMarshaller.xmlText_ascii (fun c hc => (ht c hc).1), fun hc => (ht _ hc).2 rfl⟩
  intro binary ver _ hver
  have hver : ver = ⟨2, 1⟩ := hver.elim id id
  subst hver
  refine ⟨⟨by simp [HeldItems], by simp [SmallItems], ?_⟩, by simp [DatesAllItems]⟩
  cases binary with
  | true => exact ⟨_, rfl, by decide +kernel⟩
  | false =>
    refine ⟨⟨by decide +kernel, hx _ (by decide +kernel), trivial⟩, by simp [StringsAllItems], ?_⟩
    exact example_length _ _ _ (by decide +kernel)

example (b : Bool) : ∀ c ∈ anySteps, StepAny exampleRemoteClient (exampleServer b) exampleRemoteCfg c := by
  intro c hc
  simp only [anySteps, List.mem_cons, List.not_mem_nil, or_false] at hc
  rcases hc with rfl | rfl | rfl | rfl | rfl
  · exact step_add b _
  · exact step_add b _
  · exact step_add b _
  · exact step_add b _
  · exact step_get b _

theorem results_add (b : Bool) (st : Nat) (ver : Version) (hver : Spoken exampleRemoteCfg ver) :
    AnswerTravels exampleRemoteClient (exampleServer b) ver (dispatch (Registry.built false true sampleOps) st (asc "add") (plainItemsWith id [.int 1])).1 ∧
      ∀ v, (dispatch (Registry.built false true sampleOps) st (asc "add") (plainItemsWith id [.int 1])).1 = .ok v →
        DatesAll (fun d => carried exampleRemoteClient.side.cfg (exampleServer b).http.useBinary ver d = d) v := by
  have hver : ver = ⟨2, 1⟩ := hver.elim id id
  subst hver
  refine ⟨?_, ?_⟩
  · show AnswerTravels _ _ _ (.ok (.int 1))
    refine ⟨by simp [Held, IsI64], by simp [Small], ?_⟩
    cases b with
    | true => exact ⟨_, rfl, by decide +kernel⟩
    | false => exact ⟨⟨⟨by decide, by decide⟩, by decide, by decide⟩, by simp [StringsAll], example_length _ _ _ (by decide +kernel)⟩
  · intro v hv
    have : v = .int 1 := by cases hv; rfl
    subst this
    simp [DatesAll]

theorem results_get (b : Bool) (st : Nat) (ver : Version) (hver : Spoken exampleRemoteCfg ver) :
    AnswerTravels exampleRemoteClient (exampleServer b) ver (dispatch (Registry.built false true sampleOps) st (asc "get") (plainItemsWith id [])).1 ∧
      ∀ v, (dispatch (Registry.built false true sampleOps) st (asc "get") (plainItemsWith id [])).1 = .ok v →
        DatesAll (fun d => carried exampleRemoteClient.side.cfg (exampleServer b).http.useBinary ver d = d) v := by
  have hx : ∀ t : Bytes, (∀ c ∈ t, (c.toNat < 128 ∧ Spec.isXmlChar c.toNat = true) ∧ c ≠ 13) → Spec.Xml.IsXmlText t ∧ (13 : UInt8) ∉ t :=
    fun t ht => ⟨XmlMarshaller.xmlText_ascii (fun c hc => (ht c hc).1), fun hc => (ht _ hc).2 rfl⟩
  have hver : ver = ⟨2, 1⟩ := hver.elim id id
  subst hver
  refine ⟨?_, ?_⟩
  · show AnswerTravels _ _ _ (.error (.index (asc "no")))
    refine ⟨_, _, .index _, by unfold IsI32; omega, ?_⟩
    cases b with
    | true => exact ⟨by decide +kernel, rfl, by intro ws hw; cases hw; decide +kernel⟩
    | false =>
      obtain ⟨h1, h2⟩ := hx (visible (asc "no")) (by decide +kernel)
      exact ⟨h1, h2, example_length _ _ _ (by decide +kernel)⟩
  · intro v hv
    cases hv

example (b : Bool) (st : Nat) : ResultsAny exampleRemoteClient (exampleServer b) exampleRemoteCfg (Registry.built false true sampleOps) st anySteps := by
  have h0 : ∀ st, ResultsAny exampleRemoteClient (exampleServer b) exampleRemoteCfg (Registry.built false true sampleOps) st [.call (asc "get") [] quickNet] :=
    fun st => ⟨results_get b st, trivial, trivial⟩
  have h1 : ∀ net cs, (∀ st, ResultsAny exampleRemoteClient (exampleServer b) exampleRemoteCfg (Registry.built false true sampleOps) st cs) →
      ∀ st, ResultsAny exampleRemoteClient (exampleServer b) exampleRemoteCfg (Registry.built false true sampleOps) st (.call (asc "add") [.int 1] net :: cs) :=
    fun net cs h st => ⟨results_add b st, h _, h _⟩
  exact h1 _ _ (h1 _ _ (h1 _ _ (h1 _ _ h0))) st

/-- The first call is done; the second is lost; the third and the fourth are run and not heard of; the last is done. -/
example : ((session exampleRemoteClient (exampleServer true) (Registry.built false true sampleOps) (Proxy.new exampleUrl exampleRemoteCfg) ⟨7, ⟨.xml, false, false, false⟩, none⟩ anySteps).1.map kindOf,
    (session exampleRemoteClient (exampleServer true) (Registry.built false true sampleOps) (Proxy.new exampleUrl exampleRemoteCfg) ⟨7, ⟨.xml, false, false, false⟩, none⟩ anySteps).2.2.st) =
    ([0, 2, 2, 2, 1], 10) := by
  decide +kernel

example : Joined (Proxy.new exampleUrl exampleRemoteCfg) (⟨7, ⟨.xml, false, false, false⟩, none⟩ : State Nat) := ⟨by simp [Proxy.new], by simp⟩

/-- A request that is cut is not answered. -/
example : (turn (exampleServer true) (Registry.built false true sampleOps) (⟨7, ⟨.xml, false, false, false⟩, none⟩ : State Nat) 3 (asc "POST /RPC2") [.bytes 4, .timeout] []).1 = [] := by decide +kernel

end Frpc
