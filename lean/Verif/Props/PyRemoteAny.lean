import Verif.Props.PyRemote
import Verif.Proofs.PyCut
/-!
# The Python client and the Python server over any network: C129
-/
namespace Frpc
open HttpIO HttpOut HttpServer Spec Spec.Http Spec.Web Spec.Proxy Spec.XmlRpc Remote
open PyServer (Reg World)
open Python (Py PB)
open PyProxy (Outcome Raised)
open Spec.Python (shows showsItems Loadable LoadableItems)
variable {σ τ : Type}

/-- The caller gets no answer: neither an object nor a fault. -/
def PyFailed (o : Outcome) : Prop := (∀ v, o ≠ .value v) ∧ ∀ c m, o ≠ .raised (.fault c m)

/-- The call is run, once, after the hook before requests: it returns, and what user functions have added to the header is taken; or it ends the process. -/
inductive PyRunOnce (S : PyWeb.Conf σ) (r : Reg σ) (w : World σ) (name : Bytes) (args : List Py) : World σ → Prop
  | returned {w0 w1 v pre} : PreRead S r w w0 pre → PyServer.dispatch S.py r w0 name S.client (.ok (.tuple args)) = (.obj v, w1) →
      PyRunOnce S r w name args { w1 with user := (S.added w1.user).2 }
  | ended {w0 w1 ret pre} : PreRead S r w w0 pre → PyServer.dispatch S.py r w0 name S.client (.ok (.tuple args)) = (ret, w1) → (∀ v, ret ≠ .obj v) →
      PyRunOnce S r w name args w1

/-- What is known of the connection that the proxy keeps, over any network: at most the end of a last line is unread on it, and if that end was cut the server has closed the
connection; the header fields that the server has kept are proper. -/
structure PyJoined (p : Proxy.Proxy) (x : PyRemote.State σ) : Prop where
  clean : ∀ s, p.sock = some s → s.id < p.made ∧ (Tail s.unread ∨ (x.served s.id = none ∧ s.unread <+: crlf))
  last : ∀ i c, x.last = some (i, c) → i < p.made
  fields : ∃ left, (∀ f ∈ left, Spec.PyWeb.MayAdd f) ∧ x.live.out = PyWeb.polished left

namespace PyRemote

theorem connect_any {p : Proxy.Proxy} {x : State σ} (h : PyJoined p x) (net : Remote.Net) :
    (∃ made, (∀ reply, Proxy.connectSocket p (turnWith p x net reply) = (none, made)) ∧ p.made ≤ made) ∨
    ∃ s made, (∀ reply, Proxy.connectSocket p (turnWith p x net reply) = (some s, made)) ∧ s.id < made ∧ p.made ≤ made ∧
      (Tail s.unread ∨ (x.served s.id = none ∧ s.unread <+: crlf)) := by
  unfold Proxy.connectSocket turnWith
  simp only [List.append_nil]
  have fresh : (∃ made, (∀ _ : Bytes → Bytes, ((if (!x.dead) = true then (some ⟨p.made, []⟩, p.made + 1) else (none, p.made)) : Option Proxy.Sock × Nat) = (none, made)) ∧ p.made ≤ made) ∨
      ∃ s made, (∀ _ : Bytes → Bytes, ((if (!x.dead) = true then (some ⟨p.made, []⟩, p.made + 1) else (none, p.made)) : Option Proxy.Sock × Nat) = (some s, made)) ∧
      s.id < made ∧ p.made ≤ made ∧ (Tail s.unread ∨ (x.served s.id = none ∧ s.unread <+: crlf)) := by
    cases x.dead
    · exact .inr ⟨⟨p.made, []⟩, p.made + 1, fun _ => rfl, Nat.lt_succ_self _, Nat.le_succ _, .inl (.inl rfl)⟩
    · exact .inl ⟨_, fun _ => rfl, Nat.le_refl _⟩
  cases hs : p.sock with
  | none => exact fresh
  | some s =>
    obtain ⟨h1, h2⟩ := h.clean s hs
    simp only
    by_cases hk : p.cfg.keepAlive = false
    · simp only [if_pos hk]; exact fresh
    · simp only [if_neg hk]
      by_cases hb : net.broken = true
      · simp only [if_pos hb]; exact fresh
      · simp only [if_neg hb]
        by_cases hc : s.unread = [] ∧ (net.lost || !net.late && goneBy p x) = true
        · simp only [if_pos hc]; exact fresh
        · simp only [if_neg hc]; exact .inr ⟨s, p.made, fun _ => rfl, h1, Nat.le_refl _, h2⟩

/-- What a call that can be marshalled comes to, whatever the network does. -/
theorem call_any {C : PyProxy.Conf τ} {p : PyProxy.State τ} (hv : p.px.version.Full) {name : Bytes} {args : List Py} {vs : List Value}
    (hn : (0 : UInt8) ∉ name) (hme : Spec.Python.meansItems args = some vs) (hsm : Spec.Python.SmallItems args ∧ args.length < 2 ^ 30) {ws : List Bytes}
    (hpack : Proxy.packCall C.strOk C.dbl (Proxy.chooseBinary p.px) p.px.version name vs = (ws, none)) (t : Proxy.Turn) :
    ∃ user' : Outcome → τ, PyProxy.call C p name args t =
      match Proxy.connectSocket p.px t with
      | (none, made) => (.raised (.protocol none), ⟨{ p.px with once := [], sock := none, made := made }, name, user' (.raised (.protocol none))⟩, none)
      | (some s, made) =>
        let r := PyProxy.afterSend C { p.px with once := [], made := made } s (message (clientConf (PyProxy.clientOf C p.px)) ws (.init ⟨t.up, []⟩)) none t
        (r.1, ⟨r.2.1, name, user' r.1⟩, r.2.2) := by
  obtain ⟨m, ws', k, p1, p2, p3, p4⟩ := PyProxy.pack_call C hv hpack
  refine ⟨fun o => PyProxy.runPost C (PyProxy.runPre C p.user name args).2 name args (PyProxy.runPre C p.user name args).1 o, ?_⟩
  unfold PyProxy.call
  simp only [p1, PyProxy.script_means C hn hme hsm.1 hsm.2, p2, PyProxy.failure, Option.isSome_none, Bool.false_eq_true, if_false, p3]
  unfold PyProxy.exchange
  simp only [Option.isSome_none, Bool.false_eq_true, if_false]
  have e : Proxy.connectSocket { p.px with once := [] } t = Proxy.connectSocket p.px t := rfl
  rw [e]
  generalize Proxy.connectSocket p.px t = q
  obtain ⟨s, made⟩ := q
  cases s <;> rfl

theorem failed_err (e : Err) : PyFailed (PyProxy.ofErr e) := by cases e <;> exact ⟨fun v h => (by cases h), fun c m h => (by cases h)⟩

theorem failed_send (e : SErr) : PyFailed (PyProxy.ofSErr e) := by cases e <;> exact ⟨fun v h => (by cases h), fun c m h => (by cases h)⟩

theorem failed_read (e : RespErr) : PyFailed (PyProxy.ofRespErr e) := by
  cases e with
  | other e => exact failed_err e
  | io e => cases e <;> exact ⟨fun v h => (by cases h), fun c m h => (by cases h)⟩
  | http s r => exact ⟨fun v h => (by cases h), fun c m h => (by cases h)⟩
  | stream => exact ⟨fun v h => (by cases h), fun c m h => (by cases h)⟩

/-- What becomes of a call on a connection: it fails, or a response is read. -/
theorem afterSend_any (C : PyProxy.Conf τ) (p : Proxy.Proxy) (s : Proxy.Sock) (m : Except SErr Unit × Writer) (t : Proxy.Turn) :
    (∃ o, PyFailed o ∧ PyProxy.afterSend C p s m none t = (o, { p with sock := none }, some (s.id, m.2.wire.sent))) ∨
    (∃ r conn early, readResponse (-1, -1) (PyProxy.feed C) (PyProxy.finish C) p.cfg.keepAlive ⟨s.unread ++ t.reply m.2.wire.sent, t.back, []⟩ = (.ok r, conn) ∧
      PyProxy.afterSend C p s m none t = (PyProxy.ofBuilder (PyProxy.built C r.kind r.body),
        { p with sock := if r.close || early then none else some ⟨s.id, conn.data⟩, supports := r.accepts.getD (true, false), version := PyProxy.version C r.kind r.body },
        some (s.id, m.2.wire.sent))) := by
  obtain ⟨m, w⟩ := m
  have hread : ∀ early : Bool, (∃ o, PyFailed o ∧ (match readResponse (-1, -1) (PyProxy.feed C) (PyProxy.finish C) p.cfg.keepAlive ⟨s.unread ++ t.reply w.wire.sent, t.back, []⟩ with
      | (.error e, _) => (PyProxy.ofRespErr e, { p with sock := none }, some (s.id, w.wire.sent))
      | (.ok r, conn) =>
        (PyProxy.ofBuilder (PyProxy.built C r.kind r.body),
         { p with sock := if r.close || early then none else some ⟨s.id, conn.data⟩, supports := r.accepts.getD (true, false), version := PyProxy.version C r.kind r.body },
         some (s.id, w.wire.sent))) = (o, { p with sock := none }, some (s.id, w.wire.sent))) ∨
    (∃ r conn, readResponse (-1, -1) (PyProxy.feed C) (PyProxy.finish C) p.cfg.keepAlive ⟨s.unread ++ t.reply w.wire.sent, t.back, []⟩ = (.ok r, conn) ∧
      (match readResponse (-1, -1) (PyProxy.feed C) (PyProxy.finish C) p.cfg.keepAlive ⟨s.unread ++ t.reply w.wire.sent, t.back, []⟩ with
      | (.error e, _) => (PyProxy.ofRespErr e, { p with sock := none }, some (s.id, w.wire.sent))
      | (.ok r, conn) =>
        (PyProxy.ofBuilder (PyProxy.built C r.kind r.body),
         { p with sock := if r.close || early then none else some ⟨s.id, conn.data⟩, supports := r.accepts.getD (true, false), version := PyProxy.version C r.kind r.body },
         some (s.id, w.wire.sent))) = (PyProxy.ofBuilder (PyProxy.built C r.kind r.body),
        { p with sock := if r.close || early then none else some ⟨s.id, conn.data⟩, supports := r.accepts.getD (true, false), version := PyProxy.version C r.kind r.body },
        some (s.id, w.wire.sent))) := by
    intro early
    generalize readResponse (-1, -1) (PyProxy.feed C) (PyProxy.finish C) p.cfg.keepAlive ⟨s.unread ++ t.reply w.wire.sent, t.back, []⟩ = q
    obtain ⟨q, conn⟩ := q
    cases q with
    | error e => exact .inl ⟨_, failed_read e, rfl⟩
    | ok r => exact .inr ⟨r, conn, rfl, rfl⟩
  unfold PyProxy.afterSend
  cases m with
  | ok u =>
    rcases hread false with h | ⟨r, conn, h1, h2⟩
    · exact .inl h
    · exact .inr ⟨r, conn, false, h1, h2⟩
  | error e =>
    cases e with
    | response =>
      rcases hread true with h | ⟨r, conn, h1, h2⟩
      · exact .inl h
      · exact .inr ⟨r, conn, true, h1, h2⟩
    | _ => exact .inl ⟨_, failed_send _, rfl⟩

/-- Answering changes nothing but the header fields that are kept. -/
theorem answer_live (S : PyWeb.Conf σ) (a : PyWeb.At σ) (m : Mar) (v : Py) :
    (PyWeb.answer S a m v).1.live.world = a.live.world ∧ ((PyWeb.answer S a m v).1.live.out = a.live.out ∨ (PyWeb.answer S a m v).1.live.out = []) := by
  have hafter : ∀ (a : PyWeb.At σ) w, (PyWeb.after a w).live.world = a.live.world ∧ ((PyWeb.after a w).live.out = a.live.out ∨ (PyWeb.after a w).live.out = []) := by
    intro a w
    unfold PyWeb.after
    refine ⟨rfl, ?_⟩
    simp only
    split
    · exact .inr rfl
    · exact .inl rfl
  have hun : ∀ (a : PyWeb.At σ) ws, (PyWeb.unfinished S a ws).1.live.world = a.live.world ∧ ((PyWeb.unfinished S a ws).1.live.out = a.live.out ∨ (PyWeb.unfinished S a ws).1.live.out = []) := by
    intro a ws
    unfold PyWeb.unfinished
    split <;> exact hafter a _
  have hhttp : ∀ (a : PyWeb.At σ) c t, (PyWeb.failHttp a c t).1.live = a.live := by
    intro a c t
    unfold PyWeb.failHttp
    split <;> rfl
  unfold PyWeb.answer
  split
  · next ws _ e _ =>
    have := hun a ws
    generalize PyWeb.unfinished S a ws = q at this
    obtain ⟨a', b⟩ := q
    cases b <;> exact this
  · next ws m' _ =>
    split
    · unfold PyWeb.respond
      split <;> exact hafter a _
    · next x _ =>
      have := hun a ws
      generalize PyWeb.unfinished S a ws = q at this
      obtain ⟨a', b⟩ := q
      cases b with
      | false => exact this
      | true => simp only [hhttp]; exact this

/-- What is sent of a message of the client is a beginning of its header and its body, plain or in chunks. -/
theorem sent_framed (c : ClientCfg) (ws : List Bytes) (hlen : ws.flatten.length < 2 ^ 32) (hfirst : FirstWrite ws) (up : List SEv) (m : Except SErr Unit) (w : Writer)
    (hm : message (clientConf c) ws (.init ⟨up, []⟩) = (m, w)) :
    ∃ total text lost, w.wire.sent ++ lost = clientHead c total ++ text ∧ (c.chunks = false → total = ws.flatten.length ∧ text = ws.flatten) ∧
      (c.chunks = true → ∃ ps, text = chunked ps ∧ (∀ p ∈ ps, p ≠ []) ∧ ps.flatten = ws.flatten) := by
  cases hcc : c.chunks with
  | false =>
    obtain ⟨pp, ⟨lost, hpp⟩, hsent, -⟩ := message_plain (clientConf c) hcc ws ⟨up, []⟩ m w hm
    rw [List.nil_append] at hsent
    rw [Nat.mod_eq_of_lt hlen] at hpp
    exact ⟨ws.flatten.length, ws.flatten, lost, by rw [hsent]; exact hpp, fun _ => ⟨rfl, rfl⟩, by simp⟩
  | true =>
    obtain ⟨d, ds', rfl, hd1, hd2⟩ := hfirst
    obtain ⟨ps, g1, g2, g3⟩ := chunkStream_eq (clientHead c 0) ds' d false hd1
    have := message_chunks (clientConf c) hcc (clientHead c 0) (fun n => clientHead_const _ hcc n) _ _ _ _ hm
    simp only [Writer.init] at this
    rw [chunkStream_first _ _ _ hd2, g1] at this
    obtain ⟨pp, ⟨lost, hpp⟩, hsent, -⟩ := this
    rw [List.nil_append] at hsent
    exact ⟨0, chunked ps, lost, by rw [hsent]; simpa using hpp, by simp, fun _ => ⟨ps, rfl, g2, by rw [g3]; simp⟩⟩

/-- What the server makes of the bytes of a request of any client that were sent: nothing, and it sends nothing; or the call. -/
theorem turn_heard {S : PyWeb.Conf σ} {r : Reg σ} (hconf : Spec.Xml.Conforms S.parser) (hopts : Python.Plain S.opts)
    (hook : ∀ f, r.preRead = some f → ∀ st, ∀ g ∈ (S.added (f st []).2).1, Spec.PyWeb.MayAdd g) (x : State σ)
    (hfields : ∃ left, (∀ f ∈ left, Spec.PyWeb.MayAdd f) ∧ x.live.out = PyWeb.polished left) (c : ClientCfg) (hp : ClientOk c) (ver0 : Version) (hv : ver0.Full) (name : Bytes)
    (hname : (0 : UInt8) ∉ name) (args' : List Py) (up : List SEv) (ws : List Bytes) (hlen : ws.flatten.length < 2 ^ 32) (hfirst : FirstWrite ws)
    (hcar : PyCarries S (if c.binary then .binary else .xml) ws.flatten name args' ver0) (m : Except SErr Unit) (w : Writer)
    (hm : message (clientConf c) ws (.init ⟨up, []⟩) = (m, w)) (id : Nat) (arrive : List Ev) (down : List SEv) :
    ∃ w0, PyHooked S r x.live.world w0 ∧
    ((∃ x', turn S r x id w.wire.sent arrive down = ([], x') ∧ PyHooked S r w0 x'.live.world ∧ (x' = x ∨ ∃ c, x'.last = some (id, c)) ∧
        ∃ left, (∀ f ∈ left, Spec.PyWeb.MayAdd f) ∧ x'.live.out = PyWeb.polished left) ∨
     (∃ n w1 pre left mar conn srv ver, x.served id = some n ∧ PreRead S r w0 w1 pre ∧ (∀ f ∈ left ++ pre, Spec.PyWeb.MayAdd f) ∧
        Mar.new (pyOut S) ver = some mar ∧ (ver = ver0 ∨ ver = ⟨2, 1⟩) ∧ srv.outType = pyOut S ∧
        srv.chunks = (!c.http10 && decide (srv.outType = .binary)) ∧
        turn S r x id w.wire.sent arrive down = afterTurn S id n
          (match PyServer.dispatch S.py r w1 name S.client (.ok (.tuple args')) with
          | (.obj v, w2) => PyWeb.answer S ⟨PyWeb.take S ⟨w1, srv, PyWeb.polished (left ++ pre), ver⟩ w2, conn, ⟨down, []⟩⟩ mar v
          | (.fuel, w2) => (⟨⟨w2, srv, PyWeb.polished (left ++ pre), ver⟩, conn, ⟨down, []⟩⟩, .stop .fuel)
          | (_, w2) => (⟨⟨w2, srv, PyWeb.polished (left ++ pre), ver⟩, conn, ⟨down, []⟩⟩, .stop .crash)))) := by
  obtain ⟨hu, -⟩ := PyWeb.carries_understood hopts hconf hcar
  obtain ⟨hhook, left, hleft, hout⟩ := ready_hooked hook x id hfields
  cases hserved : x.served id with
  | none =>
    refine ⟨_, .no, .inl ⟨x, ?_, .no, .inl rfl, hfields⟩⟩
    unfold turn
    rw [hserved]
  | some n =>
    refine ⟨_, hhook, ?_⟩
    have hturn : turn S r x id w.wire.sent arrive down = afterTurn S id n (PyWeb.turn S r ⟨ready S r x id, ⟨w.wire.sent, arrive, []⟩, ⟨down, []⟩⟩) := by
      unfold turn
      rw [hserved]
    rw [hturn]
    generalize ready S r x id = l at hhook hout ⊢
    -- the hook
    have hpre : (∃ e, PyWeb.turn S r ⟨l, ⟨w.wire.sent, arrive, []⟩, ⟨down, []⟩⟩ = (e, .stop .raised) ∧ e.wire = ⟨down, []⟩ ∧ PyHooked S r l.world e.live.world ∧
          ∃ left, (∀ f ∈ left, Spec.PyWeb.MayAdd f) ∧ e.live.out = PyWeb.polished left) ∨
        (∃ w1 pre, PreRead S r l.world w1 pre ∧ PyHooked S r l.world w1 ∧ ∀ f ∈ pre, Spec.PyWeb.MayAdd f) := by
      cases hpr : r.preRead with
      | none => exact .inr ⟨_, _, .no hpr, .no, by simp⟩
      | some f =>
        generalize hf : f l.world.user [] = q
        obtain ⟨q, st⟩ := q
        have hm := hook f hpr l.world.user
        have hyes : PyHooked S r l.world { l.world with user := (S.added (f l.world.user []).2).2 } := .yes hpr
        rw [hf] at hm hyes
        cases q with
        | ok v => exact .inr ⟨_, _, .yes hpr hf, hyes, hm⟩
        | error e =>
          left
          refine ⟨⟨PyWeb.take S l { l.world with user := st }, ⟨w.wire.sent, arrive, []⟩, ⟨down, []⟩⟩, ?_, rfl, hyes, left ++ (S.added st).1, ?_, ?_⟩
          · unfold PyWeb.turn
            simp only [hpr, hf]
          · intro g hg
            exact (List.mem_append.1 hg).elim (hleft g) (hm g)
          · unfold PyWeb.take
            simp only [PyWeb.added_polished, hout]
            simp [PyWeb.polished]
    rcases hpre with ⟨e, h1, h2, h3, h4⟩ | ⟨w1, pre, hpre, hh, hmp⟩
    · left
      rw [h1]
      refine ⟨⟨e.live, some (id, none), false⟩, ?_, h3, .inr ⟨_, rfl⟩, h4⟩
      simp only [afterTurn, h2]
      rfl
    · rw [PyWeb.turn_pre S r _ hpre]
      have hall : ∀ f ∈ left ++ pre, Spec.PyWeb.MayAdd f := fun f hf => (List.mem_append.1 hf).elim (hleft f) (hmp f)
      have hpol : l.out ++ PyWeb.polished pre = PyWeb.polished (left ++ pre) := by
        rw [hout]; simp [PyWeb.polished]
      simp only [hpol]
      -- the bytes
      obtain ⟨total, text, lost, hd, hpl, hch⟩ := sent_framed c ws hlen hfirst up m w hm
      have hheard := PyWeb.read_cut S l.srv c hp total ws.flatten text lost hpl hch ⟨w.wire.sent, arrive, []⟩ hd (by omega) hu.feed hu.finish
      rcases hheard with ⟨qs, srv, s, g1, g2, g3, g4, g5, g6⟩ | ⟨e, srv, s, g1, g2, g3⟩
      · right
        obtain ⟨b1, b2, b3, b4⟩ := hu.built qs g3 g2
        have hverf : (PyWeb.version S (if c.binary = true then HttpServer.Kind.binary else .xml) qs).Full := by
          rcases b4 with h | h <;> rw [h]
          · exact hv
          · exact Web.full21
        have hmar : ∃ mar, Mar.new (pyOut S) (PyWeb.version S (if c.binary = true then HttpServer.Kind.binary else .xml) qs) = some mar := by
          have a := accepts_full hverf
          unfold pyOut
          cases S.useBinary
          · exact ⟨_, by simp [Mar.new, a.2]; rfl⟩
          · exact ⟨_, by simp [Mar.new, a.1]; rfl⟩
        obtain ⟨mar, hmar⟩ := hmar
        have hot : srv.outType = pyOut S := g4
        refine ⟨n, w1, pre, left, mar, s, srv, _, rfl, hpre, hall, hmar, b4, hot, ?_, ?_⟩
        · have g6 : srv.chunks = (S.useBinary && !c.http10) := g6
          rw [g6, hot]
          unfold pyOut
          cases S.useBinary <;> cases c.http10 <;> rfl
        · unfold PyWeb.readTurn
          simp only [g1]
          unfold PyWeb.callTurn
          have hnn : (PyWeb.isNone (Python.seen (PyWeb.built S (if c.binary = true then HttpServer.Kind.binary else .xml) qs))) = false := by rw [b3]; rfl
          have hpar : PyWeb.params S (PyWeb.built S (if c.binary = true then HttpServer.Kind.binary else .xml) qs) = .ok (.tuple args') := by
            unfold PyWeb.params
            simp only [b1, b3, Python.toTuple]
          simp only [hot, hmar, hnn, Bool.and_false, Bool.false_eq_true, if_false, b2, PyServer.cstr_eq hname, hpar]
          generalize PyServer.dispatch S.py r w1 name S.client (.ok (.tuple args')) = d
          obtain ⟨d, w2⟩ := d
          cases d <;> rfl
      · left
        unfold PyWeb.readTurn
        simp only [g1]
        cases e with
        | stream => exact absurd rfl g2
        | http code => exact absurd rfl (g3 code)
        | io e => exact ⟨_, rfl, hh, .inr ⟨_, rfl⟩, _, hall, rfl⟩
        | other e => cases e <;> exact ⟨_, rfl, hh, .inr ⟨_, rfl⟩, _, hall, rfl⟩
        | noRequest => exact ⟨_, rfl, hh, .inr ⟨_, rfl⟩, _, hall, rfl⟩

/-- What the server makes of the bytes of a request that were sent: nothing, and it sends nothing; or the call. -/
theorem turn_any {C : PyProxy.Conf τ} {S : PyWeb.Conf σ} {r : Reg σ} (hok : PyCompatible C S r) (p : PyProxy.State τ) (x : State σ)
    (hfields : ∃ left, (∀ f ∈ left, Spec.PyWeb.MayAdd f) ∧ x.live.out = PyWeb.polished left)
    (hp : ClientOk (PyProxy.clientOf C p.px)) (hv : p.px.version.Full) (name : Bytes) (args : List Py) (vs : List Value)
    (hc : PyCallTravels C S (Proxy.chooseBinary p.px) p.px.version name args vs) (up : List SEv) (ws : List Bytes)
    (hws : Proxy.packCall C.strOk C.dbl (Proxy.chooseBinary p.px) p.px.version name vs = (ws, none)) (m : Except SErr Unit) (w : Writer)
    (hm : message (clientConf (PyProxy.clientOf C p.px)) ws (.init ⟨up, []⟩) = (m, w)) (id : Nat) (arrive : List Ev) (down : List SEv) :
    ∃ w0, PyHooked S r x.live.world w0 ∧
    ((∃ x', turn S r x id w.wire.sent arrive down = ([], x') ∧ PyHooked S r w0 x'.live.world ∧ (x' = x ∨ ∃ c, x'.last = some (id, c)) ∧
        ∃ left, (∀ f ∈ left, Spec.PyWeb.MayAdd f) ∧ x'.live.out = PyWeb.polished left) ∨
     (∃ n w1 pre left mar conn srv ver, x.served id = some n ∧ PreRead S r w0 w1 pre ∧ (∀ f ∈ left ++ pre, Spec.PyWeb.MayAdd f) ∧
        Mar.new (pyOut S) ver = some mar ∧ (ver = p.px.version ∨ ver = ⟨2, 1⟩) ∧ srv.outType = pyOut S ∧
        srv.chunks = (!p.px.cfg.http10 && decide (srv.outType = .binary)) ∧
        turn S r x id w.wire.sent arrive down = afterTurn S id n
          (match PyServer.dispatch S.py r w1 name S.client (.ok (.tuple (showsItems (plainItemsWith (pyCarried S.opts (Proxy.chooseBinary p.px) p.px.version) vs)))) with
          | (.obj v, w2) => PyWeb.answer S ⟨PyWeb.take S ⟨w1, srv, PyWeb.polished (left ++ pre), ver⟩ w2, conn, ⟨down, []⟩⟩ mar v
          | (.fuel, w2) => (⟨⟨w2, srv, PyWeb.polished (left ++ pre), ver⟩, conn, ⟨down, []⟩⟩, .stop .fuel)
          | (_, w2) => (⟨⟨w2, srv, PyWeb.polished (left ++ pre), ver⟩, conn, ⟨down, []⟩⟩, .stop .crash)))) := by
  obtain ⟨ws', hpack, hlen, hcar⟩ := call_carried hv hc
  rw [hws] at hpack
  cases hpack
  obtain ⟨_, _, _, _, _, _, hfirst⟩ := PyProxy.pack_call C hv hws
  exact turn_heard hok.server hok.serverOpts hok.hook x hfields (PyProxy.clientOf C p.px) hp p.px.version hv name hc.noNul _ up ws hlen hfirst hcar m w hm id arrive down

/-- One call over any network, in detail. -/
theorem call_split {C : PyProxy.Conf τ} {S : PyWeb.Conf σ} {r : Reg σ} (hok : PyCompatible C S r) (p : PyProxy.State τ) (x : State σ) (hl : PyJoined p.px x)
    (hp : ClientOk (PyProxy.clientOf C p.px)) (hv : p.px.version.Full) (name : Bytes) (args : List Py) (vs : List Value)
    (hc : PyCallTravels C S (Proxy.chooseBinary p.px) p.px.version name args vs) (net : Remote.Net) :
    ∃ w0 o p' x' made, PyHooked S r x.live.world w0 ∧ remoteCall C S r p x name args net = (o, p', x') ∧ p.px.made ≤ made ∧
    ((PyFailed o ∧ p'.px = { p.px with once := [], sock := none, made := made } ∧ PyHooked S r w0 x'.live.world ∧ (x' = x ∨ ∃ id c, x'.last = some (id, c) ∧ id < made) ∧
        ∃ left, (∀ f ∈ left, Spec.PyWeb.MayAdd f) ∧ x'.live.out = PyWeb.polished left) ∨
     (∃ (sk : Proxy.Sock) (n : Nat) (w1 : World σ) (pre left : HttpHeader.Fields) (mar : Mar) (conn : Conn) (srv : Srv) (ver : Version) (e : PyWeb.At σ × PyWeb.Next), sk.id < made ∧ Tail sk.unread ∧ PreRead S r w0 w1 pre ∧ (∀ f ∈ left ++ pre, Spec.PyWeb.MayAdd f) ∧
        Mar.new (pyOut S) ver = some mar ∧ (ver = p.px.version ∨ ver = ⟨2, 1⟩) ∧ srv.outType = pyOut S ∧ srv.chunks = (!p.px.cfg.http10 && decide (srv.outType = .binary)) ∧
        e = (match PyServer.dispatch S.py r w1 name S.client (.ok (.tuple (showsItems (plainItemsWith (pyCarried S.opts (Proxy.chooseBinary p.px) p.px.version) vs)))) with
          | (.obj v, w2) => PyWeb.answer S ⟨PyWeb.take S ⟨w1, srv, PyWeb.polished (left ++ pre), ver⟩ w2, conn, ⟨net.down, []⟩⟩ mar v
          | (.fuel, w2) => (⟨⟨w2, srv, PyWeb.polished (left ++ pre), ver⟩, conn, ⟨net.down, []⟩⟩, .stop .fuel)
          | (_, w2) => (⟨⟨w2, srv, PyWeb.polished (left ++ pre), ver⟩, conn, ⟨net.down, []⟩⟩, .stop .crash)) ∧
        x' = (afterTurn S sk.id n e).2 ∧
        ((PyFailed o ∧ p'.px = { p.px with once := [], sock := none, made := made }) ∨
         (∃ q conn2 early, readResponse (-1, -1) (PyProxy.feed C) (PyProxy.finish C) p.px.cfg.keepAlive ⟨sk.unread ++ (afterTurn S sk.id n e).1, net.back, []⟩ = (.ok q, conn2) ∧
           o = PyProxy.ofBuilder (PyProxy.built C q.kind q.body) ∧
           p'.px =
             { p.px with once := [], made := made, sock := if q.close || early then none else some ⟨sk.id, conn2.data⟩, supports := q.accepts.getD (true, false), version := PyProxy.version C q.kind q.body })))) := by
  obtain ⟨ws, hpack, -, -⟩ := call_carried hv hc
  have hcall := call_any hv hc.noNul hc.means hc.small hpack
  rcases connect_any hl net with ⟨made, h1, hmade⟩ | ⟨sk, made, h1, hid, hmade, hun⟩
  · obtain ⟨user', hu⟩ := hcall (turnWith p.px x net (fun b => (turn S r x (connection p.px x net) b net.arrive net.down).1))
    rw [h1] at hu
    refine ⟨_, _, _, _, made, .no, by unfold remoteCall; simp only [hu]; rfl, hmade, .inl ⟨⟨fun v h => (by cases h), fun c m h => (by cases h)⟩, rfl, .no, .inl rfl, hl.fields⟩⟩
  · have hconn : connection p.px x net = sk.id := by unfold connection; rw [h1]
    obtain ⟨user', hu⟩ := hcall (turnWith p.px x net (fun b => (turn S r x sk.id b net.arrive net.down).1))
    rw [h1] at hu
    simp only at hu
    obtain ⟨mm, hm⟩ : ∃ mm, message (clientConf (PyProxy.clientOf C p.px)) ws (.init ⟨net.up, []⟩) = mm := ⟨_, rfl⟩
    have hm' : message (clientConf (PyProxy.clientOf C p.px)) ws (.init ⟨(turnWith p.px x net (fun b => (turn S r x sk.id b net.arrive net.down).1)).up, []⟩) = mm := hm
    rw [hm'] at hu
    obtain ⟨m, w⟩ := mm
    obtain ⟨w0, hw0, ht⟩ := turn_any hok p x hl.fields hp hv name args vs hc net.up ws hpack m w hm sk.id net.arrive net.down
    have hrc : ∀ o q, PyProxy.afterSend C { p.px with once := [], made := made } sk (m, w) none (turnWith p.px x net (fun b => (turn S r x sk.id b net.arrive net.down).1)) =
        (o, q, some (sk.id, w.wire.sent)) → remoteCall C S r p x name args net = (o, ⟨q, name, user' o⟩, (turn S r x sk.id w.wire.sent net.arrive net.down).2) := by
      intro o q h
      unfold remoteCall
      rw [hconn]
      simp only [hu, h]
    have hsend := afterSend_any C { p.px with once := [], made := made } sk (m, w) (turnWith p.px x net (fun b => (turn S r x sk.id b net.arrive net.down).1))
    rcases hsend with ⟨o, ho, hs⟩ | ⟨q, conn2, early, hq, hs⟩
    · have := hrc _ _ hs
      rcases ht with ⟨x', t1, t2, t3, t4⟩ | ⟨n, w1, pre, left, mar, conn, srv, ver, t1, t2, t3, t4, t5, t6, t7, t8⟩
      · rw [t1] at this
        exact ⟨w0, _, _, _, made, hw0, this, hmade, .inl ⟨ho, rfl, t2, t3.imp id (fun ⟨c, h⟩ => ⟨sk.id, c, h, hid⟩), t4⟩⟩
      · have htail : Tail sk.unread := by
          rcases hun with h | h
          · exact h
          · rw [t1] at h; cases h.1
        rw [t8] at this
        exact ⟨w0, _, _, _, made, hw0, this, hmade, .inr ⟨sk, n, w1, pre, left, mar, conn, srv, ver, _, hid, htail, t2, t3, t4, t5, t6, t7, rfl, rfl, .inl ⟨ho, rfl⟩⟩⟩
    · have := hrc _ _ hs
      have hq : readResponse (-1, -1) (PyProxy.feed C) (PyProxy.finish C) p.px.cfg.keepAlive
        ⟨sk.unread ++ (turn S r x sk.id w.wire.sent net.arrive net.down).1, net.back, []⟩ = (.ok q, conn2) := hq
      rcases ht with ⟨x', t1, t2, t3, t4⟩ | ⟨n, w1, pre, left, mar, conn, srv, ver, t1, t2, t3, t4, t5, t6, t7, t8⟩
      · rw [t1, List.append_nil] at hq
        exact absurd hq (readResponse_nothing _ _ _ _ _ (hun.imp id (fun h => h.2)) _ _ _ _)
      · have htail : Tail sk.unread := by
          rcases hun with h | h
          · exact h
          · rw [t1] at h; cases h.1
        rw [t8] at this hq
        exact ⟨w0, _, _, _, made, hw0, this, hmade, .inr ⟨sk, n, w1, pre, left, mar, conn, srv, ver, _, hid, htail, t2, t3, t4, t5, t6, t7, rfl, rfl, .inr ⟨q, conn2, early, hq, rfl, rfl⟩⟩⟩

theorem afterTurn_live (S : PyWeb.Conf σ) (id n : Nat) (e : PyWeb.At σ × PyWeb.Next) : (afterTurn S id n e).2.live = e.1.live ∧ (afterTurn S id n e).1 = e.1.wire.sent ∧
    ∃ c, (afterTurn S id n e).2.last = some (id, c) := by
  obtain ⟨a, e⟩ := e
  cases e <;> exact ⟨rfl, rfl, _, rfl⟩

end PyRemote

/-- **C129 (at most once).** One call of `fastrpc.ServerProxy` to `fastrpc.Server` over any network (bytes lost in either direction at any place, timeouts, failures of system calls,
connections that the server has closed without the proxy seeing it, a server whose process has ended), whatever the function returns or raises and whether or not that can be sent:
the function is run once with the caller's arguments, or it is not run, at most the hook before requests is; and if it is not run the caller gets neither an object nor a fault. -/
theorem C129_at_most_once {C : PyProxy.Conf τ} {S : PyWeb.Conf σ} {r : Reg σ} (hok : PyCompatible C S r) (p : PyProxy.State τ) (x : PyRemote.State σ) (hl : PyJoined p.px x)
    (hp : ClientOk (PyProxy.clientOf C p.px)) (hv : p.px.version.Full) (name : Bytes) (args : List Py) (vs : List Value)
    (hc : PyCallTravels C S (Proxy.chooseBinary p.px) p.px.version name args vs) (net : Remote.Net) :
    let q := PyRemote.remoteCall C S r p x name args net
    ∃ w0, PyHooked S r x.live.world w0 ∧ ((PyHooked S r w0 q.2.2.live.world ∧ PyFailed q.1) ∨
      PyRunOnce S r w0 name (showsItems (plainItemsWith (pyCarried S.opts (Proxy.chooseBinary p.px) p.px.version) vs)) q.2.2.live.world) := by
  obtain ⟨w0, o, p', x', made, h0, h1, -, h3⟩ := PyRemote.call_split hok p x hl hp hv name args vs hc net
  simp only [h1]
  refine ⟨w0, h0, ?_⟩
  rcases h3 with ⟨g1, -, g3, -⟩ | ⟨sk, n, w1, pre, left, mar, conn, srv, ver, e, -, -, g3, -, -, -, -, -, g9, g10, -⟩
  · exact .inl ⟨g3, g1⟩
  · right
    rw [g10, (PyRemote.afterTurn_live S sk.id n e).1]
    generalize hd : PyServer.dispatch S.py r w1 name S.client (.ok (.tuple (showsItems (plainItemsWith (pyCarried S.opts (Proxy.chooseBinary p.px) p.px.version) vs)))) = d at g9
    obtain ⟨d, w2⟩ := d
    subst g9
    cases d with
    | obj v =>
      simp only
      rw [(PyRemote.answer_live S _ mar v).1]
      exact .returned g3 hd
    | _ => exact .ended g3 hd (by intro v h; cases h)

namespace PyRemote

/-- What stays true of the proxy and the server after a call. -/
structure PyAfter (p : Proxy.Proxy) (p' : Proxy.Proxy) (x' : State σ) : Prop where
  joined : PyJoined p' x'
  hurl : p'.url = p.url
  hcfg : p'.cfg = p.cfg
  version : p'.version = p.version ∨ p'.version = ⟨2, 1⟩
  once : p'.once = []
  permanent : p'.permanent = p.permanent

/-- One call over any network, with a result that can be sent. -/
theorem call_told {C : PyProxy.Conf τ} {S : PyWeb.Conf σ} {r : Reg σ} (hok : PyCompatible C S r) (p : PyProxy.State τ) (x : State σ) (hl : PyJoined p.px x)
    (hp : ClientOk (PyProxy.clientOf C p.px)) (hv : p.px.version.Full) (name : Bytes) (args : List Py) (vs : List Value)
    (hc : PyCallTravels C S (Proxy.chooseBinary p.px) p.px.version name args vs) (net : Remote.Net)
    (ha : ∀ w0, PyHooked S r x.live.world w0 → ∀ v custom w1,
      PyRan S r w0 name (showsItems (plainItemsWith (pyCarried S.opts (Proxy.chooseBinary p.px) p.px.version) vs)) v custom w1 → (∀ f ∈ custom, Spec.PyWeb.MayAdd f) ∧
      ∀ ver, ver = p.px.version ∨ ver = ⟨2, 1⟩ → PyAnswerTravels C S ver v) :
    ∃ w0 o p' x', PyHooked S r x.live.world w0 ∧ remoteCall C S r p x name args net = (o, p', x') ∧ PyAfter p.px p'.px x' ∧
      ((PyFailed o ∧ PyHooked S r w0 x'.live.world) ∨
       (PyFailed o ∧ PyRunOnce S r w0 name (showsItems (plainItemsWith (pyCarried S.opts (Proxy.chooseBinary p.px) p.px.version) vs)) x'.live.world) ∨
       (∃ v custom ver', PyRan S r w0 name (showsItems (plainItemsWith (pyCarried S.opts (Proxy.chooseBinary p.px) p.px.version) vs)) v custom x'.live.world ∧
         (ver' = p.px.version ∨ ver' = ⟨2, 1⟩) ∧ PyGets (pyCarried C.opts S.useBinary ver') v o)) := by
  obtain ⟨w0, o, p', x', made, h0, h1, h2, h3⟩ := PyRemote.call_split hok p x hl hp hv name args vs hc net
  refine ⟨w0, o, p', x', h0, h1, ?_⟩
  generalize hargs : showsItems (plainItemsWith (pyCarried S.opts (Proxy.chooseBinary p.px) p.px.version) vs) = args' at ha h3 ⊢
  rcases h3 with ⟨g1, g2, g3, g4, g5⟩ | ⟨sk, n, w1, pre, left, mar, conn, srv, ver, e, g1, g2, g3, g4, g5, g6, g7, g8, g9, g10, g11⟩
  · refine ⟨?_, .inl ⟨g1, g3⟩⟩
    rw [g2]
    refine ⟨⟨fun s hs => (by cases hs), fun i c hi => ?_, g5⟩, rfl, rfl, .inl rfl, rfl, rfl⟩
    rcases g4 with rfl | ⟨id, c', hx, hid⟩
    · have := hl.last i c hi
      show i < made
      omega
    · rw [hx] at hi; cases hi; exact hid
  · generalize hd : PyServer.dispatch S.py r w1 name S.client (.ok (.tuple args')) = d at g9
    obtain ⟨d, w2⟩ := d
    have hlast := (afterTurn_live S sk.id n e)
    -- no object
    have hno : (∀ v, d ≠ .obj v) → e.1.wire.sent = [] ∧ e.1.live.world = w2 ∧ e.1.live.out = PyWeb.polished (left ++ pre) := by
      intro h
      rw [g9]
      cases d with
      | obj v => exact absurd rfl (h v)
      | _ => exact ⟨rfl, rfl, rfl⟩
    by_cases hobj : ∃ v, d = .obj v
    · obtain ⟨v, rfl⟩ := hobj
      simp only at g9
      have hran : PyRan S r w0 name args' v (pre ++ (S.added w2.user).1) { w2 with user := (S.added w2.user).2 } := .mk g3 hd
      obtain ⟨hcu, han⟩ := ha w0 h0 v _ _ hran
      have hvf : ver.Full := by
        rcases g6 with h | h <;> rw [h]
        · exact hv
        · exact Web.full21
      obtain ⟨ds, o2, k1, k2, k3, k4, k5⟩ := answer_told hvf (han ver g6)
      obtain ⟨m', ws, k, l1, l2, l3, l4⟩ := k1
      rw [g5] at l1
      cases l1
      have hall : ∀ f ∈ (left ++ pre) ++ (S.added w2.user).1, Spec.PyWeb.MayAdd f := by
        intro f hf
        rcases List.mem_append.1 hf with hf | hf
        · exact g4 f hf
        · exact hcu f (List.mem_append.2 (.inr hf))
      have hout : (PyWeb.take S ⟨w1, srv, PyWeb.polished (left ++ pre), ver⟩ w2).out = PyWeb.polished ((left ++ pre) ++ (S.added w2.user).1) := by
        unfold PyWeb.take
        simp only [PyWeb.added_polished]
        simp [PyWeb.polished]
      have hworld : (PyWeb.take S ⟨w1, srv, PyWeb.polished (left ++ pre), ver⟩ w2).world = { w2 with user := (S.added w2.user).2 } := rfl
      have hsrv : (PyWeb.take S ⟨w1, srv, PyWeb.polished (left ++ pre), ver⟩ w2).srv = srv := rfl
      generalize PyWeb.take S ⟨w1, srv, PyWeb.polished (left ++ pre), ver⟩ w2 = l at hout hworld hsrv g9
      have hpy : pyOut S = if S.useBinary then .binary else .xml := rfl
      obtain ⟨bytes, lost, r1, r2, r3⟩ := PyWeb.reply_any S l _ hall hout ds (by omega) (fun h => k2 (by
        rw [hsrv] at h
        rw [h, g7] at g8
        have g8 := g8.symm
        rw [Bool.and_eq_true] at g8
        exact of_decide_eq_true g8.2)) net.down (!p.px.cfg.http10) (by rw [hsrv]; exact g8)
      rw [hsrv, g7, hpy] at r3
      unfold PyWeb.answer at g9
      simp only [l2, l3] at g9
      rw [← l4] at g9
      unfold PyWeb.respond at g9
      simp only at g9
      generalize PyWeb.message (PyWeb.conf S l) ds (.init ⟨net.down, []⟩) = mm at g9 r1 r2
      obtain ⟨mm, w⟩ := mm
      simp only at r1 r2
      have haft : (PyWeb.after ⟨l, conn, ⟨net.down, []⟩⟩ w).live.world = l.world ∧ (PyWeb.after ⟨l, conn, ⟨net.down, []⟩⟩ w).wire = w.wire ∧
          ∃ left, (∀ f ∈ left, Spec.PyWeb.MayAdd f) ∧ (PyWeb.after ⟨l, conn, ⟨net.down, []⟩⟩ w).live.out = PyWeb.polished left := by
        refine ⟨rfl, rfl, ?_⟩
        unfold PyWeb.after
        simp only
        split
        · exact ⟨[], by simp, rfl⟩
        · exact ⟨_, hall, hout⟩
      have he : e.1 = PyWeb.after ⟨l, conn, ⟨net.down, []⟩⟩ w ∧ (mm ≠ .ok () → (afterTurn S sk.id n e).2.last = some (sk.id, none)) := by
        cases mm with
        | ok u => simp only at g9; rw [g9]; exact ⟨rfl, fun h => absurd rfl h⟩
        | error er => simp only at g9; rw [g9]; exact ⟨rfl, fun _ => rfl⟩
      have hx' : x'.live.world = { w2 with user := (S.added w2.user).2 } := by rw [g10, hlast.1, he.1, haft.1, hworld]
      have hfld : ∃ left, (∀ f ∈ left, Spec.PyWeb.MayAdd f) ∧ x'.live.out = PyWeb.polished left := by rw [g10, hlast.1, he.1]; exact haft.2.2
      have hlst : ∀ i c, x'.last = some (i, c) → i < made := by
        intro i c hi
        rw [g10] at hi
        obtain ⟨c', hc'⟩ := hlast.2.2
        rw [hc'] at hi
        cases hi
        exact g1
      rcases g11 with ⟨f1, f2⟩ | ⟨q, conn2, early, f1, f2, f3⟩
      · refine ⟨?_, .inr (.inl ⟨f1, ?_⟩)⟩
        · rw [f2]
          exact ⟨⟨fun s hs => (by cases hs), hlst, hfld⟩, rfl, rfl, .inl rfl, rfl, rfl⟩
        · rw [hx']; exact .returned g3 hd
      · rw [hlast.2.1, he.1, haft.2.1] at f1
        obtain ⟨b1, b2, b3, b4⟩ := PyWeb.reply_cut (-1, -1) (PyProxy.feed C) (PyProxy.finish C) p.px.cfg.keepAlive r3 k3 r1 sk.unread g2 net.back q conn2 f1
        have htold := PyProxy.tells_told hok.clientOpts hok.client k4
        obtain ⟨t1, t2⟩ := htold.built q.body b3 b2
        rw [← b1] at t1 t2
        refine ⟨?_, .inr (.inr ⟨v, pre ++ (S.added w2.user).1, ver, by rw [hx']; exact hran, g6, by rw [f2, t1]; exact k5⟩)⟩
        rw [f3]
        refine ⟨⟨fun s hs => ?_, hlst, hfld⟩, rfl, rfl, ?_, rfl, rfl⟩
        · simp only at hs ⊢
          split at hs
          · cases hs
          · cases hs
            refine ⟨g1, ?_⟩
            rcases b4 with h | ⟨h, h'⟩
            · exact .inl h
            · right
              refine ⟨?_, h'⟩
              have : x'.last = some (sk.id, none) := by rw [g10]; exact he.2 (fun h2 => h (r2 h2))
              unfold State.served
              simp [this]
        · show PyProxy.version C q.kind q.body = _ ∨ PyProxy.version C q.kind q.body = _
          rcases t2 with h | h
          · rw [h]; exact g6
          · exact .inr h
    · obtain ⟨n1, n2, n3⟩ := hno (fun v hv => hobj ⟨v, hv⟩)
      have hfail : PyFailed o ∧ p'.px = { p.px with once := [], sock := none, made := made } := by
        rcases g11 with h | ⟨q, conn2, early, f1, -⟩
        · exact h
        · rw [hlast.2.1, n1, List.append_nil] at f1
          exact absurd f1 (readResponse_nothing _ _ _ _ _ (.inl g2) _ _ _ _)
      refine ⟨?_, .inr (.inl ⟨hfail.1, ?_⟩)⟩
      · rw [hfail.2]
        refine ⟨⟨fun s hs => (by cases hs), fun i c hi => ?_, left ++ pre, g4, by rw [g10, hlast.1]; exact n3⟩, rfl, rfl, .inl rfl, rfl, rfl⟩
        rw [g10] at hi
        obtain ⟨c', hc'⟩ := hlast.2.2
        rw [hc'] at hi
        cases hi
        exact g1
      · rw [g10, hlast.1, n2]
        exact .ended g3 hd (fun v hv => hobj ⟨v, hv⟩)

end PyRemote

/-- **C129 (never a wrong answer).** One call over any network, if what the function returns or raises can be sent: it is not run, and fails; or it is run once with the caller's
arguments, and the caller gets neither an object nor a fault, or the object that stands for the result (date-times as far as the protocol carries them), or its fault. No other
object or fault is ever seen, and the proxy and the server are again in a state from which this holds. -/
theorem C129_never_wrong {C : PyProxy.Conf τ} {S : PyWeb.Conf σ} {r : Reg σ} (hok : PyCompatible C S r) (p : PyProxy.State τ) (x : PyRemote.State σ) (hl : PyJoined p.px x)
    (hp : ClientOk (PyProxy.clientOf C p.px)) (hv : p.px.version.Full) (name : Bytes) (args : List Py) (vs : List Value)
    (hc : PyCallTravels C S (Proxy.chooseBinary p.px) p.px.version name args vs) (net : Remote.Net)
    (ha : ∀ w0, PyHooked S r x.live.world w0 → ∀ v custom w1,
      PyRan S r w0 name (showsItems (plainItemsWith (pyCarried S.opts (Proxy.chooseBinary p.px) p.px.version) vs)) v custom w1 → (∀ f ∈ custom, Spec.PyWeb.MayAdd f) ∧
      ∀ ver, ver = p.px.version ∨ ver = ⟨2, 1⟩ → PyAnswerTravels C S ver v) :
    ∃ w0 o p' x', PyHooked S r x.live.world w0 ∧ PyRemote.remoteCall C S r p x name args net = (o, p', x') ∧ PyJoined p'.px x' ∧
      ((PyFailed o ∧ PyHooked S r w0 x'.live.world) ∨
       (PyFailed o ∧ PyRunOnce S r w0 name (showsItems (plainItemsWith (pyCarried S.opts (Proxy.chooseBinary p.px) p.px.version) vs)) x'.live.world) ∨
       (∃ v custom ver', PyRan S r w0 name (showsItems (plainItemsWith (pyCarried S.opts (Proxy.chooseBinary p.px) p.px.version) vs)) v custom x'.live.world ∧
         (ver' = p.px.version ∨ ver' = ⟨2, 1⟩) ∧ PyGets (pyCarried C.opts S.useBinary ver') v o)) := by
  obtain ⟨w0, o, p', x', h1, h2, h3, h4⟩ := PyRemote.call_told hok p x hl hp hv name args vs hc net ha
  exact ⟨w0, o, p', x', h1, h2, h3.joined, h4⟩

/-! ## Sessions -/

/-- As `PyStepOk`, for any network. -/
def PyStepAny (C : PyProxy.Conf τ) (S : PyWeb.Conf σ) (cfg : Proxy.Config) : PyRemote.Step → Prop
  | .call name args headers _ => (∀ h ∈ headers, ∃ f, h = .pair f ∧ PyFieldOk f) ∧ ∃ vs, ∀ binary ver, Usable cfg.mode binary → Spoken cfg ver →
      PyCallTravels C S binary ver name args vs ∧ DatesAllItems (fun d => pyCarried S.opts binary ver d = d) vs
  | .close => True

/-- The results of the calls, whichever of them are run, can be sent back, and their date-times arrive as they were. -/
def PyResultsAny (C : PyProxy.Conf τ) (S : PyWeb.Conf σ) (cfg : Proxy.Config) (r : Reg σ) : World σ → List PyRemote.Step → Prop
  | _, [] => True
  | w, .call name args _ _ :: cs => ∀ w0, PyHooked S r w w0 →
      (∀ v custom w1, PyRan S r w0 name (pyArrived args) v custom w1 → (∀ f ∈ custom, Spec.PyWeb.MayAdd f) ∧
        ∀ ver, Spoken cfg ver → PyAnswerTravels C S ver v ∧ ∀ val, Spec.Python.means v = some val → DatesAll (fun d => pyCarried C.opts S.useBinary ver d = d) val) ∧
      (∀ w1, PyHooked S r w0 w1 → PyResultsAny C S cfg r w1 cs) ∧ ∀ w1, PyRunOnce S r w0 name (pyArrived args) w1 → PyResultsAny C S cfg r w1 cs
  | w, .close :: cs => PyResultsAny C S cfg r w cs

/-- What the caller of several calls sees, and the world they leave, when each is run at most once: a call that is lost is not run and fails; of a call that is not heard of the
function is run once, and the call fails; a call that is done gives what the local call gives. The hook before requests may run before a call, and before the next. -/
inductive PyAtMostOnce (S : PyWeb.Conf σ) (r : Reg σ) : World σ → List (Bytes × List Py) → List Outcome → World σ → Prop
  | nil {w} : PyAtMostOnce S r w [] [] w
  | lost {w w0 w1 w2 name args o cs os} : PyHooked S r w w0 → PyHooked S r w0 w1 → PyFailed o → PyAtMostOnce S r w1 cs os w2 →
      PyAtMostOnce S r w ((name, args) :: cs) (o :: os) w2
  | unheard {w w0 w1 w2 name args o cs os} : PyHooked S r w w0 → PyRunOnce S r w0 name args w1 → PyFailed o → PyAtMostOnce S r w1 cs os w2 →
      PyAtMostOnce S r w ((name, args) :: cs) (o :: os) w2
  | done {w w0 w1 w2 name args v custom o cs os} : PyHooked S r w w0 → PyRan S r w0 name args v custom w1 → PyGets id v o → PyAtMostOnce S r w1 cs os w2 →
      PyAtMostOnce S r w ((name, args) :: cs) (o :: os) w2

namespace PyRemote

theorem session_any {C : PyProxy.Conf τ} {S : PyWeb.Conf σ} {r : Reg σ} (hok : PyCompatible C S r) (url : Url.Url) (cfg : Proxy.Config)
    (hurl : ClientOk (clientFor url cfg.http10 true cfg.keepAlive false [])) (hv : cfg.version.Full) : ∀ (cs : List Step) (p : PyProxy.State τ) (x : State σ), Ready url cfg p.px →
      PyJoined p.px x → (∀ c ∈ cs, PyStepAny C S cfg c) → PyResultsAny C S cfg r x.live.world cs →
      PyAtMostOnce S r x.live.world (pyCallsOf cs) (session C S r p x cs).1 (session C S r p x cs).2.2.live.world
  | [], _, _, _, _, _, _ => .nil
  | .close :: cs, p, x, hr, hl, hs, ho => by
    have ih := session_any hok url cfg hurl hv cs { p with px := { p.px with sock := none } } x ⟨hr.hurl, hr.hcfg, hr.version, hr.fields⟩
      ⟨fun s h => (by cases h), hl.last, hl.fields⟩ (fun c hc => hs c (by simp [hc])) ho
    exact ih
  | .call name args headers net :: cs, p, x, hr, hl, hs, ho => by
    obtain ⟨hh, vs, hc⟩ : PyStepAny C S cfg (.call name args headers net) := hs _ (by simp)
    obtain ⟨f1, f2⟩ := feedHeaders_ok headers hh p.px.once (fun f hf => hr.fields f (by simp [hf]))
    generalize hy : ({ p with px := { p.px with once := (PyProxy.feedHeaders headers p.px.once).2 } } : PyProxy.State τ) = y
    have hry : Ready url cfg y.px := by
      rw [← hy]
      refine ⟨hr.hurl, hr.hcfg, hr.version, fun f hf => ?_⟩
      rcases List.mem_append.1 hf with hf | hf
      · exact hr.fields f (List.mem_append.2 (.inl hf))
      · exact f2 f hf
    have hly : PyJoined y.px x := by
      rw [← hy]
      exact ⟨hl.clean, hl.last, hl.fields⟩
    have hu := chooseBinary_usable y.px
    rw [hry.hcfg] at hu
    obtain ⟨hc1, hc2⟩ := hc (Proxy.chooseBinary y.px) y.px.version hu hry.version
    have hsp : ∀ ver, ver = y.px.version ∨ ver = ⟨2, 1⟩ → Spoken cfg ver := by
      rintro ver (h | h)
      · rw [h]; exact hry.version
      · exact .inr h
    have hfull : y.px.version.Full := by
      rcases hry.version with h | h
      · rw [h]; exact hv
      · rw [h]; exact Web.full21
    have hargs : showsItems (plainItemsWith (pyCarried S.opts (Proxy.chooseBinary y.px) y.px.version) vs) = pyArrived args := by
      unfold pyArrived
      rw [hc1.means, Option.getD_some, plainWith_congrItems _ id vs hc2]
    have hclient : ClientOk (PyProxy.clientOf C y.px) := by
      refine ⟨?_, ?_, fun f hf => (hry.fields f hf).1, fun _ f hf => (hry.fields f hf).2⟩
      · have := hurl.path
        unfold PyProxy.clientOf
        rw [hry.hurl]
        exact this
      · have := hurl.host
        unfold PyProxy.clientOf
        rw [hry.hurl]
        exact this
    obtain ⟨w0, o, p', x', h1, h2, h3, h4⟩ := call_told hok y x hly hclient hfull name args vs hc1 net
      (fun w0 hw v custom w1 hran => by
        rw [hargs] at hran
        obtain ⟨a1, a2⟩ := (ho w0 hw).1 v custom w1 hran
        exact ⟨a1, fun ver hver => (a2 ver (hsp ver hver)).1⟩)
    rw [hargs] at h4
    obtain ⟨a1, a2, a3⟩ := ho w0 h1
    have ih := session_any hok url cfg hurl hv cs p' x' ⟨h3.hurl.trans hry.hurl, h3.hcfg.trans hry.hcfg, h3.version.elim (fun h => by rw [h]; exact hry.version) .inr, by
      rw [h3.once, h3.permanent, List.append_nil]
      exact fun f hf => hry.fields f (by simp [hf])⟩ h3.joined (fun c hc => hs c (by simp [hc]))
    simp only [session, step, f1, if_true, hy, h2, List.singleton_append]
    rcases h4 with ⟨g1, g2⟩ | ⟨g1, g2⟩ | ⟨v, custom, ver', g1, g2, g3⟩
    · exact .lost h1 g2 g1 (ih (a2 _ g2))
    · exact .unheard h1 g2 g1 (ih (a3 _ g2))
    · have hrun : PyRunOnce S r w0 name (pyArrived args) x'.live.world := by
        generalize x'.live.world = wx at g1
        obtain ⟨b1, b2⟩ := g1
        exact .returned b1 b2
      refine .done h1 g1 ?_ (ih (a3 _ hrun))
      cases g3 with
      | fault => exact .fault
      | value hm =>
        rw [plainWith_congr _ id _ (((a1 _ _ _ g1).2 ver' (hsp ver' g2)).2 _ hm)]
        exact .value hm

end PyRemote

/-- **C129 (a session).** Any number of calls through one proxy, over a network that may do anything to each of them, whatever its mode, its keep-alive and its HTTP version, whatever
header fields are given with calls, and wherever the user closes the connection: each call is run at most once, in the order of the calls; each gives neither an object nor a fault,
or what the local call gives at that place; none that was not run gives an object or a fault. -/
theorem C129_session {C : PyProxy.Conf τ} {S : PyWeb.Conf σ} {r : Reg σ} (hok : PyCompatible C S r) (url : Url.Url) (cfg : Proxy.Config)
    (hurl : ClientOk (clientFor url cfg.http10 true cfg.keepAlive false [])) (hv : cfg.version.Full) (last : Bytes) (user : τ) (st : σ) (cs : List PyRemote.Step)
    (hs : ∀ c ∈ cs, PyStepAny C S cfg c) (ho : PyResultsAny C S cfg r ⟨st, false⟩ cs) :
    let q := PyRemote.session C S r ⟨Proxy.new url cfg, last, user⟩ ⟨PyWeb.new st, none, false⟩ cs
    PyAtMostOnce S r ⟨st, false⟩ (pyCallsOf cs) q.1 q.2.2.live.world :=
  PyRemote.session_any hok url cfg hurl hv cs ⟨Proxy.new url cfg, last, user⟩ ⟨PyWeb.new st, none, false⟩ ⟨rfl, rfl, .inl rfl, by simp [Proxy.new]⟩
    ⟨fun s h => (by cases h), fun i c h => (by cases h), [], by simp, rfl⟩ hs ho

/-! ## Witnesses -/

/-- A call that is lost, one whose response is cut, one that is not heard of, and one that goes well. -/
def pyAnySteps : List PyRemote.Step :=
  [.call (asc "f") [.int 1] [] lostNet, .call (asc "f") [.int 1] [] cutNet, .close, .call (asc "f") [.int 1] [.pair (asc "X-A", asc "1")] unheardNet, .call (asc "f") [.int 1] [] quickNet]

theorem pyStep_any (headers : List PyProxy.Given) (hh : ∀ h ∈ headers, ∃ f, h = .pair f ∧ PyFieldOk f) (net : Remote.Net) :
    PyStepAny pyProxyConf pyWebConf exampleRemoteCfg (.call (asc "f") [.int 1] headers net) := by
  refine ⟨hh, [.int 1], fun binary ver _ hver => ?_⟩
  have hver : ver = ⟨2, 1⟩ := hver.elim id id
  subst hver
  exact ⟨pyCall_travels binary, by simp [DatesAllItems, DatesAll]⟩

theorem pyAny_steps : ∀ c ∈ pyAnySteps, PyStepAny pyProxyConf pyWebConf exampleRemoteCfg c := by
  intro c hc
  simp only [pyAnySteps, List.mem_cons, List.not_mem_nil, or_false] at hc
  rcases hc with rfl | rfl | rfl | rfl | rfl
  · exact pyStep_any [] (by simp) _
  · exact pyStep_any [] (by simp) _
  · trivial
  · refine pyStep_any _ ?_ _
    intro h hh
    rw [List.mem_singleton] at hh
    subst hh
    exact ⟨_, rfl, by unfold PyFieldOk FieldOk; decide +kernel⟩
  · exact pyStep_any [] (by simp) _

theorem pyAny_one (w0 : World Nat) (hw : w0.corrupt = false) {ret w2 w1 pre} (hpre : PreRead pyWebConf pyHookReg w0 w1 pre)
    (hd : PyServer.dispatch pyOld pyHookReg w1 (asc "f") (.tuple []) (.ok (.tuple [.int 1])) = (ret, w2)) : ret = .obj (.list [.int 1]) ∧ w2.corrupt = false := by
  have h1 : w1.corrupt = false := by
    cases hpre with
    | no h => cases h
    | yes _ _ => exact hw
  obtain ⟨st, c⟩ := w1
  simp only at h1
  subst h1
  rw [pyHook_f] at hd
  cases hd
  exact ⟨rfl, rfl⟩

theorem pyAny_results : ∀ (cs : List PyRemote.Step), (∀ c ∈ cs, c = .close ∨ ∃ h net, c = .call (asc "f") [.int 1] h net) → ∀ w : World Nat, w.corrupt = false →
    PyResultsAny pyProxyConf pyWebConf exampleRemoteCfg pyHookReg w cs
  | [], _, _, _ => trivial
  | c :: cs, hc, w, hw => by
    have ih := pyAny_results cs (fun c h => hc c (by simp [h]))
    rcases hc c (by simp) with rfl | ⟨h, net, rfl⟩
    · exact ih w hw
    · have hk : ∀ (w : World Nat), w.corrupt = false → ∀ w0, PyHooked pyWebConf pyHookReg w w0 → w0.corrupt = false := by
        intro w hw w0 h
        cases h with
        | no => exact hw
        | yes _ => exact hw
      have ha : pyArrived [.int 1] = [.int 1] := by simp [pyArrived, Spec.Python.means, Spec.Python.meansItems, plainItemsWith, plainWith, showsItems, shows]
      intro w0 h0
      have hw0 := hk w hw w0 h0
      rw [ha]
      refine ⟨?_, fun w1 h1 => ih w1 (hk _ hw0 _ h1), ?_⟩
      · rintro v custom w1 ⟨hpre, hd⟩
        obtain ⟨h1, -⟩ := pyAny_one w0 hw0 hpre hd
        cases h1
        refine ⟨?_, fun ver hver => ⟨pyAnswer_travels ver (hver.elim id id), fun val hv => ?_⟩⟩
        · intro f hf
          rcases List.mem_append.1 hf with hf | hf
          · cases hpre with
            | no h => cases h
            | yes _ _ => exact pyWeb_fields _ f hf
          · exact pyWeb_fields _ f hf
        · have : Spec.Python.means (.list [.int 1]) = some (.array [.int 1]) := by simp [Spec.Python.means, Spec.Python.meansItems]
          rw [this] at hv
          cases hv
          simp [DatesAll, DatesAllItems]
      · intro w1 h1
        cases h1 with
        | returned hpre hd => exact ih _ (pyAny_one w0 hw0 hpre hd).2
        | ended hpre hd hn => exact absurd (pyAny_one w0 hw0 hpre hd).1 (hn _)

example : PyAtMostOnce pyWebConf pyHookReg ⟨0, false⟩ (pyCallsOf pyAnySteps)
    (PyRemote.session pyProxyConf pyWebConf pyHookReg ⟨Proxy.new exampleUrl exampleRemoteCfg, [], 0⟩ ⟨PyWeb.new 0, none, false⟩ pyAnySteps).1
    (PyRemote.session pyProxyConf pyWebConf pyHookReg ⟨Proxy.new exampleUrl exampleRemoteCfg, [], 0⟩ ⟨PyWeb.new 0, none, false⟩ pyAnySteps).2.2.live.world :=
  C129_session ⟨XmlParser.eager_conforms, XmlParser.eager_conforms, ⟨rfl, rfl⟩, ⟨rfl, rfl⟩, fun _ _ _ => pyWeb_fields _⟩ exampleUrl exampleRemoteCfg
    (by refine ⟨?_, ?_, ?_, ?_⟩ <;> first | decide +kernel | (intro f hf; cases hf) | (intro h; cases h)) ⟨by unfold Version.Known; decide, by decide⟩ [] 0 0 pyAnySteps pyAny_steps (pyAny_results _ (by
      intro c hc
      simp only [pyAnySteps, List.mem_cons, List.not_mem_nil, or_false] at hc
      rcases hc with rfl | rfl | rfl | rfl | rfl
      · exact .inr ⟨_, _, rfl⟩
      · exact .inr ⟨_, _, rfl⟩
      · exact .inl rfl
      · exact .inr ⟨_, _, rfl⟩
      · exact .inr ⟨_, _, rfl⟩) _ rfl)

/-- Three of the four calls were run, and the hook five times: the first was lost, and the hook has run once more on the connection that the third gave up. -/
example : (PyRemote.session pyProxyConf pyWebConf pyHookReg ⟨Proxy.new exampleUrl exampleRemoteCfg, [], 0⟩ ⟨PyWeb.new 0, none, false⟩ pyAnySteps).2.2.live.world.user = 5333 := by
  decide +kernel

/-- One call that is lost, from the first state, as in `C129_at_most_once`. -/
example : PyJoined (Proxy.new exampleUrl exampleRemoteCfg) (⟨PyWeb.new 0, none, false⟩ : PyRemote.State Nat) :=
  ⟨fun s h => (by cases h), fun i c h => (by cases h), [], by simp, rfl⟩

end Frpc
