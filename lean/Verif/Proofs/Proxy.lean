import Verif.Spec.Proxy
import Verif.Proofs.HttpSend
import Verif.Proofs.HttpReply
/-!
# Facts about `ServerProxy_t`
-/
namespace Frpc
namespace Proxy
open HttpIO HttpOut HttpServer Spec.Http Spec.Proxy

theorem after_append (env : Env) : ∀ (a b : List Op) (p : Proxy), after env p (a ++ b) = after env (after env p a) b
  | [], _, _ => rfl
  | _ :: a, b, _ => after_append env a b _

theorem results_append (env : Env) : ∀ (a b : List Op) (p : Proxy), results env p (a ++ b) = results env p a ++ results env (after env p a) b
  | [], _, _ => rfl
  | o :: a, b, p => by simp [results, after, results_append env a b]

theorem since_snoc (stop : Op → Bool) (os : List Op) (o : Op) : since stop (os ++ [o]) = if stop o then [] else since stop os ++ [o] := by
  unfold since
  cases h : stop o <;> simp [h]

theorem lastResponse_snoc : ∀ (rs : List (Result × Sent)) (r : Result × Sent),
    lastResponse (rs ++ [r]) = match r.1 with | .response x => some x | _ => lastResponse rs := by
  intro rs r
  induction rs with
  | nil => obtain ⟨r, s⟩ := r; cases r <;> simp [lastResponse]
  | cons q rs ih =>
    simp only [List.cons_append, lastResponse, ih]
    obtain ⟨r, s⟩ := r
    cases r <;> simp

/-- How a call ends. -/
inductive Ends (env : Env) (p : Proxy) (name : Bytes) (args : List Value) (t : Turn) : Result × Proxy × Sent → Prop where
  | packing (ws : List Bytes) (e : Err) : packCall env.strOk env.dbl (chooseBinary p) p.version name args = (ws, some e) →
      Ends env p name args t (.packing e, { p with once := [] }, none)
  | connect (ws : List Bytes) (made : Nat) : packCall env.strOk env.dbl (chooseBinary p) p.version name args = (ws, none) →
      connectSocket p t = (none, made) →
      Ends env p name args t (.notConnected, { p with once := [], sock := none, made := made }, none)
  | sending (ws : List Bytes) (s : Sock) (made : Nat) (e : SErr) (w : Writer) : packCall env.strOk env.dbl (chooseBinary p) p.version name args = (ws, none) →
      connectSocket p t = (some s, made) → message (clientConf (clientOf p)) ws (.init ⟨t.up, []⟩) = (.error e, w) →
      Ends env p name args t (.sending e, { p with once := [], sock := none, made := made }, some (s.id, w.wire.sent))
  | reading (ws : List Bytes) (s : Sock) (made : Nat) (m : Except SErr Unit) (e : RespErr) (w : Writer) (conn : Conn) :
      packCall env.strOk env.dbl (chooseBinary p) p.version name args = (ws, none) →
      connectSocket p t = (some s, made) → message (clientConf (clientOf p)) ws (.init ⟨t.up, []⟩) = (m, w) →
      readResponse (-1, -1) env.codec.feed env.codec.finish p.cfg.keepAlive ⟨s.unread ++ t.reply w.wire.sent, t.back, []⟩ = (.error e, conn) →
      Ends env p name args t (.reading e, { p with once := [], sock := none, made := made }, some (s.id, w.wire.sent))
  | response (ws : List Bytes) (s : Sock) (made : Nat) (m : Except SErr Unit) (r : Response) (w : Writer) (conn : Conn) :
      packCall env.strOk env.dbl (chooseBinary p) p.version name args = (ws, none) →
      connectSocket p t = (some s, made) → message (clientConf (clientOf p)) ws (.init ⟨t.up, []⟩) = (m, w) →
      readResponse (-1, -1) env.codec.feed env.codec.finish p.cfg.keepAlive ⟨s.unread ++ t.reply w.wire.sent, t.back, []⟩ = (.ok r, conn) →
      Ends env p name args t (.response r,
        { p with once := [], made := made, sock := if r.close || decide (m = .error .response) then none else some ⟨s.id, conn.data⟩,
                 supports := r.accepts.getD (true, false), version := env.codec.version r.kind r.body }, some (s.id, w.wire.sent))

theorem call_ends (env : Env) (p : Proxy) (name : Bytes) (args : List Value) (t : Turn) : Ends env p name args t (call env p name args t) := by
  unfold call
  simp only
  generalize hp : packCall env.strOk env.dbl (chooseBinary p) p.version name args = k
  obtain ⟨ws, k⟩ := k
  cases k with
  | some e => exact .packing ws e hp
  | none =>
    simp only
    generalize hc : connectSocket p t = k
    obtain ⟨k, made⟩ := k
    cases k with
    | none => exact .connect ws made hp hc
    | some s =>
      simp only
      unfold exchange
      simp only
      generalize hm : message (clientConf (clientOf p)) ws (.init ⟨t.up, []⟩) = m
      obtain ⟨m, w⟩ := m
      generalize hr : readResponse (-1, -1) env.codec.feed env.codec.finish p.cfg.keepAlive ⟨s.unread ++ t.reply w.wire.sent, t.back, []⟩ = r
      obtain ⟨r, conn⟩ := r
      have rest : Ends env p name args t (match ((r, conn) : Except RespErr Response × Conn) with
        | (.error e, _) => (.reading e, { p with once := [], made := made, sock := none }, some (s.id, w.wire.sent))
        | (.ok r, conn) =>
          (.response r,
           { p with once := [], made := made, sock := if r.close || decide (m = .error .response) then none else some ⟨s.id, conn.data⟩,
                    supports := r.accepts.getD (true, false), version := env.codec.version r.kind r.body },
           some (s.id, w.wire.sent))) := by
        cases r with
        | error e => exact .reading ws s made m e w conn hp hc hm hr
        | ok r => exact .response ws s made m r w conn hp hc hm hr
      cases m with
      | error e =>
        cases e with
        | response => exact rest
        | timeout => exact .sending ws s made _ w hp hc hm
        | syscall => exact .sending ws s made _ w hp hc hm
        | fuel => exact .sending ws s made _ w hp hc hm
      | ok => exact rest

/-- The settings that never change. -/
def Same (a b : Config) : Prop := a.keepAlive = b.keepAlive ∧ a.mode = b.mode ∧ a.http10 = b.http10

/-- What is known of a proxy after a history. -/
structure Known (env : Env) (url : Url.Url) (cfg : Config) (before : List Op) (p : Proxy) : Prop where
  hurl : p.url = url
  hcfg : Same p.cfg cfg
  honce : p.once = onceFields before
  hpermanent : p.permanent = permanentFields before
  hsupports : p.supports = announced (results env (new url cfg) before)
  hversion : p.version = versionNow env.codec cfg (results env (new url cfg) before)
  hids : ∀ s, p.sock = some s → s.id < p.made

theorem connectSocket_made (p : Proxy) (t : Turn) (h : ∀ s, p.sock = some s → s.id < p.made) (k : Option Sock) (made : Nat)
    (hc : connectSocket p t = (k, made)) : p.made ≤ made ∧ ∀ s, k = some s → s.id < made := by
  unfold connectSocket at hc
  simp only at hc
  have fresh : (if t.connect then ((some ⟨p.made, []⟩, p.made + 1) : Option Sock × Nat) else (none, p.made)) = (k, made) → p.made ≤ made ∧ ∀ s, k = some s → s.id < made := by
    intro hc
    split at hc <;> cases hc
    · exact ⟨by omega, fun s h => by cases h; exact Nat.lt_succ_self _⟩
    · exact ⟨Nat.le_refl _, fun s h => by cases h⟩
  split at hc
  · exact fresh hc
  · next s hs =>
    split at hc
    · exact fresh hc
    · split at hc
      · exact fresh hc
      · split at hc
        · exact fresh hc
        · cases hc
          exact ⟨Nat.le_refl _, fun s' h' => by cases h'; exact h s hs⟩

theorem Ends.ids {env : Env} {p : Proxy} {name : Bytes} {args : List Value} {t : Turn} {x : Result × Proxy × Sent} (hx : Ends env p name args t x)
    (h : ∀ s, p.sock = some s → s.id < p.made) : ∀ s, x.2.1.sock = some s → s.id < x.2.1.made := by
  cases hx with
  | packing => exact h
  | connect => intro s hs; cases hs
  | sending => intro s hs; cases hs
  | reading => intro s hs; cases hs
  | response ws s made m r w conn h1 h2 h3 h4 =>
    intro s' hs
    simp only at hs ⊢
    split at hs
    · cases hs
    · cases hs
      exact (connectSocket_made p t h _ _ h2).2 s rfl

theorem Ends.keeps {env : Env} {p : Proxy} {name : Bytes} {args : List Value} {t : Turn} {x : Result × Proxy × Sent} (hx : Ends env p name args t x) :
    x.2.1.url = p.url ∧ x.2.1.cfg = p.cfg ∧ x.2.1.once = [] ∧ x.2.1.permanent = p.permanent ∧
    x.2.1.supports = (match x.1 with | .response r => r.accepts.getD (true, false) | _ => p.supports) ∧
    x.2.1.version = (match x.1 with | .response r => env.codec.version r.kind r.body | _ => p.version) := by
  cases hx <;> exact ⟨rfl, rfl, rfl, rfl, rfl, rfl⟩

theorem onceFields_snoc (os : List Op) (o : Op) : onceFields (os ++ [o]) = if endsOnce o then [] else onceFields os ++ (onceField o).toList := by
  unfold onceFields
  rw [since_snoc]
  cases endsOnce o
  · simp only [Bool.false_eq_true, if_false, List.filterMap_append]
    cases h : onceField o <;> simp [h]
  · simp

theorem permanentFields_snoc (os : List Op) (o : Op) :
    permanentFields (os ++ [o]) = if endsPermanent o then [] else permanentFields os ++ (permanentField o).toList := by
  unfold permanentFields
  rw [since_snoc]
  cases endsPermanent o
  · simp only [Bool.false_eq_true, if_false, List.filterMap_append]
    cases h : permanentField o <;> simp [h]
  · simp

theorem known (env : Env) (url : Url.Url) (cfg : Config) (before : List Op) : Known env url cfg before (after env (new url cfg) before) := by
  generalize hn : before.length = n
  induction n generalizing before with
  | zero =>
    have : before = [] := by simpa using hn
    subst this
    exact ⟨rfl, ⟨rfl, rfl, rfl⟩, rfl, rfl, rfl, rfl, fun s h => by cases h⟩
  | succ n ih =>
    obtain ⟨os, o, rfl⟩ : ∃ os o, before = os ++ [o] := by
      rcases List.eq_nil_or_concat before with h | ⟨os, o, h⟩
      · subst h; simp at hn
      · exact ⟨os, o, by simpa using h⟩
    have k := ih os (by simpa using hn)
    have hr : results env (new url cfg) (os ++ [o]) = results env (new url cfg) os ++ (step env (after env (new url cfg) os) o).1.toList := by
      rw [results_append]; simp [results]
    rw [after_append]
    simp only [after]
    generalize after env (new url cfg) os = p at k hr
    obtain ⟨k1, k2, k3, k4, k5, k6, k7⟩ := k
    cases o with
    | call name args t =>
      have hx := call_ends env p name args t
      have hi := hx.ids k7
      obtain ⟨h1, h2, h3, h4, h5, h6⟩ := hx.keeps
      simp only [step] at hr ⊢
      generalize call env p name args t = x at *
      obtain ⟨res, p', sent⟩ := x
      simp only at *
      refine ⟨h1.trans k1, ?_, ?_, ?_, ?_, ?_, hi⟩
      · rw [h2]; exact k2
      · rw [h3, onceFields_snoc]; rfl
      · rw [h4, permanentFields_snoc, k4]; simp [endsPermanent, permanentField]
      · rw [h5, hr, announced, Option.toList_some, lastResponse_snoc]
        cases res <;> simp only [k5, announced]
        simp
      · rw [h6, hr, versionNow, Option.toList_some, lastResponse_snoc]
        cases res <;> simp only [k6, versionNow]
        simp
    | addOnce f =>
      simp only [step, Option.toList_none, List.append_nil] at hr
      exact ⟨k1, k2, by rw [onceFields_snoc, ← k3]; rfl, by rw [permanentFields_snoc, ← k4]; simp [endsPermanent, permanentField, step], by rw [hr]; exact k5, by rw [hr]; exact k6, k7⟩
    | addPermanent f =>
      simp only [step, Option.toList_none, List.append_nil] at hr
      exact ⟨k1, k2, by rw [onceFields_snoc, ← k3]; simp [endsOnce, onceField, step], by rw [permanentFields_snoc, ← k4]; rfl, by rw [hr]; exact k5, by rw [hr]; exact k6, k7⟩
    | deleteHeaders =>
      simp only [step, Option.toList_none, List.append_nil] at hr
      exact ⟨k1, k2, by rw [onceFields_snoc]; rfl, by rw [permanentFields_snoc]; rfl, by rw [hr]; exact k5, by rw [hr]; exact k6, k7⟩
    | forwardedFor a =>
      simp only [step, Option.toList_none, List.append_nil] at hr
      exact ⟨k1, k2, by rw [onceFields_snoc, ← k3]; rfl, by rw [permanentFields_snoc, ← k4]; simp [endsPermanent, permanentField, step], by rw [hr]; exact k5, by rw [hr]; exact k6, k7⟩
    | setTimeouts c r w =>
      simp only [step, Option.toList_none, List.append_nil] at hr
      exact ⟨k1, k2, by rw [onceFields_snoc, ← k3]; simp [endsOnce, onceField, step], by rw [permanentFields_snoc, ← k4]; simp [endsPermanent, permanentField, step], by rw [hr]; exact k5, by rw [hr]; exact k6, k7⟩

theorem readResponse_closes (limits : Int × Int) (feed finish : HttpServer.Kind → List Bytes → Option Err) (s s' : Conn) (r : Response)
    (h : readResponse limits feed finish false s = (.ok r, s')) : r.close = true := by
  unfold readResponse readAnswer at h
  simp only at h
  repeat' (split at h)
  all_goals first | (simp only [Prod.mk.injEq, Except.ok.injEq] at h; rw [← h.1]; simp) | simp at h

/-! ## What is sent -/

theorem clientHead_request (c : ClientCfg) (hch : c.chunks = false) (body : Bytes) :
    clientHead c body.length ++ body = request c.path c.hostPort c.http10 c.binary c.keepAlive c.custom body := by
  have hl : ∀ f, headLine f = line f := fun f => rfl
  have hfl : List.flatMap headLine = List.flatMap line := by congr 1
  have h11 : asc " HTTP/1.1\r\n" = asc " " ++ asc "HTTP/1.1" ++ asc "\r\n" := by decide
  have h10 : asc " HTTP/1.0\r\n" = asc " " ++ asc "HTTP/1.0" ++ asc "\r\n" := by decide
  unfold clientHead clientFields request
  rw [hch, h11, h10]
  cases c.http10 <;> simp [hfl, hl, List.append_assoc]

/-- What an exchange sends. -/
theorem Ends.sent {env : Env} {p : Proxy} {name : Bytes} {args : List Value} {t : Turn} {res : Result} {p' : Proxy} {id : Nat} {bytes : Bytes}
    (hx : Ends env p name args t (res, p', some (id, bytes))) :
    ∃ ws s made m w, packCall env.strOk env.dbl (chooseBinary p) p.version name args = (ws, none) ∧ connectSocket p t = (some s, made) ∧ s.id = id ∧
      message (clientConf (clientOf p)) ws (.init ⟨t.up, []⟩) = (m, w) ∧ bytes = w.wire.sent := by
  cases hx with
  | sending ws s made e w h1 h2 h3 => exact ⟨ws, s, made, _, w, h1, h2, rfl, h3, rfl⟩
  | reading ws s made m e w conn h1 h2 h3 h4 => exact ⟨ws, s, made, _, w, h1, h2, rfl, h3, rfl⟩
  | response ws s made m r w conn h1 h2 h3 h4 => exact ⟨ws, s, made, _, w, h1, h2, rfl, h3, rfl⟩

theorem sent_request (p : Proxy) (ws : List Bytes) (up : List SEv) (m : Except SErr Unit) (w : Writer) (hlen : ws.flatten.length < 2 ^ 32)
    (h : message (clientConf (clientOf p)) ws (.init ⟨up, []⟩) = (m, w)) :
    let req := request (clientTarget p.url).1 (clientTarget p.url).2 p.cfg.http10 (chooseBinary p) p.cfg.keepAlive (p.permanent ++ p.once) ws.flatten
    w.wire.sent <+: req ∧ (m = .ok () → w.wire.sent = req) ∧ (CalmOut true up → w.wire.sent = req) := by
  have hs := message_plain (clientConf (clientOf p)) rfl ws ⟨up, []⟩ m w h
  have hreq := clientHead_request (clientOf p) rfl ws.flatten
  rw [Nat.mod_eq_of_lt hlen] at hs
  obtain ⟨q, h2, h1, h3⟩ := hs
  simp only [List.nil_append] at h1
  have hok : m = .ok () → w.wire.sent = clientHead (clientOf p) ws.flatten.length ++ ws.flatten := by
    intro e; rw [h1]; exact h3 e
  refine ⟨?_, ?_, ?_⟩
  · rw [h1]; exact hreq ▸ h2
  · intro e; rw [hok e]; exact hreq
  · intro hc
    obtain ⟨w', hw⟩ := message_plain_calm (clientConf (clientOf p)) rfl ws ⟨up, []⟩ hc
    rw [h] at hw
    cases hw
    rw [hok rfl]; exact hreq

end Proxy
end Frpc
