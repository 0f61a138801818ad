import Verif.Proofs.Proxy
import Verif.Props.ProxyCache
/-!
# The server proxy: C52, C76, C77, C78, C79, C80
-/
namespace Frpc
open Proxy HttpIO HttpOut HttpServer Spec.Http Spec.Proxy

namespace Proxy

/-- What a call sends, with the protocol as it is chosen. -/
theorem request_sent (env : Proxy.Env) (url : Url.Url) (cfg : Config) (before : List Op) (name : Bytes) (args : List Value) (t : Turn) (res : Result) (p' : Proxy)
    (id : Nat) (bytes : Bytes) (h : call env (Proxy.after env (new url cfg) before) name args t = (res, p', some (id, bytes))) :
    ∃ ws, packCall env.strOk env.dbl (chooseBinary (Proxy.after env (new url cfg) before)) (versionNow env.codec cfg (results env (new url cfg) before)) name args = (ws, none) ∧
      (ws.flatten.length < 2 ^ 32 →
        let req := request (clientTarget url).1 (clientTarget url).2 cfg.http10 (chooseBinary (Proxy.after env (new url cfg) before)) cfg.keepAlive
          (permanentFields before ++ onceFields before) ws.flatten
        bytes <+: req ∧ (CalmOut true t.up → bytes = req)) := by
  obtain ⟨k1, k2, k3, k4, k5, k6, k7⟩ := known env url cfg before
  have hx := call_ends env (Proxy.after env (new url cfg) before) name args t
  rw [h] at hx
  obtain ⟨ws, s, made, m, w, h1, h2, h3, h4, h5⟩ := hx.sent
  refine ⟨ws, k6 ▸ h1, fun hlen => ?_⟩
  have := sent_request _ ws t.up m w hlen h4
  simp only [k1, k3, k4, k2.1, k2.2.2] at this
  subst h5
  exact ⟨this.1, this.2.2⟩

/-! Examples below use these. -/

/-- A URL. -/
def aUrl : Url.Url := ⟨asc "h", 80, asc "/RPC2", false, false⟩
/-- Settings. -/
def aConfig (keepAlive : Bool) (mode : Nat) : Config := ⟨1000, 1000, 1000, keepAlive, mode, false, ⟨2, 1⟩⟩
/-- Unmarshallers that take everything. -/
def anEnv : Proxy.Env := ⟨fun _ => true, fun _ => [], ⟨fun _ _ => none, fun _ _ => none, fun _ _ => ⟨2, 1⟩⟩⟩
/-- A reply of an HTTP server. -/
def aReply (data : Bytes) : Bytes :=
  asc "HTTP/1.1 200 OK\r\nContent-Type: application/x-frpc\r\nAccept: text/xml, application/x-frpc\r\nContent-Length: " ++ dec data.length ++ asc "\r\n\r\n" ++ data
/-- A call in which all goes well. -/
def aTurn : Turn := ⟨[], false, false, true, [], fun _ => aReply (asc "abc"), []⟩
/-- The response a call came to. -/
def got : Result → Option (Bytes × Bool)
  | .response r => some (r.body.flatten, r.close)
  | _ => none

end Proxy

/-- **C77.** Each call sends its whole request and nothing else (or a beginning of it, if the connection fails): the request line and the
header for the URL and the settings, the fields added for all calls, the fields added for this call, and the call. -/
theorem C77_request (env : Proxy.Env) (url : Url.Url) (cfg : Config) (before : List Op) (name : Bytes) (args : List Value) (t : Turn) (res : Result) (p' : Proxy)
    (id : Nat) (bytes : Bytes) (h : call env (Proxy.after env (new url cfg) before) name args t = (res, p', some (id, bytes))) :
    ∃ binary ws, packCall env.strOk env.dbl binary (versionNow env.codec cfg (results env (new url cfg) before)) name args = (ws, none) ∧
      (ws.flatten.length < 2 ^ 32 →
        let req := request (clientTarget url).1 (clientTarget url).2 cfg.http10 binary cfg.keepAlive (permanentFields before ++ onceFields before) ws.flatten
        bytes <+: req ∧ (CalmOut true t.up → bytes = req)) :=
  ⟨_, request_sent env url cfg before name args t res p' id bytes h⟩

/-- A call with a permanent field and one for the call. -/
example :
    (call anEnv (Proxy.after anEnv (new aUrl (aConfig true always)) [.addPermanent (asc "A", asc "1"), .addOnce (asc "B", asc "2")]) (asc "m") [] aTurn).2.2 =
      some (0, asc "POST /RPC2 HTTP/1.1\r\nHost: h:80\r\nContent-Type: application/x-frpc\r\nAccept: text/xml, application/x-frpc\r\nConnection: keep-alive\r\nContent-Length: 7\r\nA: 1\r\nB: 2\r\n\r\n" ++
        [0xCA, 0x11, 2, 1, 0x68, 1, 109]) := by decide +kernel

/-- The next call, on the same connection, has the permanent field only. -/
example :
    (call anEnv (Proxy.after anEnv (new aUrl (aConfig true always)) [.addPermanent (asc "A", asc "1"), .addOnce (asc "B", asc "2"), .call (asc "m") [] aTurn])
      (asc "m") [] aTurn).2.2 =
      some (0, asc "POST /RPC2 HTTP/1.1\r\nHost: h:80\r\nContent-Type: application/x-frpc\r\nAccept: text/xml, application/x-frpc\r\nConnection: keep-alive\r\nContent-Length: 7\r\nA: 1\r\n\r\n" ++
        [0xCA, 0x11, 2, 1, 0x68, 1, 109]) := by decide +kernel

/-- **C77.** A field added for one call is gone after the next call, whatever that comes to, and permanent ones stay. -/
theorem C77_once (before : List Op) (name : Bytes) (args : List Value) (t : Turn) :
    onceFields (before ++ [.call name args t]) = [] ∧ permanentFields (before ++ [.call name args t]) = permanentFields before := by
  rw [onceFields_snoc, permanentFields_snoc]
  simp [endsOnce, endsPermanent, permanentField]

example : onceFields [.addOnce (asc "A", asc "1"), .call [] [] aTurn, .addOnce (asc "B", asc "2"), .forwardedFor (asc "::1")] =
    [(asc "B", asc "2"), (asc "X-Forwarded-For", asc "::1")] := by decide +kernel

/-- **C76.** The protocol of a call: as configured; with `ON_SUPPORT` as the server announced in its last response; in the default mode XML
to every server that announces XML and to every server if connections are not kept. -/
theorem C76_protocol (env : Proxy.Env) (url : Url.Url) (cfg : Config) (before : List Op) (name : Bytes) (args : List Value) (t : Turn) (res : Result) (p' : Proxy)
    (id : Nat) (bytes : Bytes) (h : call env (Proxy.after env (new url cfg) before) name args t = (res, p', some (id, bytes))) :
    ∃ binary ws, packCall env.strOk env.dbl binary (versionNow env.codec cfg (results env (new url cfg) before)) name args = (ws, none) ∧
      (ws.flatten.length < 2 ^ 32 → bytes <+: request (clientTarget url).1 (clientTarget url).2 cfg.http10 binary cfg.keepAlive
        (permanentFields before ++ onceFields before) ws.flatten) ∧
      (cfg.mode = always → binary = true) ∧ (cfg.mode = never → binary = false) ∧
      (cfg.mode = onSupport → binary = (announced (results env (new url cfg) before)).2) ∧
      (cfg.mode = onSupportOnKeepAlive → (announced (results env (new url cfg) before)).1 = true ∨ cfg.keepAlive = false → binary = false) := by
  obtain ⟨ws, h1, h2⟩ := request_sent env url cfg before name args t res p' id bytes h
  obtain ⟨k1, k2, k3, k4, k5, k6, k7⟩ := known env url cfg before
  refine ⟨_, ws, h1, fun hl => (h2 hl).1, ?_, ?_, ?_, ?_⟩
  · intro hm; unfold chooseBinary; rw [k2.2.1, hm]; rfl
  · intro hm; unfold chooseBinary; rw [k2.2.1, hm]; rfl
  · intro hm; unfold chooseBinary; rw [k2.2.1, hm, if_pos rfl, k5]
  · intro hm hx
    unfold chooseBinary
    rw [k2.2.1, hm, k2.1, k5, if_neg (by decide), if_neg (by decide), if_neg (by decide)]
    rcases hx with hx | hx <;> simp [hx]

/-- With `ON_SUPPORT` the first call is in XML, the next one in binary, as the server announced it. -/
example :
    let rs := results anEnv (new aUrl (aConfig true onSupport)) [.call (asc "m") [] aTurn, .call (asc "m") [] aTurn]
    rs.map (fun r => r.2.map (fun s => (s.1, hasSub (asc "Content-Type: text/xml") s.2, hasSub (asc "Content-Type: application/x-frpc") s.2))) =
      [some (0, true, false), some (0, false, true)] := by decide +kernel

/-- **C76** fails for the default mode, in which binary should be used on kept connections when the server supports it
(`src/frpcserverproxy.cc:231-249`): a server that announces both protocols is called in XML in all calls of all histories. In particular
FastRPC's own server is. -/
theorem C76_default_violated (env : Proxy.Env) (url : Url.Url) (cfg : Config) (hmode : cfg.mode = onSupportOnKeepAlive)
    (os : List Op) (hboth : ∀ x ∈ results env (new url cfg) os, ∀ r, x.1 = .response r → r.accepts = some (true, true))
    (before : List Op) (o : List Op) (hos : os = before ++ o)
    (name : Bytes) (args : List Value) (t : Turn) (res : Result) (p' : Proxy) (id : Nat) (bytes : Bytes)
    (h : call env (Proxy.after env (new url cfg) before) name args t = (res, p', some (id, bytes))) :
    ∃ ws, packCall env.strOk env.dbl false (versionNow env.codec cfg (results env (new url cfg) before)) name args = (ws, none) ∧
      (ws.flatten.length < 2 ^ 32 → bytes <+: request (clientTarget url).1 (clientTarget url).2 cfg.http10 false cfg.keepAlive
        (permanentFields before ++ onceFields before) ws.flatten) := by
  obtain ⟨binary, ws, h1, h2, -, -, -, h3⟩ := C76_protocol env url cfg before name args t res p' id bytes h
  have hb : binary = false := by
    refine h3 hmode (Or.inl ?_)
    have hlast : ∀ rs : List (Result × Sent), (∀ x ∈ rs, ∀ r, x.1 = .response r → r.accepts = some (true, true)) → (announced rs).1 = true := by
      intro rs
      unfold announced
      induction rs with
      | nil => intro _; rfl
      | cons x rs ih =>
        intro hx
        have ih := ih (fun y hy => hx y (List.mem_cons_of_mem _ hy))
        simp only [lastResponse]
        cases hl : lastResponse rs with
        | some y => rw [hl] at ih; exact ih
        | none =>
          have hx := hx x List.mem_cons_self
          obtain ⟨x, s⟩ := x
          cases x with
          | response r => simp [hx r rfl]
          | _ => rfl
    refine hlast _ (fun x hx => hboth x ?_)
    rw [hos, results_append]
    exact List.mem_append_left _ hx
  subst hb
  exact ⟨ws, h1, h2⟩

/-- Both calls of the example above, in the default mode. -/
example :
    let rs := results anEnv (new aUrl (aConfig true onSupportOnKeepAlive)) [.call (asc "m") [] aTurn, .call (asc "m") [] aTurn]
    rs.map (fun r => r.2.map (fun s => (s.1, hasSub (asc "Content-Type: text/xml") s.2, hasSub (asc "Content-Type: application/x-frpc") s.2))) =
      [some (0, true, false), some (0, true, false)] ∧
    rs.map (fun r => match r.1 with | .response r => r.accepts | _ => none) = [some (true, true), some (true, true)] := by decide +kernel

/-- **C79.** The version of a binary call is the one of the last response that was read, and the configured one before the first. -/
theorem C79_version (env : Proxy.Env) (url : Url.Url) (cfg : Config) (hmode : cfg.mode = always) (before : List Op) (name : Bytes) (args : List Value) (t : Turn)
    (res : Result) (p' : Proxy) (id : Nat) (bytes : Bytes) (h : call env (Proxy.after env (new url cfg) before) name args t = (res, p', some (id, bytes)))
    (hcalm : CalmOut true t.up) :
    let v := versionNow env.codec cfg (results env (new url cfg) before)
    ∃ payload, (4 + payload.length < 2 ^ 32 → bytes = request (clientTarget url).1 (clientTarget url).2 cfg.http10 true cfg.keepAlive
      (permanentFields before ++ onceFields before) ([0xCA, 0x11, v.major, v.minor] ++ payload)) ∧ v.major ≤ 3 := by
  intro v
  obtain ⟨ws, h1, h2⟩ := request_sent env url cfg before name args t res p' id bytes h
  obtain ⟨k1, k2, k3, k4, k5, k6, k7⟩ := known env url cfg before
  have hb : chooseBinary (Proxy.after env (new url cfg) before) = true := by unfold chooseBinary; rw [k2.2.1, hmode]; rfl
  rw [hb] at h1 h2
  have hacc : BinMarshaller.accepts v = true := by
    cases ha : BinMarshaller.accepts v with
    | true => rfl
    | false => simp [packCall, v, ha] at h1
  have : ∃ payload, ws.flatten = [0xCA, 0x11, v.major, v.minor] ++ payload := by
    simp only [packCall, if_true] at h1
    rw [if_pos hacc] at h1
    simp only [BinMarshaller.run, BinMarshaller.pack] at h1
    split at h1
    · next hh => split at hh <;> simp at hh; cases h1
    · next hh =>
      split at hh <;> simp at hh
      subst hh
      simp only [Prod.mk.injEq] at h1
      rw [← h1.1]
      exact ⟨_, by simp [BinMarshaller.packMagic]; exact ⟨rfl, rfl, rfl⟩⟩
  obtain ⟨payload, hp⟩ := this
  refine ⟨payload, fun hl => ?_, ?_⟩
  · have := (h2 (by rw [hp]; simp; omega)).2 hcalm
    rw [hp] at this
    exact this
  · simp only [BinMarshaller.accepts, Bool.not_eq_true', decide_eq_false_iff_not] at hacc
    exact UInt8.not_lt.1 hacc

/-- A server that answers in version 1.0 gets the next call in version 1.0, although 2.1 is configured. -/
example :
    let env : Proxy.Env := { anEnv with codec := { anEnv.codec with version := fun _ _ => ⟨1, 0⟩ } }
    let rs := results env (new aUrl (aConfig true always)) [.call (asc "m") [] aTurn, .call (asc "m") [] aTurn]
    rs.map (fun r => r.2.map (fun s => s.2.drop (s.2.length - 7))) = [some [0xCA, 0x11, 2, 1, 0x68, 1, 109], some [0xCA, 0x11, 1, 0, 0x68, 1, 109]] := by
  decide +kernel

/-- **C80.** A call that cannot be marshalled sends nothing and leaves the connection, the permanent fields and the settings as they are. -/
theorem C80_packing (env : Proxy.Env) (p : Proxy) (name : Bytes) (args : List Value) (t : Turn) (ws : List Bytes) (e : Err)
    (h : packCall env.strOk env.dbl (chooseBinary p) p.version name args = (ws, some e)) :
    call env p name args t = (.packing e, { p with once := [] }, none) := by
  unfold call
  simp only [h]

/-- **C80.** And only such calls give an exception of the marshaller. -/
theorem C80_only (env : Proxy.Env) (p p' : Proxy) (name : Bytes) (args : List Value) (t : Turn) (e : Err) (s : Sent)
    (h : call env p name args t = (.packing e, p', s)) :
    ∃ ws, packCall env.strOk env.dbl (chooseBinary p) p.version name args = (ws, some e) := by
  have hx := call_ends env p name args t
  rw [h] at hx
  cases hx with
  | packing ws e h1 => exact ⟨ws, h1⟩

/-- A call with an empty method name between two others. -/
example :
    let rs := results anEnv (new aUrl (aConfig true always)) [.call (asc "m") [] aTurn, .call [] [] aTurn, .call (asc "m") [] aTurn]
    rs.map (fun r => (got r.1, r.2.map (·.1))) = [(some (asc "abc", false), some 0), (none, none), (some (asc "abc", false), some 0)] := by decide +kernel

/-! ## Which connection -/

namespace Proxy

theorem connectSocket_id (p : Proxy) (t : Turn) (s : Sock) (made : Nat) (hc : connectSocket p t = (some s, made)) :
    (s = ⟨p.made, []⟩ ∧ made = p.made + 1) ∨ (p.cfg.keepAlive = true ∧ made = p.made ∧ ∃ s0, p.sock = some s0 ∧ s = ⟨s0.id, s0.unread ++ t.arrived⟩) := by
  unfold connectSocket at hc
  simp only at hc
  have fresh : (if t.connect then ((some ⟨p.made, []⟩, p.made + 1) : Option Sock × Nat) else (none, p.made)) = (some s, made) → s = ⟨p.made, []⟩ ∧ made = p.made + 1 := by
    intro hc
    split at hc <;> cases hc
    exact ⟨rfl, rfl⟩
  split at hc
  · exact .inl (fresh hc)
  · next s0 hs =>
    split at hc
    · exact .inl (fresh hc)
    · next hk =>
      split at hc
      · exact .inl (fresh hc)
      · split at hc
        · exact .inl (fresh hc)
        · cases hc
          exact .inr ⟨by simpa using hk, rfl, s0, hs, rfl⟩

/-- The connection with that number is not used any more. -/
def Gone (id : Nat) (p : Proxy) : Prop := id < p.made ∧ ∀ s, p.sock = some s → s.id ≠ id

theorem Gone.step {id : Nat} {p : Proxy} (h : Gone id p) (env : Proxy.Env) (o : Op) :
    Gone id (step env p o).2 ∧ ∀ x, (step env p o).1 = some x → ∀ b, x.2 ≠ some (id, b) := by
  cases o with
  | call name args t =>
    have hx := call_ends env p name args t
    simp only [Proxy.step]
    generalize call env p name args t = x at hx
    have hne : ∀ s made, connectSocket p t = (some s, made) → s.id ≠ id ∧ id < made := by
      intro s made hc
      rcases connectSocket_id p t s made hc with ⟨rfl, rfl⟩ | ⟨-, rfl, s0, h0, rfl⟩
      · have := h.1; exact ⟨by simp only; omega, by omega⟩
      · exact ⟨h.2 s0 h0, h.1⟩
    cases hx with
    | packing ws e h1 => exact ⟨h, fun x hx b => by cases hx; simp⟩
    | connect ws made h1 h2 =>
      refine ⟨⟨?_, fun s hs => by cases hs⟩, fun x hx b => by cases hx; simp⟩
      unfold connectSocket at h2
      simp only at h2
      have := h.1
      split at h2 <;> repeat' (split at h2)
      all_goals first | (cases h2; exact this) | cases h2
    | sending ws s made e w h1 h2 h3 =>
      have := hne s made h2
      exact ⟨⟨this.2, fun s hs => by cases hs⟩, fun x hx b => by cases hx; simp [this.1]⟩
    | reading ws s made m e w conn h1 h2 h3 h4 =>
      have := hne s made h2
      exact ⟨⟨this.2, fun s hs => by cases hs⟩, fun x hx b => by cases hx; simp [this.1]⟩
    | response ws s made m r w conn h1 h2 h3 h4 =>
      have := hne s made h2
      refine ⟨⟨this.2, fun s' hs => ?_⟩, fun x hx b => by cases hx; simp [this.1]⟩
      simp only at hs
      split at hs
      · cases hs
      · cases hs; exact this.1
  | _ => exact ⟨h, fun x hx => by cases hx⟩

theorem Gone.results {id : Nat} (env : Proxy.Env) : ∀ (os : List Op) {p : Proxy}, Gone id p → ∀ x ∈ results env p os, ∀ b, x.2 ≠ some (id, b) := by
  intro os
  induction os with
  | nil => intro p _ x hx; cases hx
  | cons o os ih =>
    intro p h x hx
    obtain ⟨h1, h2⟩ := h.step env o
    simp only [Proxy.results, List.mem_append] at hx
    rcases hx with hx | hx
    · exact h2 x (by simpa using hx)
    · exact ih h1 x hx

end Proxy

/-- **C78.** The connection of a call that fails is never used again. -/
theorem C78_failed (env : Proxy.Env) (url : Url.Url) (cfg : Config) (before : List Op) (name : Bytes) (args : List Value) (t : Turn) (res : Result) (p' : Proxy)
    (id : Nat) (bytes : Bytes) (h : call env (Proxy.after env (new url cfg) before) name args t = (res, p', some (id, bytes))) (hfail : ¬ Answered res)
    (later : List Op) : ∀ x ∈ results env p' later, ∀ b, x.2 ≠ some (id, b) := by
  have k := known env url cfg before
  have hx := call_ends env (Proxy.after env (new url cfg) before) name args t
  rw [h] at hx
  have : Gone id p' := by
    cases hx with
    | sending ws s made e w h1 h2 h3 => exact ⟨(connectSocket_made _ t k.hids _ _ h2).2 s rfl, fun s hs => by cases hs⟩
    | reading ws s made m e w conn h1 h2 h3 h4 => exact ⟨(connectSocket_made _ t k.hids _ _ h2).2 s rfl, fun s hs => by cases hs⟩
    | response => exact absurd trivial hfail
  exact this.results env later

/-- A response that does not come (the peer closes the connection): the next call makes a new connection. -/
example :
    let rs := results anEnv (new aUrl (aConfig true always)) [.call (asc "m") [] aTurn, .call (asc "m") [] { aTurn with reply := fun _ => asc "HTTP/1.1 200 O" },
      .call (asc "m") [] aTurn]
    rs.map (fun r => (got r.1, r.2.map (·.1))) = [(some (asc "abc", false), some 0), (none, some 0), (some (asc "abc", false), some 1)] := by decide +kernel

/-- **C78.** Without keep-alive no two calls use one connection. -/
theorem C78_single (env : Proxy.Env) (url : Url.Url) (cfg : Config) (hk : cfg.keepAlive = false) (before : List Op) (name : Bytes) (args : List Value) (t : Turn)
    (res : Result) (p' : Proxy) (id : Nat) (bytes : Bytes) (h : call env (Proxy.after env (new url cfg) before) name args t = (res, p', some (id, bytes)))
    (later : List Op) : ∀ x ∈ results env p' later, ∀ b, x.2 ≠ some (id, b) := by
  have hx := call_ends env (Proxy.after env (new url cfg) before) name args t
  have k := known env url cfg before
  have hkn : (Proxy.after env (new url cfg) before).cfg.keepAlive = false := k.hcfg.1.trans hk
  have hids := k.hids
  have : Gone id p' := by
    rw [h] at hx
    generalize Proxy.after env (new url cfg) before = p at *
    cases hx with
    | sending ws s made e w h1 h2 h3 => exact ⟨(connectSocket_made _ t hids _ _ h2).2 s rfl, fun s hs => by cases hs⟩
    | reading ws s made m e w conn h1 h2 h3 h4 => exact ⟨(connectSocket_made _ t hids _ _ h2).2 s rfl, fun s hs => by cases hs⟩
    | response ws s made m r w conn h1 h2 h3 h4 =>
      refine ⟨(connectSocket_made _ t hids _ _ h2).2 s rfl, fun s' hs => ?_⟩
      have hclose : r.close = true := by
        rw [hkn] at h4
        exact readResponse_closes _ _ _ _ _ _ h4
      simp [hclose] at hs
  exact this.results env later

/-- Two calls without keep-alive. -/
example :
    let rs := results anEnv (new aUrl (aConfig false always)) [.call (asc "m") [] aTurn, .call (asc "m") [] aTurn]
    rs.map (fun r => (got r.1, r.2.map (·.1))) = [(some (asc "abc", true), some 0), (some (asc "abc", true), some 1)] := by decide +kernel

/-- **C78.** A connection is kept after a response unless one side says otherwise: if it is still open, the next call uses it. -/
theorem C78_reuse (env : Proxy.Env) (url : Url.Url) (cfg : Config) (hk : cfg.keepAlive = true) (before : List Op) (name : Bytes) (args : List Value) (t : Turn)
    (r : Response) (p' : Proxy) (id : Nat) (bytes : Bytes) (h : call env (Proxy.after env (new url cfg) before) name args t = (.response r, p', some (id, bytes)))
    (hr : r.close = false) (hcalm : CalmOut true t.up)
    (name2 : Bytes) (args2 : List Value) (t2 : Turn) (hopen : t2.broken = false ∧ t2.closed = false) (res : Result) (p'' : Proxy) (id2 : Nat) (bytes2 : Bytes)
    (h2 : call env p' name2 args2 t2 = (res, p'', some (id2, bytes2))) : id2 = id := by
  have k := known env url cfg before
  have hx := call_ends env (Proxy.after env (new url cfg) before) name args t
  have hkn : (Proxy.after env (new url cfg) before).cfg.keepAlive = true := k.hcfg.1.trans hk
  rw [h] at hx
  generalize Proxy.after env (new url cfg) before = p at *
  cases hx with
  | response ws s made m r w conn g1 g2 g3 g4 =>
    obtain ⟨w', hw⟩ := message_plain_calm (clientConf (clientOf p)) rfl ws ⟨t.up, []⟩ hcalm
    rw [g3] at hw
    cases hw
    have hx2 := h2 ▸ call_ends env _ name2 args2 t2
    obtain ⟨ws2, s2, made2, m2, w2, -, e2, e3, -⟩ := hx2.sent
    rw [← e3]
    unfold connectSocket at e2
    simp only [hr, Bool.false_or, reduceCtorEq, decide_false, Bool.false_eq_true, if_false, hkn, hopen.1, hopen.2, and_false] at e2
    simp only [Bool.true_eq_false, if_false, Prod.mk.injEq, Option.some.injEq] at e2
    rw [← e2.1]

/-! ## Whose answer -/

namespace Proxy

/-- Nothing but the end of a line is left unread. -/
def Clean (p : Proxy) : Prop := ∀ s, p.sock = some s → Tail s.unread

theorem connectSocket_clean {p : Proxy} (h : Clean p) {t : Turn} (ht : t.arrived = []) {s : Sock} {made : Nat} (hc : connectSocket p t = (some s, made)) :
    Tail s.unread := by
  rcases connectSocket_id p t s made hc with ⟨rfl, -⟩ | ⟨-, -, s0, h0, rfl⟩
  · exact .inl rfl
  · simp only [ht, List.append_nil]; exact h s0 h0

theorem own_of {env : Proxy.Env} {keepAlive : Bool} {d : Reply} (hd : d.Ok) {unread : Bytes} (hu : Tail unread) {back : List Ev} {r : Response} {conn : Conn}
    (h : readResponse (-1, -1) env.codec.feed env.codec.finish keepAlive ⟨unread ++ d.text, back, []⟩ = (.ok r, conn)) :
    d.status = 200 ∧ ResponseIn ((field (asc "Content-Type") d.fields).getD []) r.kind ∧ r.body.flatten = d.data ∧ Tail conn.data ∧
      (r.close = false ↔ keepAlive = true ∧ Persists d.http11 (field (asc "Connection") d.fields)) ∧
      r.accepts = (field (asc "Accept") d.fields).map (fun a => (hasSub (asc "text/xml") a, hasSub (asc "application/x-frpc") a)) := by
  obtain ⟨h1, h2, h3, ⟨pre, h4, h5⟩, h6, h7⟩ := readResponse_own (-1, -1) env.codec.feed env.codec.finish keepAlive d.blank d.http11 d.status hd.status d.reason hd.reason.1
    hd.reason.2.1 hd.reason.2.2 d.lines hd.lines d.fields hd.fields d.data d.body [] hd.framed hd.length unread hu _ conn (by simp [Reply.text]) r h
  exact ⟨h1, h2, h3, by rw [h5, List.append_nil]; exact h4, h6, h7⟩

theorem Clean.step {p : Proxy} (h : Clean p) (env : Proxy.Env) (o : Op) (ho : ∀ name args t, o = .call name args t → Orderly t) : Clean (step env p o).2 := by
  cases o with
  | call name args t =>
    obtain ⟨h1, h2⟩ := ho name args t rfl
    have hx := call_ends env p name args t
    simp only [Proxy.step]
    generalize call env p name args t = x at hx
    cases hx with
    | packing => exact h
    | connect => intro s hs; cases hs
    | sending => intro s hs; cases hs
    | reading => intro s hs; cases hs
    | response ws s made m r w conn g1 g2 g3 g4 =>
      intro s' hs
      simp only at hs
      split at hs
      · cases hs
      · cases hs
        obtain ⟨d, hd, e⟩ := h2 w.wire.sent
        rw [e] at g4
        exact (own_of hd (connectSocket_clean h h1 g2) g4).2.2.2.1
  | _ => exact h

theorem Clean.after (env : Proxy.Env) : ∀ (os : List Op) {p : Proxy}, Clean p → OrderlyAll os → Clean (Proxy.after env p os) := by
  intro os
  induction os with
  | nil => intro p h _; exact h
  | cons o os ih =>
    intro p h ho
    exact ih (h.step env o (ho o List.mem_cons_self)) (fun o' h' => ho o' (List.mem_cons_of_mem _ h'))

end Proxy

/-- **C78.** If the server sends one response to each request and nothing else, then whatever connections break, responses stay away or time
out: a call that gives a response gives the one that answers its own request. -/
theorem C78_own (env : Proxy.Env) (url : Url.Url) (cfg : Config) (before : List Op) (hbefore : OrderlyAll before) (name : Bytes) (args : List Value) (t : Turn)
    (harrived : t.arrived = []) (r : Response) (p' : Proxy) (id : Nat) (bytes : Bytes)
    (h : call env (Proxy.after env (new url cfg) before) name args t = (.response r, p', some (id, bytes)))
    (d : Reply) (hd : d.Ok) (hreply : t.reply bytes = d.text) :
    d.status = 200 ∧ ResponseIn ((field (asc "Content-Type") d.fields).getD []) r.kind ∧ r.body.flatten = d.data ∧
      (r.close = false ↔ cfg.keepAlive = true ∧ Persists d.http11 (field (asc "Connection") d.fields)) ∧
      r.accepts = (field (asc "Accept") d.fields).map (fun a => (hasSub (asc "text/xml") a, hasSub (asc "application/x-frpc") a)) := by
  have k := known env url cfg before
  have hc : Clean (Proxy.after env (new url cfg) before) := Clean.after env before (fun s hs => by cases hs) hbefore
  have hx := call_ends env (Proxy.after env (new url cfg) before) name args t
  rw [h] at hx
  have hk := k.hcfg.1
  generalize Proxy.after env (new url cfg) before = p at *
  cases hx with
  | response ws s made m r w conn g1 g2 g3 g4 =>
    rw [hreply, hk] at g4
    obtain ⟨h1, h2, h3, -, h5, h6⟩ := own_of hd (connectSocket_clean hc harrived g2) g4
    exact ⟨h1, h2, h3, h5, h6⟩

/-- The reply of the examples is such a response, and `C78_own` speaks about these calls. -/
example : Orderly aTurn := by
  refine ⟨rfl, fun _ => ⟨⟨0, true, 200, asc "OK",
    [.field (asc "Content-Type") (asc " application/x-frpc"), .field (asc "Accept") (asc " text/xml, application/x-frpc"), .field (asc "Content-Length") (asc " 3")],
    [(asc "Content-Type", asc "application/x-frpc"), (asc "Accept", asc "text/xml, application/x-frpc"), (asc "Content-Length", asc "3")], asc "abc", asc "abc"⟩,
    ⟨by decide, by decide, ?_, by decide, .inl ⟨by decide +kernel, rfl⟩, by decide⟩, ?_⟩⟩
  rotate_left
  · show aReply (asc "abc") = _
    decide +kernel
  intro l hl
  simp only [List.mem_cons, List.not_mem_nil, or_false] at hl
  rcases hl with rfl | rfl | rfl <;> exact ⟨by decide, by decide, by decide, by intro c hc; simp [asc] at hc; subst hc; decide, by decide⟩

/-- **C78** fails if anything else arrives on a kept connection, for instance a notice of the server that the connection was idle for too long:
a connection with unread bytes is used again, and the bytes are taken for the answer (`src/frpcconnector.cc:184-219`). All later calls get
the answer to the call before. -/
theorem C78_unsolicited_violated :
    let rs := results anEnv (new aUrl (aConfig true always))
      [.call (asc "m") [] { aTurn with reply := fun _ => aReply (asc "1") },
       .call (asc "m") [] { aTurn with arrived := aReply (asc "?"), reply := fun _ => aReply (asc "2") },
       .call (asc "m") [] { aTurn with reply := fun _ => aReply (asc "3") }]
    rs.map (fun r => (got r.1, r.2.map (·.1))) = [(some (asc "1", false), some 0), (some (asc "?", false), some 0), (some (asc "2", false), some 0)] := by
  decide +kernel

/-! ## Through the cache -/

namespace ProxyCache
variable {α : Type}

/-- All proxies in the cache. -/
def All (P : Url.Url → α → Prop) (c : Cache α) : Prop := ∀ i, ∀ e ∈ (c i).items, P e.key e.impl

theorem All.setQueue {P : Url.Url → α → Prop} {c : Cache α} (h : All P c) (i : Nat) (q : Queue α) (hq : ∀ e ∈ q.items, P e.key e.impl) : All P (setQueue c i q) := by
  intro j e he
  unfold ProxyCache.setQueue at he
  split at he
  · exact hq e he
  · exact h j e he

theorem All.schedule {P : Url.Url → α → Prop} {c : Cache α} (h : All P c) (e : Entry α) (he : P e.key e.impl) (now : Nat) : All P (schedule e now c) := by
  unfold ProxyCache.schedule
  refine h.setQueue _ _ (fun x hx => ?_)
  simp only [List.mem_append, List.mem_singleton] at hx
  rcases hx with hx | rfl
  · exact h _ x hx
  · exact he

theorem All.drain {P : Url.Url → α → Prop} (now i : Nat) : ∀ (n : Nat) {c : Cache α}, All P c → All P (drain now i n c) := by
  intro n
  induction n with
  | zero => intro c h; exact h
  | succ n ih =>
    intro c h
    unfold ProxyCache.drain
    split
    · exact h
    · next e es hs =>
      have hall : ∀ x ∈ e :: es, P x.key x.impl := fun x hx => h i x (hs ▸ hx)
      have hes : ∀ hd, All P (ProxyCache.setQueue c i ⟨hd, es⟩) := fun hd => h.setQueue _ _ (fun x hx => hall x (List.mem_cons_of_mem _ hx))
      split
      · exact h.setQueue _ _ hall
      · split
        · exact ih ((hes _).schedule e (hall e List.mem_cons_self) now)
        · exact ih (hes _)

theorem All.upkeep {P : Url.Url → α → Prop} (now : Nat) {c : Cache α} (h : All P c) : All P (upkeep now c) := by
  unfold ProxyCache.upkeep
  generalize List.range QUEUES = l
  induction l generalizing c with
  | nil => exact h
  | cons i l ih =>
    refine ih (c := upkeepOne now i c) ?_
    unfold upkeepOne
    split
    · exact h
    · exact h.drain now i _

theorem All.lookup {P : Url.Url → α → Prop} (timeout : Int) (now pick : Nat) (url : Url.Url) {c : Cache α} (h : All P c) (r : Option α) (c' : Cache α)
    (hl : lookup timeout now pick url c = (r, c')) : All P c' ∧ ∀ x, r = some x → ∃ u, Spec.Pool.SamePlace u url ∧ P u x := by
  unfold ProxyCache.lookup at hl
  split at hl
  · cases hl; exact ⟨h, fun x hx => by cases hx⟩
  · have hu := h.upkeep now
    generalize ProxyCache.upkeep now c = d at hl hu
    simp only at hl
    split at hl
    · cases hl; exact ⟨hu, fun x hx => by cases hx⟩
    · next p hp =>
      cases hl
      obtain ⟨-, h1, h2⟩ := mem_places.1 (find_some hp)
      refine ⟨hu.setQueue _ _ (fun x hx => hu p.queue x ?_), fun x hx => ?_⟩
      · rw [h2]
        simp only [List.mem_append] at hx
        simp only [List.mem_append, List.mem_cons]
        rcases hx with hx | hx
        · exact .inl hx
        · exact .inr (.inr hx)
      · cases hx
        exact ⟨p.entry.key, (equiv_iff _ _).1 h1, hu p.queue p.entry (by rw [h2]; simp)⟩

theorem All.moveInto {P : Url.Url → α → Prop} (timeout : Int) (now now' : Nat) (url : Url.Url) (x : α) {c : Cache α} (h : All P c) (hx : P url x) :
    All P (moveInto timeout now now' url x c) := by
  unfold ProxyCache.moveInto
  split
  · exact h
  · exact (h.upkeep now).schedule _ hx _

end ProxyCache

namespace Proxy

/-- A property of proxies that holds of all proxies of a process. -/
structure Always (P : Proxy → Prop) (w : World) : Prop where
  live : ∀ n p, w.live n = some p → P p
  cache : ProxyCache.All (fun u p => u = p.url ∧ p.cfg.keepAlive = true ∧ P p) w.cache

/-- It holds of all if it holds of new ones, and use and adoption keep it. -/
theorem Always.act {P : Proxy → Prop} {env : Proxy.Env} {timeout : Int} {w : World} (h : Always P w) (a : Proxy.Act)
    (hnew : ∀ n now pick url cfg, a = .create n now pick url cfg → P (new url cfg))
    (hadopt : ∀ n now pick url cfg, a = .create n now pick url cfg → ∀ p, P p → p.cfg.keepAlive = true → cfg.keepAlive = true → P (adopt cfg p))
    (huse : ∀ n o, a = .use n o → ∀ p, w.live n = some p → P p → P (step env p o).2) : Always P (act env timeout w a) := by
  cases a with
  | create name now pick url cfg =>
    have hnew := hnew _ _ _ _ _ rfl
    have hadopt := hadopt _ _ _ _ _ rfl
    simp only [Proxy.act]
    split
    · exact h
    · have key : P (create timeout now pick url cfg w.cache).1 ∧ ProxyCache.All (fun u p => u = p.url ∧ p.cfg.keepAlive = true ∧ P p) (create timeout now pick url cfg w.cache).2 := by
        unfold create
        split
        · next hk =>
          generalize hl : ProxyCache.lookup timeout now pick url w.cache = r
          obtain ⟨r, c⟩ := r
          obtain ⟨h1, h2⟩ := h.cache.lookup timeout now pick url r c hl
          cases r with
          | none => exact ⟨hnew, h1⟩
          | some p =>
            obtain ⟨u, -, -, h3, h4⟩ := h2 p rfl
            exact ⟨hadopt p h4 h3 hk, h1⟩
        · exact ⟨hnew, h.cache⟩
      refine ⟨fun n p hp => ?_, key.2⟩
      simp only at hp
      split at hp
      · cases hp; exact key.1
      · exact h.live n p hp
  | use name o =>
    simp only [Proxy.act]
    split
    · next p hp =>
      refine ⟨fun n q hq => ?_, h.cache⟩
      simp only at hq
      split at hq
      · cases hq; exact huse _ _ rfl p hp (h.live name p hp)
      · exact h.live n q hq
    · exact h
  | destroy name now now' =>
    simp only [Proxy.act]
    split
    · next p hp =>
      refine ⟨fun n q hq => ?_, ?_⟩
      · simp only at hq
        split at hq
        · cases hq
        · exact h.live n q hq
      · simp only [destroy]
        split
        · next hk => exact h.cache.moveInto timeout now now' p.url p ⟨rfl, hk, h.live name p hp⟩
        · exact h.cache
    · exact h

theorem Always.start (P : Proxy → Prop) : Always P World.start := ⟨(fun n p h => by cases h), (fun i e he => by cases he)⟩

theorem run_snoc (env : Proxy.Env) (timeout : Int) (as : List Proxy.Act) (a : Proxy.Act) : run env timeout (as ++ [a]) = act env timeout (run env timeout as) a := by
  simp [run]

theorem Always.run {P : Proxy → Prop} {env : Proxy.Env} {timeout : Int} (as : List Proxy.Act) 
    (hnew : ∀ url cfg, P (new url cfg)) (hadopt : ∀ cfg p, P p → p.cfg.keepAlive = true → cfg.keepAlive = true → P (adopt cfg p))
    (huse : ∀ n o, .use n o ∈ as → ∀ p, P p → P (step env p o).2) : Always P (run env timeout as) := by
  generalize hn : as.length = n
  induction n generalizing as with
  | zero =>
    have : as = [] := by simpa using hn
    subst this; exact Always.start P
  | succ n ih =>
    rcases List.eq_nil_or_concat as with h | ⟨bs, b, h⟩
    · subst h; simp at hn
    · rw [List.concat_eq_append] at h
      subst h
      rw [run_snoc]
      exact (ih bs (fun n o h => huse n o (by simp [h])) (by simpa using hn)).act b (fun _ _ _ url cfg _ => hnew url cfg) (fun _ _ _ url cfg _ p => hadopt cfg p)
        (fun n o e p _ hp => huse n o (by simp [e]) p hp)

end Proxy

/-- **C52.** A proxy that is created goes to the place of its URL and has the settings it is created with, all of them, whoever used a
cached connection before, with whatever settings. -/
theorem C52_settings (env : Proxy.Env) (timeout : Int) (as : List Proxy.Act) (name now pick : Nat) (url : Url.Url) (cfg : Config)
    (hfree : (run env timeout as).live name = none) :
    ∃ p, (run env timeout (as ++ [.create name now pick url cfg])).live name = some p ∧ p.cfg = cfg ∧ p.version = cfg.version ∧ Spec.Pool.SamePlace p.url url := by
  have hw : Always (fun _ => True) (run env timeout as) := Always.run as (fun _ _ => trivial) (fun _ _ _ _ _ => trivial) (fun _ _ _ _ _ => trivial)
  rw [run_snoc]
  generalize run env timeout as = w at *
  simp only [act, hfree, if_true]
  refine ⟨_, rfl, ?_⟩
  unfold create
  split
  · next hk =>
    generalize hl : ProxyCache.lookup timeout now pick url w.cache = r
    obtain ⟨r, c⟩ := r
    cases r with
    | none => exact ⟨rfl, rfl, rfl, rfl, rfl⟩
    | some p =>
      obtain ⟨u, h1, h2, h3, -⟩ := (hw.cache.lookup timeout now pick url _ c hl).2 p rfl
      subst h2
      refine ⟨?_, rfl, h1⟩
      simp only [adopt, h3]
      cases cfg
      simp only at hk
      simp [hk]
  · exact ⟨rfl, rfl, rfl, rfl, rfl⟩

/-- **C52**, for processes in which every user has deleted the fields he added (or used them up) when he destroys a proxy: then a proxy
that is created sends no fields of others. Without that the property fails. -/
theorem C52_clean_partial (env : Proxy.Env) (timeout : Int) (as : List Proxy.Act)
    (hclean : ∀ bs n now now' cs, as = bs ++ .destroy n now now' :: cs → ∀ p, (run env timeout bs).live n = some p → p.once = [] ∧ p.permanent = [])
    (name now pick : Nat) (url : Url.Url) (cfg : Config) (hfree : (run env timeout as).live name = none) :
    ∃ p, (run env timeout (as ++ [.create name now pick url cfg])).live name = some p ∧ p.once = [] ∧ p.permanent = [] := by
  have key : ∀ n (as : List Proxy.Act), as.length = n →
      (∀ bs n now now' cs, as = bs ++ .destroy n now now' :: cs → ∀ p, (run env timeout bs).live n = some p → p.once = [] ∧ p.permanent = []) →
      ProxyCache.All (fun _ p => p.once = [] ∧ p.permanent = []) (run env timeout as).cache := by
    intro n
    induction n with
    | zero =>
      intro as hn _
      have : as = [] := by simpa using hn
      subst this; intro i e he; cases he
    | succ n ih =>
      intro as hn h
      rcases List.eq_nil_or_concat as with e | ⟨bs, b, e⟩
      · subst e; simp at hn
      · rw [List.concat_eq_append] at e
        subst e
        have hb := ih bs (by simpa using hn) (fun xs n now now' cs e => h xs n now now' (cs ++ [b]) (by rw [e]; simp))
        rw [run_snoc]
        cases b with
        | create nm nw pk u cf =>
          simp only [act]
          split
          · exact hb
          · simp only [create]
            split
            · generalize hl : ProxyCache.lookup timeout nw pk u (run env timeout bs).cache = r
              obtain ⟨r, c⟩ := r
              have := (hb.lookup timeout nw pk u r c hl).1
              cases r <;> exact this
            · exact hb
        | use nm o =>
          simp only [act]
          split <;> exact hb
        | destroy nm nw nw' =>
          simp only [act]
          split
          · next p hp =>
            simp only [destroy]
            split
            · exact hb.moveInto timeout nw nw' p.url p (h bs nm nw nw' [] rfl p hp)
            · exact hb
          · exact hb
  have hc := key _ as rfl hclean
  rw [run_snoc]
  generalize run env timeout as = w at *
  simp only [act, hfree, if_true]
  refine ⟨_, rfl, ?_⟩
  unfold create
  split
  · generalize hl : ProxyCache.lookup timeout now pick url w.cache = r
    obtain ⟨r, c⟩ := r
    cases r with
    | none => exact ⟨rfl, rfl⟩
    | some p =>
      obtain ⟨u, -, h2⟩ := (hc.lookup timeout now pick url _ c hl).2 p rfl
      exact h2
  · exact ⟨rfl, rfl⟩

/-- The connection of the first user is used by the second one, who has other settings. -/
example :
    let w := run anEnv 10 [.create 0 0 0 aUrl (aConfig true always), .use 0 (.addPermanent (asc "Authorization", asc "secret")), .use 0 (.call (asc "m") [] aTurn),
      .use 0 .deleteHeaders, .destroy 0 0 0, .create 1 1 0 aUrl { aConfig true never with http10 := true }]
    (w.live 1).map (fun p => (call anEnv p (asc "m") [] aTurn).2.2.map (fun s => (s.1, hasSub (asc "Authorization") s.2, hasSub (asc "HTTP/1.0\r\nContent-Type: text/xml") s.2))) =
      some (some (0, false, true)) := by
  decide +kernel

/-- **C52 is violated**: the fields one user has added are sent in the requests of the next one, who may be another part of the program. -/
theorem C52_headers_violated :
    let w := run anEnv 10 [.create 0 0 0 aUrl (aConfig true always), .use 0 (.addPermanent (asc "Authorization", asc "secret")), .use 0 (.call (asc "m") [] aTurn),
      .destroy 0 0 0, .create 1 1 0 aUrl (aConfig true always)]
    (w.live 1).map (fun p => (call anEnv p (asc "m") [] aTurn).2.2.map (fun s => (s.1, hasSub (asc "\r\nAuthorization: secret\r\n") s.2))) = some (some (0, true)) := by
  decide +kernel

end Frpc
