import Verif.Props.PyProxy
/-!
# Header fields given by the user: C126
-/
namespace Frpc
open Proxy HttpIO HttpOut HttpServer Spec Spec.Http Spec.Web Spec.Proxy

namespace HeaderFields

/-- What a call sends when the network takes it. -/
theorem call_sends (env : Proxy.Env) (p : Proxy) (name : Bytes) (args : List Value) (t : Turn) (ws : List Bytes)
    (hw : packCall env.strOk env.dbl (chooseBinary p) p.version name args = (ws, none)) (s : Sock) (made : Nat) (hs : connectSocket p t = (some s, made))
    (hup : CalmOut true t.up) :
    (call env p name args t).2.2 = some (s.id, clientHead (clientOf p) (ws.flatten.length % 2 ^ 32) ++ ws.flatten) := by
  obtain ⟨w', h⟩ := message_plain_calm (clientConf (clientOf p)) rfl ws ⟨t.up, []⟩ hup
  obtain ⟨q, h1, h2, h3⟩ := message_plain (clientConf (clientOf p)) rfl ws ⟨t.up, []⟩ _ _ h
  have hw' : w'.wire.sent = clientHead (clientOf p) (ws.flatten.length % 2 ^ 32) ++ ws.flatten := by rw [h2, h3 rfl]; rfl
  have hx := call_ends env p name args t
  revert hx
  generalize call env p name args t = x
  intro hx
  cases hx with
  | packing ws' e g => rw [hw] at g; cases g
  | connect ws' made' g1 g2 => rw [hs] at g2; cases g2
  | sending ws' s' made' e w g1 g2 g3 =>
    rw [hw] at g1; cases g1
    rw [h] at g3; cases g3
  | reading ws' s' made' m e w conn g1 g2 g3 g4 =>
    rw [hw] at g1; cases g1
    rw [h] at g3; cases g3
    rw [hs] at g2; cases g2
    exact congrArg (fun b => some (s.id, b)) hw'
  | response ws' s' made' m r w conn g1 g2 g3 g4 =>
    rw [hw] at g1; cases g1
    rw [h] at g3; cases g3
    rw [hs] at g2; cases g2
    exact congrArg (fun b => some (s.id, b)) hw'

/-- The end of a block of header lines can be made by the last value. -/
theorem flatMap_inject (fs : List (Bytes × Bytes)) (n v b : Bytes) :
    (fs ++ [(n, v ++ crlf ++ crlf ++ b)]).flatMap headLine ++ asc "\r\n" = (fs ++ [(n, v)]).flatMap headLine ++ asc "\r\n" ++ b ++ crlf ++ crlf := by
  have : asc "\r\n" = crlf := by decide +kernel
  simp only [List.flatMap_append, List.flatMap_cons, List.flatMap_nil, headLine, this, List.append_nil, List.append_assoc]

theorem clientHead_inject (c : ClientCfg) (fs : List (Bytes × Bytes)) (n v b : Bytes) (total : Nat) :
    clientHead { c with custom := fs ++ [(n, v ++ crlf ++ crlf ++ b)] } total = clientHead { c with custom := fs ++ [(n, v)] } total ++ b ++ crlf ++ crlf := by
  unfold clientHead clientFields
  simp only [← List.append_assoc]
  rw [List.append_assoc _ (List.flatMap headLine _) (asc "\r\n"), flatMap_inject, List.append_assoc _ (List.flatMap headLine _) (asc "\r\n")]
  simp only [List.append_assoc]

theorem serverHead_inject (c : ServerCfg) (fs : List (Bytes × Bytes)) (n v b : Bytes) (total : Nat) :
    serverHead { c with custom := fs ++ [(n, v ++ crlf ++ crlf ++ b)] } total = serverHead { c with custom := fs ++ [(n, v)] } total ++ b ++ crlf ++ crlf := by
  unfold serverHead serverFields
  simp only [← List.append_assoc]
  rw [List.append_assoc _ (List.flatMap headLine _) (asc "\r\n"), flatMap_inject, List.append_assoc _ (List.flatMap headLine _) (asc "\r\n")]
  simp only [List.append_assoc]

end HeaderFields

/-- **C126 (fields without line ends).** After any history of a proxy, if the fields given by the user are well formed (the names without white space and colons, the values without line
feeds), a call sends one request: its header ends with those fields, each as it was given but for the white space around it, and its content is the call. Missing: other fields; the code
does not look at them, see `C126_injection_violated`. -/
theorem C126_fields_partial (env : Proxy.Env) (url : Url.Url) (cfg : Config) (before : List Op) (name : Bytes) (args : List Value) (t : Turn) (res : Result) (p' : Proxy)
    (id : Nat) (bytes : Bytes) (h : call env (Proxy.after env (new url cfg) before) name args t = (res, p', some (id, bytes))) (hup : CalmOut true t.up)
    (hpath : IsWord (clientTarget url).1) (hhost : (10 : UInt8) ∉ (clientTarget url).2 ∧ (clientTarget url).2.getLast? ≠ some 13)
    (hf : ∀ f ∈ permanentFields before ++ onceFields before, FieldOk f) :
    ∃ binary ws, packCall env.strOk env.dbl binary (versionNow env.codec cfg (results env (new url cfg) before)) name args = (ws, none) ∧
      (ws.flatten.length < 2 ^ 32 →
        ∃ q : Post, bytes = q.text ∧ q.Ok ∧ q.Kind (if binary then .binary else .xml) ∧ q.path = (clientTarget url).1 ∧ q.data = ws.flatten ∧
          (permanentFields before ++ onceFields before).map (fun f => (f.1, trim f.2)) <:+ q.fields) := by
  obtain ⟨k1, k2, k3, k4, k5, k6, k7⟩ := known env url cfg before
  have hx := call_ends env (Proxy.after env (new url cfg) before) name args t
  rw [h] at hx
  obtain ⟨ws, s, made, m, w, h1, h2, h3, h4, h5⟩ := hx.sent
  refine ⟨_, ws, k6 ▸ h1, fun hlen => ?_⟩
  have hc : clientOf (Proxy.after env (new url cfg) before) = clientFor url cfg.http10 (chooseBinary (Proxy.after env (new url cfg) before)) cfg.keepAlive false
      (permanentFields before ++ onceFields before) := by
    unfold clientOf
    rw [k1, k3, k4, k2.1, k2.2.2]
  rw [hc] at h4
  have hok : ClientOk (clientFor url cfg.http10 (chooseBinary (Proxy.after env (new url cfg) before)) cfg.keepAlive false (permanentFields before ++ onceFields before)) :=
    ⟨hpath, hhost, hf, fun e => by cases e⟩
  obtain ⟨w', q, g1, g2, g3, g4, g5, g6, -, -, -, g10⟩ := PyProxy.client_post _ hok ws (by simpa [LengthOk, clientFor] using hlen) (fun e => by cases e) t.up hup
  rw [h4] at g1
  cases g1
  exact ⟨q, h5.trans g2, g3, g4, g6, g5, g10⟩

/-- **C126 is violated: a value can be another call.** After any history, for any two calls that are packed to the same number of bytes: if the address given to `forwardedFor` (which is usually
what another client has sent) ends with two line ends and the second call, then the first call sends exactly what the second call would have sent with the address before the line ends, and
then the rest. The server runs the second call, and its result is the result of the first one. -/
theorem C126_injection_violated (env : Proxy.Env) (url : Url.Url) (cfg : Config) (before : List Op) (addr : Bytes) (name name2 : Bytes) (args args2 : List Value) (t : Turn)
    (ws ws2 : List Bytes)
    (h1 : packCall env.strOk env.dbl (chooseBinary (Proxy.after env (new url cfg) before)) (Proxy.after env (new url cfg) before).version name args = (ws, none))
    (h2 : packCall env.strOk env.dbl (chooseBinary (Proxy.after env (new url cfg) before)) (Proxy.after env (new url cfg) before).version name2 args2 = (ws2, none))
    (hlen : ws.flatten.length = ws2.flatten.length) (hc : t.connect = true) (hup : CalmOut true t.up) :
    ∃ id bytes,
      (call env (Proxy.after env (new url cfg) (before ++ [.forwardedFor addr])) name2 args2 t).2.2 = some (id, bytes) ∧
      (call env (Proxy.after env (new url cfg) (before ++ [.forwardedFor (addr ++ crlf ++ crlf ++ ws2.flatten)])) name args t).2.2 =
        some (id, bytes ++ crlf ++ crlf ++ ws.flatten) := by
  generalize hp : Proxy.after env (new url cfg) before = p at h1 h2
  have ha : ∀ a, Proxy.after env (new url cfg) (before ++ [.forwardedFor a]) = { p with once := p.once ++ [(asc "X-Forwarded-For", a)] } := by
    intro a
    rw [after_append, hp]; rfl
  have hs : ∃ s made, connectSocket p t = (some s, made) := by
    unfold connectSocket
    rw [hc]
    simp only [if_true]
    split
    · exact ⟨_, _, rfl⟩
    · split
      · exact ⟨_, _, rfl⟩
      · split
        · exact ⟨_, _, rfl⟩
        · split
          · exact ⟨_, _, rfl⟩
          · exact ⟨_, _, rfl⟩
  obtain ⟨s, made, hs⟩ := hs
  have hco : ∀ a, clientOf { p with once := p.once ++ [(asc "X-Forwarded-For", a)] } = { clientOf p with custom := (p.permanent ++ p.once) ++ [(asc "X-Forwarded-For", a)] } := by
    intro a
    unfold clientOf clientFor
    simp only [List.append_assoc]
    rfl
  refine ⟨s.id, clientHead { clientOf p with custom := (p.permanent ++ p.once) ++ [(asc "X-Forwarded-For", addr)] } (ws2.flatten.length % 2 ^ 32) ++ ws2.flatten, ?_, ?_⟩
  · rw [ha, HeaderFields.call_sends env { p with once := p.once ++ [(asc "X-Forwarded-For", addr)] } name2 args2 t ws2 h2 s made hs hup, hco]
  · rw [ha, HeaderFields.call_sends env { p with once := p.once ++ [(asc "X-Forwarded-For", addr ++ crlf ++ crlf ++ ws2.flatten)] } name args t ws h1 s made hs hup, hco, HeaderFields.clientHead_inject, hlen]

/-- **C126 is violated for the Python client, and for every client with chunks.** The same for what a client sends in chunks, for any two messages, also of different lengths. -/
theorem C126_chunked_violated (c : ClientCfg) (hch : c.chunks = true) (fs : List (Bytes × Bytes)) (n v : Bytes) (ds ds2 : List Bytes) (h1 : FirstWrite ds) (h2 : FirstWrite ds2) (wire : Wire)
    (hw : wire.sent = []) (hs : CalmOut true wire.sched) :
    ∃ w2 body, message (clientConf { c with custom := fs ++ [(n, v)] }) ds2 (.init wire) = (.ok (), w2) ∧
      w2.wire.sent = clientHead { c with custom := fs ++ [(n, v)] } 0 ++ body ∧
      ∃ w1 rest, message (clientConf { c with custom := fs ++ [(n, v ++ crlf ++ crlf ++ body)] }) ds (.init wire) = (.ok (), w1) ∧ w1.wire.sent = w2.wire.sent ++ crlf ++ crlf ++ rest := by
  obtain ⟨w2, ps2, a1, a2, -⟩ := (C41_chunked_sent ds2 h2 wire).1 { c with custom := fs ++ [(n, v)] } hch hs
  obtain ⟨w1, ps1, b1, b2, -⟩ := (C41_chunked_sent ds h1 wire).1 { c with custom := fs ++ [(n, v ++ crlf ++ crlf ++ chunked ps2)] } hch hs
  refine ⟨w2, chunked ps2, a1, by rw [a2, hw]; rfl, w1, chunked ps1, b1, ?_⟩
  rw [b2, a2, HeaderFields.clientHead_inject]
  simp only [List.append_assoc]

/-- **C126 is violated for responses.** The header fields that the application gives for a response: with two line ends in a value, the response is the one with another content, and then the rest. -/
theorem C126_response_violated (c : ServerCfg) (fs : List (Bytes × Bytes)) (n v : Bytes) (ds ds2 : List Bytes) (wire : Wire) (hw : wire.sent = []) (hs : CalmOut false wire.sched)
    (hd : if c.chunks then FirstWrite ds ∧ FirstWrite ds2 else ds.flatten.length = ds2.flatten.length) :
    ∃ w2 body, message (serverConf { c with custom := fs ++ [(n, v)] }) ds2 (.init wire) = (.ok (), w2) ∧
      (∃ total, w2.wire.sent = serverHead { c with custom := fs ++ [(n, v)] } total ++ body) ∧
      ∃ w1 rest, message (serverConf { c with custom := fs ++ [(n, v ++ crlf ++ crlf ++ body)] }) ds (.init wire) = (.ok (), w1) ∧ w1.wire.sent = w2.wire.sent ++ crlf ++ crlf ++ rest := by
  by_cases hch : c.chunks = true
  · rw [if_pos hch] at hd
    obtain ⟨w2, ps2, a1, a2, -⟩ := (C41_chunked_sent ds2 hd.2 wire).2 { c with custom := fs ++ [(n, v)] } hch hs
    obtain ⟨w1, ps1, b1, b2, -⟩ := (C41_chunked_sent ds hd.1 wire).2 { c with custom := fs ++ [(n, v ++ crlf ++ crlf ++ chunked ps2)] } hch hs
    refine ⟨w2, chunked ps2, a1, ⟨0, by rw [a2, hw]; rfl⟩, w1, chunked ps1, b1, ?_⟩
    rw [b2, a2, HeaderFields.serverHead_inject]
    simp only [List.append_assoc]
  · rw [if_neg hch] at hd
    have hch : c.chunks = false := by simpa using hch
    obtain ⟨w2, a1⟩ := message_plain_calm (serverConf { c with custom := fs ++ [(n, v)] }) hch ds2 wire hs
    obtain ⟨q2, -, a2, a3⟩ := message_plain _ hch ds2 wire _ _ a1
    obtain ⟨w1, b1⟩ := message_plain_calm (serverConf { c with custom := fs ++ [(n, v ++ crlf ++ crlf ++ ds2.flatten)] }) hch ds wire hs
    obtain ⟨q1, -, b2, b3⟩ := message_plain _ hch ds wire _ _ b1
    have e2 := a3 rfl
    have e1 := b3 rfl
    refine ⟨w2, ds2.flatten, a1, ⟨ds2.flatten.length % 2 ^ 32, by rw [a2, hw, e2]; rfl⟩, w1, ds.flatten, b1, ?_⟩
    rw [b2, a2, e1, e2, hd]
    show _ ++ (serverHead _ _ ++ _) = _ ++ (serverHead _ _ ++ _) ++ _ ++ _ ++ _
    rw [HeaderFields.serverHead_inject]
    simp only [List.append_assoc]

/-! ## Witnesses -/

/-- A call of `m` with a forged address sends a call of `k`. -/
example :
    (call anEnv (Proxy.after anEnv (new aUrl (aConfig true always)) [.forwardedFor (asc "1.2.3.4" ++ crlf ++ crlf ++ [0xCA, 0x11, 2, 1, 0x68, 1, 107])]) (asc "m") [] aTurn).2.2 =
      some (0, asc "POST /RPC2 HTTP/1.1\r\nHost: h:80\r\nContent-Type: application/x-frpc\r\nAccept: text/xml, application/x-frpc\r\nConnection: keep-alive\r\nContent-Length: 7\r\nX-Forwarded-For: 1.2.3.4\r\n\r\n" ++
        [0xCA, 0x11, 2, 1, 0x68, 1, 107] ++ asc "\r\n\r\n" ++ [0xCA, 0x11, 2, 1, 0x68, 1, 109]) := by decide +kernel

/-- The two calls meet the conditions of the theorem. -/
example : packCall anEnv.strOk anEnv.dbl (chooseBinary (Proxy.after anEnv (new aUrl (aConfig true always)) [])) (Proxy.after anEnv (new aUrl (aConfig true always)) []).version (asc "m") [] =
      ([[0xCA, 0x11, 2, 1], [0x68], [1], [109]], none) ∧
    packCall anEnv.strOk anEnv.dbl (chooseBinary (Proxy.after anEnv (new aUrl (aConfig true always)) [])) (Proxy.after anEnv (new aUrl (aConfig true always)) []).version (asc "k") [] =
      ([[0xCA, 0x11, 2, 1], [0x68], [1], [107]], none) := by decide +kernel

/-- Well-formed fields. -/
example : FieldOk (asc "X-Forwarded-For", asc "1.2.3.4") := ⟨by decide +kernel, by decide +kernel, by decide +kernel, by decide +kernel⟩

end Frpc
