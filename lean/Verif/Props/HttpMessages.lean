import Verif.Model.HttpBinary
import Verif.Props.HttpOutput
import Verif.Props.Decoder
/-!
# Whole messages through HTTP: C64, C65, C66
-/
namespace Frpc
open Spec HttpIO HttpOut HttpServer

namespace HttpServer

theorem get_first {h : HttpHeader.Fields} {fs : List (Bytes × Bytes)}
    (hg : ∀ name i, HttpHeader.get h name i = (fieldValues name (fs.map (fun f => (f.1, trim f.2))))[i]?) (name : Bytes) :
    HttpHeader.get h name 0 = first name fs := hg name 0

theorem readRequest_sent (env : Env) (srv : Srv) (c : ClientCfg) (hok : ClientOk c) (ds : List Bytes) (total : Nat) (body rest : Bytes) (s : Conn)
    (hc : Calm s.sched) (hd : s.data = clientHead c total ++ (body ++ rest)) (hlen : ds.flatten.length < 2 ^ 63)
    (hplain : c.chunks = false → total = ds.flatten.length ∧ body = ds.flatten)
    (hchunk : c.chunks = true → ∃ ps, body = chunked ps ∧ (∀ p ∈ ps, p ≠ []) ∧ ps.flatten = ds.flatten)
    (hfeed : ∀ l : List Bytes, (∀ p ∈ l, p ≠ []) → l.flatten <+: ds.flatten → env.feed (if c.binary then .binary else .xml) c.path l = none)
    (hfinish : ∀ l : List Bytes, (∀ p ∈ l, p ≠ []) → l.flatten = ds.flatten → env.finish (if c.binary then .binary else .xml) c.path l = none) :
    ∃ qs sc, Calm sc ∧ qs.flatten = ds.flatten ∧ (∀ q ∈ qs, q ≠ []) ∧
      readRequest env srv s = (.ok (some ⟨if c.binary then .binary else .xml, c.path, qs⟩),
        ⟨if env.useBinary then .binary else .xml, env.useBinary && !c.http10, !c.keepAlive, false⟩, ⟨rest, sc, qs⟩) := by
  have hpost : asc "POST " = asc "POST" ++ [32] := by decide +kernel
  have hsp : asc " " = [32] := by decide +kernel
  have hcr : asc "\r\n" = crlf := by decide +kernel
  have hpw : asc "POST" ≠ [] ∧ ∀ x ∈ asc "POST", isSpace x = false := by decide +kernel
  have hvw : (if c.http10 then asc "HTTP/1.0" else asc "HTTP/1.1") ≠ [] ∧ ∀ x ∈ (if c.http10 then asc "HTTP/1.0" else asc "HTTP/1.1"), isSpace x = false := by
    cases c.http10 <;> decide +kernel
  generalize hver : (if c.http10 then asc "HTTP/1.0" else asc "HTTP/1.1") = ver at hvw
  have h32 : isSpace 32 = true := by decide
  -- the request line
  have hnl : ∀ l : Bytes, (∀ x ∈ l, isSpace x = false) → (10 : UInt8) ∉ l := by
    intro l h hm; have := h _ hm; revert this; decide
  have hlast : ∀ l : Bytes, (∀ x ∈ l, isSpace x = false) → l.getLast? ≠ some 13 := by
    intro l h hm; have := h _ (List.mem_of_getLast? hm); revert this; decide
  obtain ⟨sc1, hc1, hr1⟩ := readLineOpt_crlf_any (srvCfg (fun _ => none)) true true { s with out := [] }
    (asc "POST" ++ 32 :: (c.path ++ 32 :: ver)) ((clientFields c total).flatMap headLine ++ asc "\r\n" ++ (body ++ rest)) hc
    (by
      show s.data = _
      rw [hd]; unfold clientHead
      rw [hver, hpost, hsp, hcr]; simp)
    (by simp [hnl _ hok.path.2, hnl _ hpw.2, hnl _ hvw.2])
    (by
      have e : asc "POST" ++ 32 :: (c.path ++ 32 :: ver) = (asc "POST" ++ 32 :: (c.path ++ [32])) ++ ver := by simp
      rw [e, List.getLast?_append]
      cases hv : ver.getLast? with
      | none => exact absurd (List.getLast?_eq_none_iff.1 hv) hvw.1
      | some x =>
        have := hlast ver hvw.2
        rw [hv] at this
        simpa using this)
    (.inl (by show (-1 : Int) < 0; omega))
  have hline : requestLine (asc "POST" ++ 32 :: (c.path ++ 32 :: ver)) = .ok (asc "POST", c.path, !c.http10) := by
    unfold requestLine
    rw [splitBySpace_eq _ 2 (by omega), words_word hpw.1 hpw.2 h32, words_word hok.path.1 hok.path.2 h32]
    have : words 0 ver = [ver] := by simp [words, hvw.1]
    rw [this, ← hver]
    cases c.http10
    · simp
    · have : asc "HTTP/1.0" ≠ asc "HTTP/1.1" := by decide +kernel
      simp [this]
  -- the header
  obtain ⟨h, sc2, hc2, hr2, hget⟩ := readHeader_fields (srvCfg (fun _ => none)) (clientFields c total) (clientFields_ok hok total)
    ⟨(clientFields c total).flatMap headLine ++ asc "\r\n" ++ (body ++ rest), sc1, []⟩ (body ++ rest) hc1 (by rw [flatMap_headLine])
  have hget := get_first hget
  obtain ⟨f1, f2, f3⟩ := clientFields_first c total
  obtain ⟨f4, f5⟩ := clientFields_body hok total
  -- the body
  obtain ⟨qs, sc3, hc3, hq, hqne, hr3⟩ := readContent_sent (srvCfg (env.feed (if c.binary then .binary else .xml) c.path)) true h
    ⟨body ++ rest, sc2, []⟩ ds hfeed body rest hc2 rfl rfl (.inl (by show (-1 : Int) < 0; omega)) hlen (by
      cases hch : c.chunks with
      | false => exact .inl ⟨by rw [hget, f4 hch, (hplain hch).1], (hplain hch).2⟩
      | true => exact .inr ⟨by rw [hget, (f5 hch).1], ⟨_, by rw [hget, (f5 hch).2], by decide +kernel⟩, hchunk hch⟩)
  refine ⟨qs, sc3, hc3, hq, hqne, ?_⟩
  unfold readRequest
  simp only [hr1]
  have hne : asc "POST" ++ 32 :: (c.path ++ 32 :: ver) ≠ [] := by simp
  split
  · next heq => simp at heq
  · next heq => simp only [Prod.mk.injEq, Except.ok.injEq] at heq; exact absurd heq.1 hne
  · next line s' heq =>
    simp only [Prod.mk.injEq, Except.ok.injEq] at heq
    obtain ⟨rfl, rfl⟩ := heq
    rw [hline]
    simp only
    rw [hr2]
    simp only [readBody]
    rw [if_neg (by simp)]
    have hkind : chooseKind (getOr h (asc "Content-Type")) = some (if c.binary then .binary else .xml) := by
      unfold getOr
      rw [hget, f1]
      cases c.binary <;> decide +kernel
    have hout : chooseOut env.useBinary (HttpHeader.get h (asc "Accept") 0) = (if env.useBinary then .binary else .xml, env.useBinary) := by
      rw [hget, f2]
      cases env.useBinary <;> decide +kernel
    rw [hkind, hout]
    simp only
    rw [hr3]
    simp only
    rw [hfinish qs hqne hq]
    simp only
    have hclose : mustClose (!c.http10) (getOr h (asc "Connection")) = !c.keepAlive := by
      unfold getOr
      rw [hget, f3]
      cases c.http10 <;> cases c.keepAlive <;> decide +kernel
    rw [hclose]

theorem statusLine_step {cfg : Cfg} {f : Nat} {s s1 : Conn} {line st msg : Bytes} (h : readLineOpt cfg true false s = (.ok line, s1)) (hne : line ≠ [])
    (hs : splitBySpace line 3 = .ok [asc "HTTP/1.1", st, msg]) (hst : readInt st = 200) : statusLine cfg (f + 1) s = (.ok true, s1) := by
  unfold statusLine readLine
  rw [h]
  cases line with
  | nil => exact absurd rfl hne
  | cons a l => simp [hs, hst]

theorem readResponse_sent (limits : Int × Int) (feed finish : HttpServer.Kind → List Bytes → Option Err) (keepAlive : Bool) (c : ServerCfg) (hok : ServerOk c)
    (kind : HttpServer.Kind) (hkind : (kind = .binary ∧ c.outType = .binary) ∨ (kind = .xml ∧ c.outType = .xml))
    (ds : List Bytes) (total : Nat) (body rest : Bytes) (s : Conn)
    (hc : Calm s.sched) (hd : s.data = serverHead c total ++ (body ++ rest)) (hlen : ds.flatten.length < 2 ^ 63)
    (hline : limits.1 < 0 ∨ 17 ≤ limits.1) (hfit : limits.2 < 0 ∨ (ds.flatten.length : Int) ≤ limits.2 ∧ limits.2 < 2 ^ 31)
    (hplain : c.chunks = false → total = ds.flatten.length ∧ body = ds.flatten)
    (hchunk : c.chunks = true → ∃ ps, body = chunked ps ∧ (∀ p ∈ ps, p ≠ []) ∧ ps.flatten = ds.flatten)
    (hfeed : ∀ l : List Bytes, (∀ p ∈ l, p ≠ []) → l.flatten <+: ds.flatten → feed kind l = none)
    (hfinish : ∀ l : List Bytes, (∀ p ∈ l, p ≠ []) → l.flatten = ds.flatten → finish kind l = none) :
    ∃ qs sc, Calm sc ∧ qs.flatten = ds.flatten ∧ (∀ q ∈ qs, q ≠ []) ∧
      readResponse limits feed finish keepAlive s = (.ok ⟨kind, qs, some (true, c.useBinary), !keepAlive || !c.keepAlive⟩, ⟨rest, sc, qs⟩) := by
  have hst : asc "HTTP/1.1 200 OK\r\n" = asc "HTTP/1.1 200 OK" ++ crlf := by decide +kernel
  have hlf : (10 : UInt8) ∉ asc "HTTP/1.1 200 OK" := by decide +kernel
  have hcr : (asc "HTTP/1.1 200 OK").getLast? ≠ some 13 := by decide +kernel
  obtain ⟨sc1, hc1, hr1⟩ := readLineOpt_crlf_any ⟨limits.1, limits.2, fun _ => none⟩ true false { s with out := [] }
    (asc "HTTP/1.1 200 OK") ((serverFields c total).flatMap headLine ++ asc "\r\n" ++ (body ++ rest)) hc
    (by show s.data = _; rw [hd]; unfold serverHead; rw [hst]; simp) hlf hcr (by rw [show (asc "HTTP/1.1 200 OK").length = 15 by decide +kernel]; simpa using hline)
  obtain ⟨h, sc2, hc2, hr2, hget⟩ := readHeader_fields ⟨limits.1, limits.2, fun _ => none⟩ (serverFields c total) (serverFields_ok hok total)
    ⟨(serverFields c total).flatMap headLine ++ asc "\r\n" ++ (body ++ rest), sc1, []⟩ (body ++ rest) hc1 (by rw [flatMap_headLine])
  have hget := get_first hget
  obtain ⟨f1, f2, f3, f4, f5⟩ := serverFields_first hok total
  obtain ⟨qs, sc3, hc3, hq, hqne, hr3⟩ := readContent_sent ⟨limits.1, limits.2, feed kind⟩ false h
    ⟨body ++ rest, sc2, []⟩ ds hfeed body rest hc2 rfl rfl hfit hlen (by
      cases hch : c.chunks with
      | false => exact .inl ⟨by rw [hget, f4 hch, (hplain hch).1], (hplain hch).2⟩
      | true => exact .inr ⟨by rw [hget, (f5 hch).1], ⟨_, by rw [hget, (f5 hch).2], by decide +kernel⟩, hchunk hch⟩)
  refine ⟨qs, sc3, hc3, hq, hqne, ?_⟩
  have hstatus : statusLine ⟨limits.1, limits.2, fun _ => none⟩ (s.data.length + 1) { s with out := [] } =
      (.ok true, ⟨(serverFields c total).flatMap headLine ++ asc "\r\n" ++ (body ++ rest), sc1, []⟩) := by
    have hne : asc "HTTP/1.1 200 OK" ≠ [] := by decide +kernel
    have hsplit : splitBySpace (asc "HTTP/1.1 200 OK") 3 = .ok [asc "HTTP/1.1", asc "200", asc "OK"] := by decide +kernel
    have h200 : readInt (asc "200") = 200 := by decide +kernel
    exact statusLine_step hr1 hne hsplit h200
  unfold readResponse
  simp only
  rw [hstatus]
  simp only
  rw [hr2]
  simp only [readAnswer]
  have hct : getOr h (asc "Content-Type") = contentTypeOf c.outType := by unfold getOr; rw [hget, f1]; rfl
  have hk : (if hasSub (asc "text/xml") (getOr h (asc "Content-Type")) = true then some Kind.xml
      else if hasSub (asc "application/x-frpc") (getOr h (asc "Content-Type")) = true then some .binary else none) = some kind := by
    rw [hct]
    rcases hkind with ⟨rfl, e⟩ | ⟨rfl, e⟩ <;> rw [e] <;> decide +kernel
  rw [hk]
  simp only
  rw [hr3]
  simp only
  rw [hfinish qs hqne hq]
  simp only
  have hclose : mustClose true (getOr h (asc "Connection")) = !c.keepAlive := by
    unfold getOr
    rw [hget, f3]
    cases c.keepAlive <;> decide +kernel
  have hacc : (HttpHeader.get h (asc "Accept") 0).map (fun a => (hasSub (asc "text/xml") a, hasSub (asc "application/x-frpc") a)) = some (true, c.useBinary) := by
    rw [hget, f2]
    cases c.useBinary <;> decide +kernel
  rw [hclose, hacc]

end HttpServer

/-- The message is short enough for its length to be announced. -/
def LengthOk (chunks : Bool) (ds : List Bytes) : Prop := ds.flatten.length < if chunks then 2 ^ 63 else 2 ^ 32

/-- C64: a client's message (any writes, chunked or not, HTTP/1.0 or 1.1, any custom header), sent
over a network that takes the bytes in pieces of any size, and read by the server from a network
that delivers them in other pieces, followed by anything: the server reads the path and the body as
they were sent and no byte more, the unmarshaller is the one for the client's protocol, and the
connection is kept exactly when the client asked for it. -/
theorem C64_request_delivered (env : Env) (srv : Srv) (c : ClientCfg) (hok : ClientOk c) (ds : List Bytes) (hlen : LengthOk c.chunks ds)
    (hfirst : c.chunks = true → FirstWrite ds) (ssched : List SEv) (hs : CalmOut true ssched) (rest : Bytes) (rsched : List Ev) (hr : Calm rsched)
    (hfeed : ∀ l : List Bytes, (∀ p ∈ l, p ≠ []) → l.flatten <+: ds.flatten → env.feed (if c.binary then .binary else .xml) c.path l = none)
    (hfinish : ∀ l : List Bytes, (∀ p ∈ l, p ≠ []) → l.flatten = ds.flatten → env.finish (if c.binary then .binary else .xml) c.path l = none) :
    ∃ w' qs srv' s', message (clientConf c) ds (.init ⟨ssched, []⟩) = (.ok (), w') ∧
      readRequest env srv ⟨w'.wire.sent ++ rest, rsched, []⟩ = (.ok (some ⟨if c.binary then .binary else .xml, c.path, qs⟩), srv', s') ∧
      qs.flatten = ds.flatten ∧ (∀ q ∈ qs, q ≠ []) ∧ s'.data = rest ∧ srv'.close = !c.keepAlive ∧ srv'.head = false ∧
      srv'.outType = (if env.useBinary then .binary else .xml) ∧ Calm s'.sched := by
  obtain ⟨w', h1, h2, h3⟩ := message_sent (clientConf c) (fun h n => clientHead_const c h n) ds ⟨ssched, []⟩ hs hfirst
  have key : ∃ total body, w'.wire.sent = clientHead c total ++ body ∧ (c.chunks = false → total = ds.flatten.length ∧ body = ds.flatten) ∧
      (c.chunks = true → ∃ ps, body = chunked ps ∧ (∀ p ∈ ps, p ≠ []) ∧ ps.flatten = ds.flatten) := by
    cases hch : c.chunks with
    | false =>
      have hl : ds.flatten.length < 2 ^ 32 := by simpa [LengthOk, hch] using hlen
      refine ⟨ds.flatten.length, ds.flatten, ?_, by simp, by simp⟩
      rw [h2 hch, Nat.mod_eq_of_lt hl]; rfl
    | true =>
      obtain ⟨ps, g1, g2, g3⟩ := h3 hch
      exact ⟨0, chunked ps, by rw [g1]; rfl, by simp, fun _ => ⟨ps, rfl, g2, g3⟩⟩
  obtain ⟨total, body, e1, e2, e3⟩ := key
  obtain ⟨qs, sc, g1, g2, gne, g3⟩ := readRequest_sent env srv c hok ds total body rest ⟨w'.wire.sent ++ rest, rsched, []⟩ hr (by simp [e1])
    (by unfold LengthOk at hlen; split at hlen <;> omega) e2 e3 hfeed hfinish
  exact ⟨w', qs, _, _, h1, g3, g2, gne, rfl, rfl, rfl, rfl, g1⟩

/-- C65: the same for a server's response: the client gets the body as it was written and no byte
more, through the unmarshaller of its content type, learns whether the server speaks the binary
protocol, and keeps the connection exactly when both want to. The body must fit the client's limit. -/
theorem C65_response_delivered (limits : Int × Int) (feed finish : HttpServer.Kind → List Bytes → Option Err) (keepAlive : Bool) (c : ServerCfg) (hok : ServerOk c)
    (kind : HttpServer.Kind) (hkind : (kind = .binary ∧ c.outType = .binary) ∨ (kind = .xml ∧ c.outType = .xml))
    (ds : List Bytes) (hlen : LengthOk c.chunks ds) (hfirst : c.chunks = true → FirstWrite ds)
    (hline : limits.1 < 0 ∨ 17 ≤ limits.1) (hfit : limits.2 < 0 ∨ (ds.flatten.length : Int) ≤ limits.2 ∧ limits.2 < 2 ^ 31)
    (ssched : List SEv) (hs : CalmOut false ssched) (rest : Bytes) (rsched : List Ev) (hr : Calm rsched)
    (hfeed : ∀ l : List Bytes, (∀ p ∈ l, p ≠ []) → l.flatten <+: ds.flatten → feed kind l = none)
    (hfinish : ∀ l : List Bytes, (∀ p ∈ l, p ≠ []) → l.flatten = ds.flatten → finish kind l = none) :
    ∃ w' qs s', message (serverConf c) ds (.init ⟨ssched, []⟩) = (.ok (), w') ∧
      readResponse limits feed finish keepAlive ⟨w'.wire.sent ++ rest, rsched, []⟩ = (.ok ⟨kind, qs, some (true, c.useBinary), !(keepAlive && c.keepAlive)⟩, s') ∧
      qs.flatten = ds.flatten ∧ (∀ q ∈ qs, q ≠ []) ∧ s'.data = rest ∧ Calm s'.sched := by
  obtain ⟨w', h1, h2, h3⟩ := message_sent (serverConf c) (fun h n => serverHead_const c h n) ds ⟨ssched, []⟩ hs hfirst
  have key : ∃ total body, w'.wire.sent = serverHead c total ++ body ∧ (c.chunks = false → total = ds.flatten.length ∧ body = ds.flatten) ∧
      (c.chunks = true → ∃ ps, body = chunked ps ∧ (∀ p ∈ ps, p ≠ []) ∧ ps.flatten = ds.flatten) := by
    cases hch : c.chunks with
    | false =>
      have hl : ds.flatten.length < 2 ^ 32 := by simpa [LengthOk, hch] using hlen
      refine ⟨ds.flatten.length, ds.flatten, ?_, by simp, by simp⟩
      rw [h2 hch, Nat.mod_eq_of_lt hl]; rfl
    | true =>
      obtain ⟨ps, g1, g2, g3⟩ := h3 hch
      exact ⟨0, chunked ps, by rw [g1]; rfl, by simp, fun _ => ⟨ps, rfl, g2, g3⟩⟩
  obtain ⟨total, body, e1, e2, e3⟩ := key
  obtain ⟨qs, sc, g1, g2, gne, g3⟩ := readResponse_sent limits feed finish keepAlive c hok kind hkind ds total body rest ⟨w'.wire.sent ++ rest, rsched, []⟩ hr (by simp [e1])
    (by unfold LengthOk at hlen; split at hlen <;> omega) hline hfit e2 e3 hfeed hfinish
  exact ⟨w', qs, ⟨rest, sc, qs⟩, h1, by rw [g3, Bool.not_and], g2, gne, rfl, g1⟩

/-! ## C66: calls and answers in the binary protocol over HTTP -/

namespace HttpServer

theorem unMarshallAll_prefix {β} (B : BinUnMarshaller.Builder β) (req : BinUnMarshaller.Req) : ∀ (l t : List Bytes) (o : BinUnMarshaller.Obj) (b : β),
    (BinUnMarshaller.unMarshallAll B req o b (l ++ t)).2.2 = none → (BinUnMarshaller.unMarshallAll B req o b l).2.2 = none
  | [], _, _, _, _ => rfl
  | p :: l, t, o, b, h => by
    simp only [List.cons_append, BinUnMarshaller.unMarshallAll] at h ⊢
    split at h
    · next heq =>
      exact unMarshallAll_prefix B req l t _ _ h
    · next heq => exact h

theorem receive_ok {cfg : TreeBuilder.Cfg} {req : BinUnMarshaller.Req} {ds : List Bytes} (h : ∀ ps : List Bytes, ps.flatten = ds.flatten → ∃ tb, receive cfg req ps = .ok tb) :
    (∀ l : List Bytes, l.flatten <+: ds.flatten → binFeed cfg req l = none) ∧ (∀ l : List Bytes, l.flatten = ds.flatten → binFinish cfg req l = none) := by
  refine ⟨fun l hl => ?_, fun l hl => ?_⟩
  · obtain ⟨t, ht⟩ := hl
    obtain ⟨tb, htb⟩ := h (l ++ [t]) (by simp [ht])
    unfold binFeed
    refine unMarshallAll_prefix _ _ l [t] _ _ ?_
    unfold receive at htb
    split at htb
    · simp at htb
    · next heq => rw [heq]
  · obtain ⟨tb, htb⟩ := h l hl
    unfold binFinish
    unfold receive at htb
    split at htb
    · simp at htb
    · next o tb' heq =>
      rw [heq]
      cases hf : BinUnMarshaller.finish o with
      | ok _ => rfl
      | error e => simp [hf, Bind.bind, Except.bind] at htb

end HttpServer

open TreeBuilder Spec in
/-- C66 (the call): a client of the binary protocol calls a method over HTTP; whatever the sizes in
which the network takes and delivers the bytes, and whether chunked or not, the server gets the
method name and the arguments, and the rest of the connection is untouched. -/
theorem C66_call_over_http (cfg : TreeBuilder.Cfg) (hcfg : cfg.mktime = none) (ver : Version) (hv : ver.Known) (h2 : 2 ≤ ver.major)
    (name : Bytes) (args : List Value) (hheld : HeldItems args) (hsmall : SmallItems args) (hdates : DatesAllItems (DateOk ver) args) (ws : List Bytes)
    (hsent : sendCall cfg.strOk ver name args = (ws, none))
    (c : ClientCfg) (hok : ClientOk c) (hbin : c.binary = true) (hlen : LengthOk c.chunks ws) (env : Env) (srv : Srv)
    (ssched : List SEv) (hs : CalmOut true ssched) (rest : Bytes) (rsched : List Ev) (hr : Calm rsched) :
    ∃ w' body srv' s' tb, message (clientConf c) ws (.init ⟨ssched, []⟩) = (.ok (), w') ∧
      readRequest (binEnv cfg env) srv ⟨w'.wire.sent ++ rest, rsched, []⟩ = (.ok (some ⟨.binary, c.path, body⟩), srv', s') ∧ s'.data = rest ∧
      receive cfg .call body = .ok tb ∧ tb.methodName = name ∧ getData tb = .ok (.array (plainItemsWith id args)) := by
  have hrt := fun ps hps => C02_call_roundtrip cfg hcfg ver hv h2 name args hheld hsmall hdates ws hsent ps hps
  obtain ⟨hf, hfin⟩ := receive_ok (cfg := cfg) (req := .call) (ds := ws) (fun ps hps => (hrt ps hps).imp (fun _ h => h.1))
  obtain ⟨w', qs, srv', s', g1, g2, g3, -, g4, -⟩ := C64_request_delivered (binEnv cfg env) srv c hok ws hlen
    (fun _ => (C41_binary_first_write cfg.strOk ver ws).1 name args hsent) ssched hs rest rsched hr
    (by rw [hbin]; exact fun l _ => hf l) (by rw [hbin]; exact fun l _ => hfin l)
  obtain ⟨tb, t1, t2, t3⟩ := hrt qs g3
  rw [hbin] at g2
  exact ⟨w', qs, srv', s', tb, g1, g2, g4, t1, t2, t3⟩

open TreeBuilder Spec in
/-- C66 (the answer): the server's value comes back to the client, and so does a fault. -/
theorem C66_response_over_http (cfg : TreeBuilder.Cfg) (hcfg : cfg.mktime = none) (ver : Version) (hv : ver.Known) (h2 : 2 ≤ ver.major)
    (v : Value) (hheld : Held v) (hsmall : Small v) (hdates : DatesAll (DateOk ver) v) (ws : List Bytes)
    (hsent : sendResponse cfg.strOk ver v = (ws, none))
    (c : ServerCfg) (hok : ServerOk c) (hbin : c.outType = .binary) (hlen : LengthOk c.chunks ws)
    (limits : Int × Int) (hline : limits.1 < 0 ∨ 17 ≤ limits.1) (hfit : limits.2 < 0 ∨ (ws.flatten.length : Int) ≤ limits.2 ∧ limits.2 < 2 ^ 31)
    (keepAlive : Bool) (other : HttpServer.Kind → List Bytes → Option Err)
    (ssched : List SEv) (hs : CalmOut false ssched) (rest : Bytes) (rsched : List Ev) (hr : Calm rsched) :
    ∃ w' body s' tb, message (serverConf c) ws (.init ⟨ssched, []⟩) = (.ok (), w') ∧
      readResponse limits (fun k l => if k = .binary then binFeed cfg .response l else other k l)
        (fun k l => if k = .binary then binFinish cfg .response l else other k l) keepAlive ⟨w'.wire.sent ++ rest, rsched, []⟩ =
        (.ok ⟨.binary, body, some (true, c.useBinary), !(keepAlive && c.keepAlive)⟩, s') ∧ s'.data = rest ∧
      receive cfg .response body = .ok tb ∧ getData tb = .ok (plain v) := by
  have hrt := fun ps hps => C01_response_roundtrip cfg hcfg ver hv h2 v hheld hsmall hdates ws hsent ps hps
  obtain ⟨hf, hfin⟩ := receive_ok (cfg := cfg) (req := .response) (ds := ws) (fun ps hps => (hrt ps hps).imp (fun _ h => h.1))
  obtain ⟨w', qs, s', g1, g2, g3, -, g4, -⟩ := C65_response_delivered limits (fun k l => if k = .binary then binFeed cfg .response l else other k l)
    (fun k l => if k = .binary then binFinish cfg .response l else other k l) keepAlive c hok .binary (.inl ⟨rfl, hbin⟩) ws hlen
    (fun _ => (C41_binary_first_write cfg.strOk ver ws).2.1 v hsent) hline hfit ssched hs rest rsched hr
    (fun l _ hl => by simpa using hf l hl) (fun l _ hl => by simpa using hfin l hl)
  obtain ⟨tb, t1, t2⟩ := hrt qs g3
  exact ⟨w', qs, s', tb, g1, g2, g4, t1, t2⟩

open TreeBuilder Spec in
/-- C66 (a fault): the caller gets the fault with the number and the message. -/
theorem C66_fault_over_http (cfg : TreeBuilder.Cfg) (ver : Version) (hv : ver.Known)
    (code : Int) (hc : IsI32 code) (msg : Bytes) (hm : msg.length < 2 ^ 30) (hstr : cfg.strOk msg = true)
    (c : ServerCfg) (hok : ServerOk c) (hbin : c.outType = .binary)
    (limits : Int × Int) (hline : limits.1 < 0 ∨ 17 ≤ limits.1) (hfit : limits.2 < 0)
    (keepAlive : Bool) (other : HttpServer.Kind → List Bytes → Option Err)
    (ssched : List SEv) (hs : CalmOut false ssched) (rest : Bytes) (rsched : List Ev) (hr : Calm rsched) :
    ∃ ws, sendFault cfg.strOk ver code msg = (ws, none) ∧ (LengthOk c.chunks ws →
      ∃ w' body s' tb, message (serverConf c) ws (.init ⟨ssched, []⟩) = (.ok (), w') ∧
        readResponse limits (fun k l => if k = .binary then binFeed cfg .response l else other k l)
          (fun k l => if k = .binary then binFinish cfg .response l else other k l) keepAlive ⟨w'.wire.sent ++ rest, rsched, []⟩ =
          (.ok ⟨.binary, body, some (true, c.useBinary), !(keepAlive && c.keepAlive)⟩, s') ∧ s'.data = rest ∧
        receive cfg .response body = .ok tb ∧ getData tb = .error (.fault code (if msg = [] then asc "No data unmarshalled" else msg))) := by
  obtain ⟨ws, hsent, hrt⟩ := C03_fault_roundtrip cfg ver hv .response (by simp) code hc msg hm hstr
  refine ⟨ws, hsent, fun hlen => ?_⟩
  have hrt := fun ps hps => (hrt ps hps).2
  obtain ⟨hf, hfin⟩ := receive_ok (cfg := cfg) (req := .response) (ds := ws) (fun ps hps => (hrt ps hps).imp (fun _ h => h.1))
  obtain ⟨w', qs, s', g1, g2, g3, -, g4, -⟩ := C65_response_delivered limits (fun k l => if k = .binary then binFeed cfg .response l else other k l)
    (fun k l => if k = .binary then binFinish cfg .response l else other k l) keepAlive c hok .binary (.inl ⟨rfl, hbin⟩) ws hlen
    (fun _ => (C41_binary_first_write cfg.strOk ver ws).2.2 code msg hsent) hline (.inl hfit) ssched hs rest rsched hr
    (fun l _ hl => by simpa using hf l hl) (fun l _ hl => by simpa using hfin l hl)
  obtain ⟨tb, t1, t2⟩ := hrt qs g3
  exact ⟨w', qs, s', tb, g1, g2, g4, t1, t2⟩

/-! ## Examples -/

/-- The example client meets the conditions. -/
theorem exampleClient_ok (chunks : Bool) : ClientOk (exampleClient chunks) :=
  ⟨by constructor <;> (show _; dsimp only [exampleClient]; decide +kernel), by dsimp only [exampleClient]; decide +kernel, by simp [exampleClient], by simp [exampleClient]⟩

/-- A server for the examples. -/
def exampleEnv : Env := ⟨true, true, 3, fun _ _ _ => none, fun _ _ _ => none, fun _ _ _ => true⟩

example : LengthOk true [asc "ab", asc "c"] := by unfold LengthOk; decide
example : Calm [.bytes 3, .bytes 1, .bytes 0] := by intro e he; simp at he; rcases he with rfl | rfl | rfl <;> exact ⟨_, rfl⟩
example : (readRequest exampleEnv ⟨.xml, false, false, false⟩
    ⟨(message (clientConf (exampleClient true)) [asc "ab", asc "c"] (.init ⟨[⟨false, .zero⟩, ⟨false, .sent 3⟩], []⟩)).2.wire.sent ++ asc "POST", [], []⟩).1 =
    .ok (some ⟨.binary, asc "/RPC2", [asc "abc"]⟩) := by decide +kernel
example : ServerOk ⟨.binary, true, true, true, []⟩ := ⟨by simp, by simp⟩
/-- The hypotheses about the call: a method with an integer and a string. -/
example : ∃ ws, sendCall plainCfg.strOk ⟨2, 1⟩ (asc "add") [.int 1, .string (asc "x")] = (ws, none) ∧ LengthOk true ws := ⟨_, rfl, by unfold LengthOk; decide +kernel⟩

/-! ## Body framing: C41, any spelling of the coding -/

/-- C41/C45, the reader as a whole: a body announced by `Content-Length`, or by `Transfer-Encoding`
with `chunked` in any mix of capitals and small letters and no `Content-Length`, is delivered
unchanged however the stream is cut, and nothing after it is consumed. -/
theorem C41_body_framing (cfg : HttpIO.Cfg) (request : Bool) (h : HttpHeader.Fields) (s : Conn) (data : Bytes)
    (hsink : ∀ l, cfg.sink l = none) (body rest : Bytes) (hc : Calm s.sched) (hout : s.out = []) (hd : s.data = body ++ rest)
    (hfit : cfg.bodyLimit < 0 ∨ (data.length : Int) ≤ cfg.bodyLimit ∧ cfg.bodyLimit < 2 ^ 31) (hlen : data.length < 2 ^ 63)
    (hbody : (HttpHeader.get h (asc "Content-Length") 0 = some (dec data.length) ∧ body = data) ∨
      (HttpHeader.get h (asc "Content-Length") 0 = none ∧
        (∃ v, HttpHeader.get h (asc "Transfer-Encoding") 0 = some v ∧ lower v = asc "chunked") ∧
        ∃ ps, body = chunked ps ∧ (∀ p ∈ ps, p ≠ []) ∧ ps.flatten = data)) :
    ∃ s', readContent cfg request h s = (.ok h, s') ∧ s'.out.flatten = data ∧ s'.data = rest := by
  obtain ⟨qs, sc, -, h2, -, h3⟩ := readContent_sent cfg request h s [data] (fun l _ _ => hsink l) body rest hc hout hd
    (by simpa using hfit) (by simpa using hlen) (by
      rcases hbody with ⟨a, b⟩ | ⟨a, ⟨v, b, hv⟩, ps, c, d, e⟩
      · exact .inl ⟨by simpa using a, by simpa using b⟩
      · refine .inr ⟨a, ⟨v, b, ?_⟩, ps, c, d, by simpa using e⟩
        have : v.map toUpper = (lower v).map toUpper := by simp [lower, toUpper_toLower]
        rw [this, hv]; decide +kernel)
  exact ⟨_, h3, by simpa using h2, rfl⟩

example : ∃ s', readContent ⟨-1, -1, fun _ => none⟩ true [(asc "Transfer-Encoding", asc "ChunKED")]
    ⟨chunked [asc "abc", asc "de"] ++ [7], [.bytes 0, .bytes 3], []⟩ = (.ok [(asc "Transfer-Encoding", asc "ChunKED")], s') ∧
    s'.out.flatten = asc "abcde" ∧ s'.data = [7] :=
  C41_body_framing _ true _ _ (asc "abcde") (fun _ => rfl) _ [7] (by simp [Calm]) rfl rfl (.inl (by decide)) (by decide)
    (.inr ⟨by decide +kernel, ⟨asc "ChunKED", by decide +kernel, by decide⟩, [asc "abc", asc "de"], rfl, by decide, by decide⟩)

end Frpc
