import Verif.Proofs.HttpEndToEnd
import Verif.Props.RoundTrip
/-!
# HTTP output, and messages from end to end: C41, C42, C64, C65, C66
-/
namespace Frpc
open Spec HttpIO HttpOut HttpServer

namespace HttpServer

/-- What chunked output relies on: a marshaller's first write is short and not empty (they all begin
with the magic or a fixed text). -/
def FirstWrite (ds : List Bytes) : Prop := ∃ d ds', ds = d :: ds' ∧ d ≠ [] ∧ d.length ≤ 64512

theorem message_sent (c : Conf) (hH : c.chunks = true → ∀ n, c.head n = c.head 0) (ds : List Bytes) (wire : Wire)
    (hc : CalmOut c.watch wire.sched) (hfirst : c.chunks = true → FirstWrite ds) :
    ∃ w', message c ds (.init wire) = (.ok (), w') ∧
      (c.chunks = false → w'.wire.sent = wire.sent ++ c.head (ds.flatten.length % 2 ^ 32) ++ ds.flatten) ∧
      (c.chunks = true → ∃ ps, w'.wire.sent = wire.sent ++ c.head 0 ++ chunked ps ∧ (∀ p ∈ ps, p ≠ []) ∧ ps.flatten = ds.flatten) := by
  cases hch : c.chunks with
  | false =>
    obtain ⟨w', h⟩ := message_plain_calm c hch ds wire hc
    refine ⟨w', h, fun _ => ?_, by simp⟩
    obtain ⟨p, -, h2, h3⟩ := message_plain c hch ds wire _ _ h
    rw [h2, h3 rfl]; simp
  | true =>
    obtain ⟨w', h⟩ := message_chunks_calm c hch ds (.init wire) hc
    refine ⟨w', h, by simp, fun _ => ?_⟩
    obtain ⟨p, -, h2, h3⟩ := message_chunks c hch (c.head 0) (hH hch) ds (.init wire) _ _ h
    have h3 := h3 rfl
    obtain ⟨d, ds', rfl, hd1, hd2⟩ := hfirst hch
    obtain ⟨ps, g1, g2, g3⟩ := chunkStream_eq (c.head 0) ds' d false hd1
    refine ⟨ps, ?_, g2, by rw [g3]; simp⟩
    rw [h2, h3]
    simp only [Writer.init] at *
    rw [chunkStream_first _ _ _ hd2, g1]
    simp

theorem clientHead_const (c : ClientCfg) (h : c.chunks = true) (n : Nat) : clientHead c n = clientHead c 0 := by
  simp [clientHead, clientFields, h]

theorem serverHead_const (c : ServerCfg) (h : c.chunks = true) (n : Nat) : serverHead c n = serverHead c 0 := by
  simp [serverHead, serverFields, h]

end HttpServer

/-! ## C41, C42 -/

/-- C41 (client and server): with chunks, whatever the writes and however the network takes the
bytes, what is sent is the header and a chunked body whose chunks are, put together, the writes. -/
theorem C41_chunked_sent (ds : List Bytes) (hfirst : FirstWrite ds) (wire : Wire) :
    (∀ c : ClientCfg, c.chunks = true → CalmOut true wire.sched →
      ∃ w' ps, message (clientConf c) ds (.init wire) = (.ok (), w') ∧ w'.wire.sent = wire.sent ++ clientHead c 0 ++ chunked ps ∧
        (∀ p ∈ ps, p ≠ []) ∧ ps.flatten = ds.flatten) ∧
    (∀ c : ServerCfg, c.chunks = true → CalmOut false wire.sched →
      ∃ w' ps, message (serverConf c) ds (.init wire) = (.ok (), w') ∧ w'.wire.sent = wire.sent ++ serverHead c 0 ++ chunked ps ∧
        (∀ p ∈ ps, p ≠ []) ∧ ps.flatten = ds.flatten) := by
  constructor
  · intro c hch hc
    obtain ⟨w', h1, -, h3⟩ := message_sent (clientConf c) (fun h n => clientHead_const c h n) ds wire hc (fun _ => hfirst)
    obtain ⟨ps, g⟩ := h3 hch
    exact ⟨w', ps, h1, g⟩
  · intro c hch hc
    obtain ⟨w', h1, -, h3⟩ := message_sent (serverConf c) (fun h n => serverHead_const c h n) ds wire hc (fun _ => hfirst)
    obtain ⟨ps, g⟩ := h3 hch
    exact ⟨w', ps, h1, g⟩

/-- C41: the chunked body so sent, read by the chunked reader under any segmentation, is the
concatenation of the writes. -/
theorem C41_chunked_roundtrip (c : ClientCfg) (hch : c.chunks = true) (ds : List Bytes) (hfirst : FirstWrite ds) (hlen : ds.flatten.length < 2 ^ 63)
    (sched : List SEv) (hout : CalmOut true sched) (rest : Bytes) (rsched : List Ev) (hin : Calm rsched) (h : HttpHeader.Fields) :
    ∃ w' body, message (clientConf c) ds (.init ⟨sched, []⟩) = (.ok (), w') ∧ w'.wire.sent = clientHead c 0 ++ body ∧
      ∃ s', readChunkedContent ⟨-1, -1, fun _ => none⟩ h ⟨body ++ rest, rsched, []⟩ = (.ok h, s') ∧ s'.out.flatten = ds.flatten ∧ s'.data = rest := by
  obtain ⟨w', ps, h1, h2, h3, h4⟩ := (C41_chunked_sent ds hfirst ⟨sched, []⟩).1 c hch hout
  refine ⟨w', chunked ps, h1, by simpa using h2, ?_⟩
  obtain ⟨qs, sc, g1, g2, -, g3⟩ := readChunked_found ⟨-1, -1, fun _ => none⟩ _ (fun _ => True) (fun _ _ => trivial) (fun l _ _ => rfl) ps h ⟨chunked ps ++ rest, rsched, []⟩ rest hin rfl
    (fun p hp => ⟨h3 p hp, by
      have : p.length ≤ ps.flatten.length := by
        obtain ⟨a, b, rfl⟩ := List.append_of_mem hp
        simp; omega
      rw [h4] at this; omega⟩) (.inl (by show (-1 : Int) < 0; omega)) (List.prefix_refl _) (fun _ _ => trivial)
  exact ⟨_, g3, by simp [g2, h4], rfl⟩

/-- C41: the binary marshaller's messages satisfy the condition on the first write. -/
theorem C41_binary_first_write (strOk : Bytes → Bool) (ver : Version) (ws : List Bytes) :
    (∀ name args, sendCall strOk ver name args = (ws, none) → FirstWrite ws) ∧
    (∀ v, sendResponse strOk ver v = (ws, none) → FirstWrite ws) ∧
    (∀ code msg, sendFault strOk ver code msg = (ws, none) → FirstWrite ws) := by
  refine ⟨fun name args h => ?_, fun v h => ?_, fun code msg h => ?_⟩
  · simp only [sendCall, BinMarshaller.run, BinMarshaller.pack] at h
    by_cases hk : (decide (name.length > 255) || name.length == 0) = true
    · simp [hk] at h
    · rw [if_neg hk] at h
      simp only [Prod.mk.injEq] at h
      exact ⟨BinMarshaller.packMagic ver, _, h.1.symm, by simp [BinMarshaller.packMagic], by simp [BinMarshaller.packMagic]⟩
  · unfold sendResponse BinMarshaller.run BinMarshaller.pack at h
    simp only [Prod.mk.injEq] at h
    exact ⟨BinMarshaller.packMagic ver, _, h.1.symm, by simp [BinMarshaller.packMagic], by simp [BinMarshaller.packMagic]⟩
  · unfold sendFault BinMarshaller.run BinMarshaller.pack at h
    simp only at h
    split at h
    · simp at h
    · next ws1 heq =>
      simp only [Prod.mk.injEq] at heq h
      exact ⟨BinMarshaller.packMagic ver, _, (by rw [← h.1, ← heq.1]; rfl), by simp [BinMarshaller.packMagic], by simp [BinMarshaller.packMagic]⟩

/-- C41: whatever goes wrong while sending, what has been sent is the beginning of the right
stream: nothing is sent twice, skipped or out of order. -/
theorem C41_sent_prefix (c : ClientCfg) (hch : c.chunks = true) (ds : List Bytes) (hfirst : FirstWrite ds) (wire : Wire) :
    ∃ ps, (∀ p ∈ ps, p ≠ []) ∧ ps.flatten = ds.flatten ∧
      ∀ r w', message (clientConf c) ds (.init wire) = (r, w') →
        ∃ p, w'.wire.sent = wire.sent ++ p ∧ p <+: clientHead c 0 ++ chunked ps ∧ (r = .ok () → p = clientHead c 0 ++ chunked ps) := by
  obtain ⟨d, ds', rfl, hd1, hd2⟩ := hfirst
  obtain ⟨ps, g1, g2, g3⟩ := chunkStream_eq (clientHead c 0) ds' d false hd1
  refine ⟨ps, g2, by rw [g3]; simp, fun r w' h => ?_⟩
  obtain ⟨p, h1, h2, h3⟩ := message_chunks (clientConf c) hch (clientHead c 0) (fun n => clientHead_const c hch n) _ _ _ _ h
  simp only [Writer.init] at h1 h2 h3
  rw [chunkStream_first _ _ _ hd2, g1] at h1 h3
  exact ⟨p, h2, by simpa using h1, by simpa using h3⟩

/-- C42 (messages below 4 GiB): without chunks the body is the concatenation of the writes, and the
header announces its length; client and server. Missing: longer messages, see
`C42_content_length_violated`. -/
theorem C42_content_length_partial (ds : List Bytes) (hlen : ds.flatten.length < 2 ^ 32) (wire : Wire) :
    (∀ c : ClientCfg, c.chunks = false → CalmOut true wire.sched →
      ∃ w', message (clientConf c) ds (.init wire) = (.ok (), w') ∧
        w'.wire.sent = wire.sent ++ (asc "POST " ++ c.path ++ asc " " ++ (if c.http10 then asc "HTTP/1.0" else asc "HTTP/1.1") ++ asc "\r\n" ++
          (clientFields c ds.flatten.length).flatMap headLine ++ asc "\r\n") ++ ds.flatten ∧
        (asc "Content-Length", dec ds.flatten.length) ∈ clientFields c ds.flatten.length) ∧
    (∀ c : ServerCfg, c.chunks = false → CalmOut false wire.sched →
      ∃ w', message (serverConf c) ds (.init wire) = (.ok (), w') ∧
        w'.wire.sent = wire.sent ++ (asc "HTTP/1.1 200 OK\r\n" ++ (serverFields c ds.flatten.length).flatMap headLine ++ asc "\r\n") ++ ds.flatten ∧
        (asc "Content-Length", dec ds.flatten.length) ∈ serverFields c ds.flatten.length) := by
  constructor
  · intro c hch hc
    obtain ⟨w', h1, h2, -⟩ := message_sent (clientConf c) (fun h n => clientHead_const c h n) ds wire hc
      (fun h => absurd (show c.chunks = true from h) (by simp [hch]))
    refine ⟨w', h1, ?_, by simp [clientFields, hch]⟩
    rw [h2 hch, Nat.mod_eq_of_lt hlen]; rfl
  · intro c hch hc
    obtain ⟨w', h1, h2, -⟩ := message_sent (serverConf c) (fun h n => serverHead_const c h n) ds wire hc
      (fun h => absurd (show c.chunks = true from h) (by simp [hch]))
    refine ⟨w', h1, ?_, by simp [serverFields, hch]⟩
    rw [h2 hch, Nat.mod_eq_of_lt hlen]; rfl

/-- C42 is false for long messages: the length is kept in an `unsigned int`. A body of 4 GiB is
announced as empty. -/
theorem C42_content_length_violated (c : ClientCfg) (hch : c.chunks = false) :
    ∃ ds : List Bytes, (∀ d ∈ ds, d.length < 2 ^ 32) ∧ ds.flatten.length = 2 ^ 32 ∧
      ∃ w', message (clientConf c) ds (.init ⟨[], []⟩) = (.ok (), w') ∧ w'.wire.sent = clientHead c 0 ++ ds.flatten ∧
        (asc "Content-Length", asc "0") ∈ clientFields c 0 := by
  have hfl : ([List.replicate (2 ^ 32 - 1) (0 : UInt8), List.replicate 1 0] : List Bytes).flatten.length = 2 ^ 32 := by
    simp only [List.flatten_cons, List.flatten_nil, List.append_nil, List.length_append, List.length_replicate]
  refine ⟨[List.replicate (2 ^ 32 - 1) 0, List.replicate 1 0], ?_, hfl, ?_⟩
  · intro d hd
    simp only [List.mem_cons, List.not_mem_nil, or_false] at hd
    rcases hd with rfl | rfl <;> rw [List.length_replicate] <;> omega
  · obtain ⟨w', h1, h2, -⟩ := message_sent (clientConf c) (fun h n => clientHead_const c h n) _ ⟨[], []⟩ (by simp [CalmOut])
      (fun h => absurd (show c.chunks = true from h) (by simp [hch]))
    refine ⟨w', h1, ?_, ?_⟩
    · rw [h2 hch, hfl, Nat.mod_self]; rfl
    · have : asc "0" = dec 0 := by decide +kernel
      rw [this]
      simp [clientFields, hch]

example : FirstWrite [[0xCA, 0x11, 2, 1], [0x68], List.replicate 100000 7] := ⟨_, _, rfl, by simp, by decide⟩
example : CalmOut true [⟨false, .zero⟩, ⟨false, .sent 3⟩] := by
  intro e he; simp at he; rcases he with rfl | rfl <;> simp
/-- A client and what it sends. -/
def exampleClient (chunks : Bool) : ClientCfg := ⟨asc "/RPC2", asc "h:80", false, true, true, chunks, []⟩
example : (message (clientConf (exampleClient true)) [asc "ab", asc "c"] (.init ⟨[⟨false, .zero⟩, ⟨false, .sent 3⟩], []⟩)).2.wire.sent =
    asc "POST /RPC2 HTTP/1.1\r\nHost: h:80\r\nContent-Type: application/x-frpc\r\nAccept: text/xml, application/x-frpc\r\nConnection: keep-alive\r\nTransfer-Encoding: chunked\r\n\r\n3\r\nabc\r\n0\r\n\r\n" := by
  decide +kernel

/-! ## Messages from end to end -/

/-- A client's settings that make a request which can be read: the path has no white space, the
header fields no line feeds, and a chunked request no length of its own. -/
structure ClientOk (c : ClientCfg) : Prop where
  path : c.path ≠ [] ∧ ∀ b ∈ c.path, isSpace b = false
  host : (10 : UInt8) ∉ c.hostPort ∧ c.hostPort.getLast? ≠ some 13
  custom : ∀ f ∈ c.custom, FieldOk f
  length : c.chunks = true → ∀ f ∈ c.custom, f.1.map toLower ≠ asc "content-length"

/-- The same for a server's response. -/
structure ServerOk (c : ServerCfg) : Prop where
  custom : ∀ f ∈ c.custom, FieldOk f
  length : c.chunks = true → ∀ f ∈ c.custom, f.1.map toLower ≠ asc "content-length"

namespace HttpServer

theorem clientFields_ok {c : ClientCfg} (h : ClientOk c) (n : Nat) : ∀ f ∈ clientFields c n, FieldOk f := by
  have lit : ∀ f : Bytes × Bytes, (f.1 ≠ [] ∧ (∀ c ∈ f.1, isSpace c = false ∧ c ≠ 58) ∧ (10 : UInt8) ∉ f.2 ∧ f.2.getLast? ≠ some 13) → FieldOk f := fun _ h => h
  have hcl : FieldOk (asc "Content-Length", dec n) :=
    ⟨by dsimp only; decide +kernel, by dsimp only; decide +kernel, (dec_line n).1, (dec_line n).2⟩
  have hhost : FieldOk (asc "Host", c.hostPort) := ⟨by dsimp only; decide +kernel, by dsimp only; decide +kernel, h.host.1, h.host.2⟩
  intro f hf
  unfold clientFields at hf
  simp only [List.mem_append, List.mem_cons, List.not_mem_nil, or_false] at hf
  rcases hf with (hf | rfl | rfl | rfl | rfl) | hf
  · cases hh : c.http10 <;> simp [hh] at hf
    subst hf; exact hhost
  · cases c.binary <;> exact lit _ (by decide +kernel)
  · exact lit _ (by decide +kernel)
  · cases c.keepAlive <;> exact lit _ (by decide +kernel)
  · cases c.chunks
    · exact hcl
    · exact lit (asc "Transfer-Encoding", asc "chunked") (by decide +kernel)
  · exact h.custom f hf

theorem serverFields_ok {c : ServerCfg} (h : ServerOk c) (n : Nat) : ∀ f ∈ serverFields c n, FieldOk f := by
  have lit : ∀ f : Bytes × Bytes, (f.1 ≠ [] ∧ (∀ c ∈ f.1, isSpace c = false ∧ c ≠ 58) ∧ (10 : UInt8) ∉ f.2 ∧ f.2.getLast? ≠ some 13) → FieldOk f := fun _ h => h
  have hcl : FieldOk (asc "Content-Length", dec n) :=
    ⟨by dsimp only; decide +kernel, by dsimp only; decide +kernel, (dec_line n).1, (dec_line n).2⟩
  intro f hf
  unfold serverFields at hf
  simp only [List.mem_append, List.mem_cons, List.not_mem_nil, or_false] at hf
  rcases hf with (rfl | rfl | rfl | rfl | rfl) | hf
  · cases c.outType <;> exact lit _ (by decide +kernel)
  · cases c.useBinary <;> exact lit _ (by decide +kernel)
  · cases c.keepAlive <;> exact lit _ (by decide +kernel)
  · cases c.chunks
    · exact hcl
    · exact lit (asc "Transfer-Encoding", asc "chunked") (by decide +kernel)
  · exact lit _ (by decide +kernel)
  · exact h.custom f hf

/-- The first value of a field, trimmed, as the reader will find it. -/
def first (name : Bytes) (fs : List (Bytes × Bytes)) : Option Bytes := (fieldValues name (fs.map (fun f => (f.1, trim f.2))))[0]?

theorem first_hit {name n v : Bytes} {fs : List (Bytes × Bytes)} (h : n.map toLower = name.map toLower) :
    first name ((n, v) :: fs) = some (trim v) := by
  unfold first
  rw [List.map_cons, fieldValues_cons, if_pos h]; rfl

theorem first_miss {name n v : Bytes} {fs : List (Bytes × Bytes)} (h : n.map toLower ≠ name.map toLower) :
    first name ((n, v) :: fs) = first name fs := by
  unfold first
  rw [List.map_cons, fieldValues_cons, if_neg h]

theorem first_none {name : Bytes} {fs : List (Bytes × Bytes)} (h : ∀ f ∈ fs, f.1.map toLower ≠ name.map toLower) : first name fs = none := by
  unfold first
  rw [fieldValues_none]
  · rfl
  · intro f hf
    obtain ⟨g, hg, rfl⟩ := List.mem_map.1 hf
    exact h g hg

theorem clientFields_first (c : ClientCfg) (n : Nat) :
    first (asc "Content-Type") (clientFields c n) = some (if c.binary then asc "application/x-frpc" else asc "text/xml") ∧
    first (asc "Accept") (clientFields c n) = some (asc "text/xml, application/x-frpc") ∧
    first (asc "Connection") (clientFields c n) = some (if c.keepAlive then asc "keep-alive" else asc "close") := by
  have host : ∀ name fs, (asc "Host").map toLower ≠ name.map toLower →
      first name ((if c.http10 = true then [] else [(asc "Host", c.hostPort)]) ++ fs) = first name fs := by
    intro name fs h
    cases c.http10
    · exact first_miss h
    · rfl
  unfold clientFields
  rw [List.append_assoc, host _ _ (by decide +kernel), host _ _ (by decide +kernel), host _ _ (by decide +kernel)]
  simp only [List.cons_append]
  refine ⟨?_, ?_, ?_⟩
  · rw [first_hit rfl]; cases c.binary <;> decide +kernel
  · rw [first_miss (by decide +kernel), first_hit rfl]; decide +kernel
  · rw [first_miss (by decide +kernel), first_miss (by decide +kernel), first_hit rfl]; cases c.keepAlive <;> decide +kernel

theorem clientFields_body {c : ClientCfg} (hok : ClientOk c) (n : Nat) :
    (c.chunks = false → first (asc "Content-Length") (clientFields c n) = some (dec n)) ∧
    (c.chunks = true → first (asc "Content-Length") (clientFields c n) = none ∧ first (asc "Transfer-Encoding") (clientFields c n) = some (asc "chunked")) := by
  have host : ∀ name fs, (asc "Host").map toLower ≠ name.map toLower →
      first name ((if c.http10 = true then [] else [(asc "Host", c.hostPort)]) ++ fs) = first name fs := by
    intro name fs h
    cases c.http10
    · exact first_miss h
    · rfl
  have ht : trim (dec n) = dec n := trim_id (fun x hx => (dec_plain n x hx).1)
  have hname : (asc "Content-Length").map toLower = asc "content-length" := by decide +kernel
  unfold clientFields
  rw [List.append_assoc, host _ _ (by decide +kernel), host _ _ (by decide +kernel)]
  simp only [List.cons_append]
  refine ⟨fun h => ?_, fun h => ⟨?_, ?_⟩⟩ <;> simp only [h, Bool.false_eq_true, if_false, if_true, List.nil_append] <;>
    rw [first_miss (by decide +kernel), first_miss (by decide +kernel), first_miss (by decide +kernel)]
  · rw [first_hit rfl, ht]
  · rw [first_miss (by decide +kernel), first_none (fun f hf => by rw [hname]; exact hok.length h f hf)]
  · rw [first_hit rfl]; decide +kernel

/-- The content types of responses. -/
def contentTypeOf : OutType → Bytes
  | .xml => asc "text/xml"
  | .binary => asc "application/x-frpc"
  | .json => asc "application/json"
  | .base64 => asc "application/x-base64-frpc"

theorem serverFields_first {c : ServerCfg} (hok : ServerOk c) (n : Nat) :
    first (asc "Content-Type") (serverFields c n) = some (contentTypeOf c.outType) ∧
    first (asc "Accept") (serverFields c n) = some (asc "text/xml" ++ (if c.useBinary then asc ", application/x-frpc" else []) ++
      asc ", application/x-www-form-urlencoded" ++ asc ", application/x-base64-frpc") ∧
    first (asc "Connection") (serverFields c n) = some (if c.keepAlive then asc "keep-alive" else asc "close") ∧
    (c.chunks = false → first (asc "Content-Length") (serverFields c n) = some (dec n)) ∧
    (c.chunks = true → first (asc "Content-Length") (serverFields c n) = none ∧ first (asc "Transfer-Encoding") (serverFields c n) = some (asc "chunked")) := by
  have ht : trim (dec n) = dec n := trim_id (fun x hx => (dec_plain n x hx).1)
  have hname : (asc "Content-Length").map toLower = asc "content-length" := by decide +kernel
  unfold serverFields
  simp only [List.cons_append]
  refine ⟨?_, ?_, ?_, fun h => ?_, fun h => ⟨?_, ?_⟩⟩
  · rw [first_hit rfl]; cases c.outType <;> decide +kernel
  · rw [first_miss (by decide +kernel), first_hit rfl]; cases c.useBinary <;> decide +kernel
  · rw [first_miss (by decide +kernel), first_miss (by decide +kernel), first_hit rfl]; cases c.keepAlive <;> decide +kernel
  · simp only [h, Bool.false_eq_true, if_false]
    rw [first_miss (by decide +kernel), first_miss (by decide +kernel), first_miss (by decide +kernel), first_hit rfl, ht]
  · simp only [h, if_true]
    rw [first_miss (by decide +kernel), first_miss (by decide +kernel), first_miss (by decide +kernel), first_miss (by decide +kernel),
      first_miss (by decide +kernel), List.nil_append, first_none (fun f hf => by rw [hname]; exact hok.length h f hf)]
  · simp only [h, if_true]
    rw [first_miss (by decide +kernel), first_miss (by decide +kernel), first_miss (by decide +kernel), first_hit rfl]; decide +kernel

end HttpServer
end Frpc
