import Verif.Props.Web
/-!
# `HEAD` requests to the C++ server: C142; refused HTTP/1.0 clients: C98

The application gives `MethodRegistry_t` a `HeadMethod_t` that says with a number whether the server is up: 0 is yes, less than 0 is that there is no such method.
-/
namespace Frpc
open HttpIO HttpOut HttpServer Registry Remote Spec Spec.Http Spec.Web
open Web (At Live Conf)
variable {σ : Type}

/-- What the number means in HTTP. -/
inductive HeadMeans : Int → Nat → Bytes → Prop
  | down {n : Int} : 0 < n → HeadMeans n 503 (asc "Service Unavailable")
  | unknown {n : Int} : n < 0 → HeadMeans n 405 (asc "Method Not Allowed")

/-- The header alone of a response 200 in that format, with those fields of the application at its end. -/
def IsHead (bytes : Bytes) (out : OutType) (chunks : Bool) (custom : List (Bytes × Bytes)) (keepAlive : Bool) : Prop :=
  ∃ lines own, bytes = Spec.Http.responseText 0 true (asc "200") (asc "OK") lines ∧ (∀ l ∈ lines, l.Ok) ∧
    Spec.collectFields [] lines = some (own ++ custom.map (fun f => (f.1, Spec.trim f.2))) ∧
    own.map (·.1) = [asc "Content-Type", asc "Accept", asc "Connection", if chunks then asc "Transfer-Encoding" else asc "Content-Length", asc "Server"] ∧
    Spec.Http.field (asc "Content-Type") own = some (typeName out) ∧ Spec.Http.field (asc "Connection") own = some (if keepAlive then asc "keep-alive" else asc "close")

namespace Web

/-- The turn on a `HEAD`. -/
theorem turn_head (S : Conf σ) (r : Reg σ) (a : At σ) {path : Bytes} (hp : Spec.Http.IsWord path) (http11 : Bool) (ls : List Spec.HLine) (hls : ∀ l ∈ ls, l.Ok)
    (fs : List (Bytes × Bytes)) (hfs : Spec.collectFields [] ls = some fs) (rest : Bytes) (hc : Calm a.conn.sched)
    (hd : a.conn.data = Spec.Http.requestText (asc "HEAD") path http11 ls ++ rest) :
    ∃ sc, Calm sc ∧ Web.turn S r a = headTurn S ⟨⟨a.live.st, { a.live.srv with head := true, close := true }, .here⟩, ⟨rest, sc, []⟩, a.wire⟩ := by
  obtain ⟨sc, hc', h1⟩ := readRequest_head_read S.base.env a.live.srv (method := asc "HEAD") (by unfold Spec.Http.IsWord; decide +kernel) hp http11 ls hls fs hfs rest a.conn hc hd
  refine ⟨sc, hc', ?_⟩
  have hb : readBody S.base.env { a.live.srv with close := false, head := false } (asc "HEAD", path, http11) (stored fs) ⟨rest, sc, []⟩ =
      (.ok none, { a.live.srv with head := true, close := true }, ⟨rest, sc, []⟩) := by
    unfold readBody
    rw [if_pos (by show asc "HEAD" ≠ asc "POST"; decide +kernel), if_pos rfl]
  unfold Web.turn
  rw [h1, hb]

end Web

theorem own_fields (out : OutType) (bin keep chunks : Bool) (custom : HttpHeader.Fields) :
    field (asc "Content-Type") (((serverFields ⟨out, bin, keep, chunks, custom⟩ 0).take 5).map (fun f => (f.1, trim f.2))) = some (typeName out) ∧
    field (asc "Connection") (((serverFields ⟨out, bin, keep, chunks, custom⟩ 0).take 5).map (fun f => (f.1, trim f.2))) = some (if keep then asc "keep-alive" else asc "close") := by
  have e : (serverFields ⟨out, bin, keep, chunks, custom⟩ 0).take 5 = (serverFields ⟨out, bin, keep, chunks, []⟩ 0).take 5 := rfl
  rw [e]
  clear e
  revert out bin keep chunks
  intro out bin keep chunks
  cases out <;> cases bin <;> cases keep <;> cases chunks <;> decide +kernel

/-- **C142 (up).** Whatever the server has done before, `HEAD` to one whose application says that it is up gets the header of one response 200 and no content, with the application's
header fields; no method runs; what follows on the connection is not served, and `serve` returns. In which format the response would be, and whether in chunks, is what the last `POST` has left: see
below. -/
theorem C142_up_partial (S : Conf σ) (hS : Web.HeadersOk S) (hup : S.headCall = 0) (r : Reg σ) (x : Live σ) {path : Bytes} (hp : Spec.Http.IsWord path) (http11 : Bool)
    (ls : List Spec.HLine) (hls : ∀ l ∈ ls, l.Ok) (fs : List (Bytes × Bytes)) (hfs : Spec.collectFields [] ls = some fs) (rest : Bytes) (s : Conn) (hc : Calm s.sched)
    (hd : s.data = Spec.Http.requestText (asc "HEAD") path http11 ls ++ rest) (down : List SEv) (hw : CalmOut false down) :
    ∃ a, Web.serve S r x s ⟨down, []⟩ = (a, .done) ∧ IsHead a.wire.sent x.srv.outType x.srv.chunks (S.custom x.st) S.http.keepAlive ∧ a.live.st = x.st ∧ a.conn.data = rest := by
  obtain ⟨sc, -, h1⟩ := Web.turn_head S r ⟨{ x with srv := { x.srv with close := false, head := false } }, s, ⟨down, []⟩⟩ hp http11 ls hls fs hfs rest hc hd
  obtain ⟨w, g1, g2, -⟩ := sendData_calm false (serverHead ⟨x.srv.outType, S.http.useBinary, S.http.keepAlive, x.srv.chunks, S.custom x.st⟩ 0) ⟨down, []⟩ hw
  have ht : Web.turn S r ⟨{ x with srv := { x.srv with close := false, head := false } }, s, ⟨down, []⟩⟩ =
      (⟨⟨x.st, { x.srv with head := true, close := true }, .null⟩, ⟨rest, sc, []⟩, w⟩, .again true) := by
    rw [h1]
    unfold Web.headTurn
    rw [if_pos hup]
    show (match sendData false (serverHead ⟨x.srv.outType, S.http.useBinary, S.http.keepAlive, x.srv.chunks, S.custom x.st⟩ 0) ⟨down, []⟩ with
      | (.ok _, wire) => _
      | (.error _, wire) => _) = _
    rw [g1]
  unfold Web.serve
  rw [Web.serveLoop, ht]
  have hstop : ∀ n, HttpServer.stop S.http { x.srv with head := true, close := true } n = true := fun n => by simp [HttpServer.stop]
  simp only [hstop, if_true]
  refine ⟨_, rfl, ?_, rfl, rfl⟩
  simp only [g2, List.nil_append]
  have hok : ServerOk ⟨x.srv.outType, S.http.useBinary, S.http.keepAlive, x.srv.chunks, S.custom x.st⟩ :=
    ⟨(hS x.st).1, fun _ => (hS x.st).2⟩
  generalize hcfg : (⟨x.srv.outType, S.http.useBinary, S.http.keepAlive, x.srv.chunks, S.custom x.st⟩ : ServerCfg) = c at hok
  have hst : asc "HTTP/1.1 200 OK\r\n" = Spec.Http.versionText true ++ asc " " ++ asc "200" ++ asc " " ++ asc "OK" ++ Spec.crlf := by decide +kernel
  have hcoll := collect_asLine (serverFields c 0) []
  rw [List.nil_append] at hcoll
  refine ⟨(serverFields c 0).map asLine, ((serverFields c 0).take 5).map (fun f => (f.1, Spec.trim f.2)), ?_, ?_, ?_, ?_, ?_, ?_⟩
  · unfold serverHead Spec.Http.responseText
    rw [hst, List.append_assoc _ ((serverFields c 0).flatMap headLine), flatMap_headLine]
    simp
  · intro l hl
    obtain ⟨f, hf, rfl⟩ := List.mem_map.1 hl
    exact (serverFields_ok hok 0 f hf).line
  · rw [hcoll, ← List.map_append]
    congr 2
    rw [← hcfg]
    rfl
  · rw [← hcfg]
    unfold serverFields
    cases x.srv.chunks <;> simp
  · rw [← hcfg]
    exact (own_fields x.srv.outType S.http.useBinary S.http.keepAlive x.srv.chunks (S.custom x.st)).1
  · rw [← hcfg]
    exact (own_fields x.srv.outType S.http.useBinary S.http.keepAlive x.srv.chunks (S.custom x.st)).2

/-- **C142 (down).** If the application says otherwise, or has no function for it, the client gets the HTTP error 503 or 405 and nothing else; no method runs, and `serve` returns. -/
theorem C142_down (S : Conf σ) {code : Nat} {reason : Bytes} (hm : HeadMeans S.headCall code reason) (r : Reg σ) (x : Live σ) {path : Bytes} (hp : Spec.Http.IsWord path) (http11 : Bool)
    (ls : List Spec.HLine) (hls : ∀ l ∈ ls, l.Ok) (fs : List (Bytes × Bytes)) (hfs : Spec.collectFields [] ls = some fs) (rest : Bytes) (s : Conn) (hc : Calm s.sched)
    (hd : s.data = Spec.Http.requestText (asc "HEAD") path http11 ls ++ rest) (down : List SEv) (hw : CalmOut false down) :
    ∃ a more, Web.serve S r x s ⟨down, []⟩ = (a, .done) ∧ a.wire.sent = asc "HTTP/1.1 " ++ dec code ++ asc " " ++ reason ++ asc "\r\n" ++ more ∧ a.live.st = x.st ∧ a.conn.data = rest := by
  obtain ⟨sc, -, h1⟩ := Web.turn_head S r ⟨{ x with srv := { x.srv with close := false, head := false } }, s, ⟨down, []⟩⟩ hp http11 ls hls fs hfs rest hc hd
  obtain ⟨w, g1, g2, -⟩ := sendData_calm false (httpError S.base code reason) ⟨down, []⟩ hw
  have ht : Web.turn S r ⟨{ x with srv := { x.srv with close := false, head := false } }, s, ⟨down, []⟩⟩ =
      (⟨⟨x.st, { x.srv with head := true, close := true }, .here⟩, ⟨rest, sc, []⟩, w⟩, .stop .done) := by
    rw [h1]
    unfold Web.headTurn
    have hf : Web.failHttp S ⟨⟨x.st, { x.srv with head := true, close := true }, .here⟩, ⟨rest, sc, []⟩, ⟨down, []⟩⟩ code reason =
        (⟨⟨x.st, { x.srv with head := true, close := true }, .here⟩, ⟨rest, sc, []⟩, w⟩, .stop .done) := by
      unfold Web.failHttp
      show (match sendData false (httpError S.base code reason) ⟨down, []⟩ with
        | (.ok _, wire) => _
        | (.error _, wire) => _) = _
      rw [g1]
    cases hm with
    | down h =>
      rw [if_neg (by omega), if_neg (by omega)]
      exact hf
    | unknown h =>
      rw [if_neg (by omega), if_pos h]
      exact hf
  unfold Web.serve
  rw [Web.serveLoop, ht]
  refine ⟨_, asc "Accept: text/xml" ++ (if S.http.useBinary then asc ", application/x-frpc" else []) ++
    asc ", application/x-www-form-urlencoded\r\nServer: Fast-RPC  Server Linux\r\n\r\n", rfl, ?_, rfl, rfl⟩
  simp only [g2, List.nil_append]
  have e : asc "\r\nAccept: text/xml" = asc "\r\n" ++ asc "Accept: text/xml" := by decide +kernel
  unfold httpError
  rw [e]
  have hb : S.base.http.useBinary = S.http.useBinary := rfl
  rw [hb]
  simp

/-- A server whose application says that it is up. -/
def headConf : Conf Nat := { webConf with headCall := 0 }

/-- What two clients get, one after another, from a new server. -/
def twoClients (a b : Bytes) : List (Bytes × Web.End) :=
  (Web.serveAll headConf (Registry.built false true sampleOps) (Web.new 7) [(⟨a, [], []⟩, []), (⟨b, [], []⟩, [])]).1

/-- A `HEAD` of an HTTP/1.0 client. -/
def headAsk : Bytes := Spec.Http.requestText (asc "HEAD") (asc "/") false []

/-- A binary call whose client accepts binary answers. -/
def binaryAsk : Bytes := (webPost "/RPC2" [(asc "Content-Type", asc "application/x-frpc"), (asc "Accept", asc "application/x-frpc"), (asc "Connection", asc "close"),
  (asc "Content-Length", dec webBinary.post.data.length)] webBinary.post.data).text

/-- **C142 is violated: the answer depends on other clients.** A `HEAD` of an HTTP/1.0 client is answered as text of length 0; after another client, on another connection, has made a call in
the binary protocol, the same `HEAD` is answered as binary and in chunks, which HTTP/1.0 does not have. Both say that the connection is kept, and it is not. -/
theorem C142_violated :
    (twoClients headAsk headAsk).getLast? = some (asc ("HTTP/1.1 200 OK\r\nContent-Type: text/xml\r\n" ++
      "Accept: text/xml, application/x-frpc, application/x-www-form-urlencoded, application/x-base64-frpc\r\n" ++
      "Connection: keep-alive\r\nContent-Length: 0\r\nServer: Fast-RPC  Server Linux\r\nX-A: 1\r\n\r\n"), .done) ∧
    (twoClients binaryAsk headAsk).getLast? = some (asc ("HTTP/1.1 200 OK\r\nContent-Type: application/x-frpc\r\n" ++
      "Accept: text/xml, application/x-frpc, application/x-www-form-urlencoded, application/x-base64-frpc\r\n" ++
      "Connection: keep-alive\r\nTransfer-Encoding: chunked\r\nServer: Fast-RPC  Server Linux\r\nX-A: 1\r\n\r\n"), .done) := by
  constructor <;> decide +kernel

/-- C142: two requests in one text, the second is left unread. -/
example : ∃ a, Web.serve headConf (Registry.built false true sampleOps) (Web.new 7) ⟨headAsk ++ binaryAsk, [.bytes 2], []⟩ ⟨[], []⟩ = (a, .done) ∧
    IsHead a.wire.sent .xml false [(asc "X-A", asc "1")] true ∧ a.live.st = 7 ∧ a.conn.data = binaryAsk :=
  C142_up_partial headConf (fun st => webConf_headers st) rfl _ (Web.new 7) (path := asc "/") (by unfold Spec.Http.IsWord; decide +kernel) false [] (by simp) [] rfl binaryAsk _
    (by intro e he; simp only [List.mem_cons, List.not_mem_nil, or_false] at he; subst he; exact ⟨_, rfl⟩) rfl [] (by intro e he; simp at he)

example : ∃ a more, Web.serve webConf (Registry.built false true sampleOps) (Web.new 7) ⟨headAsk ++ [], [], []⟩ ⟨[], []⟩ = (a, .done) ∧
    a.wire.sent = asc "HTTP/1.1 " ++ dec 405 ++ asc " " ++ asc "Method Not Allowed" ++ asc "\r\n" ++ more ∧ a.live.st = 7 ∧ a.conn.data = [] :=
  C142_down webConf (.unknown (by decide)) _ (Web.new 7) (path := asc "/") (by unfold Spec.Http.IsWord; decide +kernel) false [] (by simp) [] rfl [] _ (by intro e he; simp at he) rfl [] (by intro e he; simp at he)

/-! ## Refused clients of HTTP/1.0 -/

/-- **C98 is violated: chunks for a client that does not know them.** A request that is refused, from an HTTP/1.0 client that accepts binary answers, is answered in chunks, which HTTP/1.0 does not have:
the response has no `Content-Length`. (A call that is run is answered to such a client with its length: C97.) -/
theorem C98_http10_violated (S : Conf σ) (hS : CanRefuse S) (hb : S.http.useBinary = true) (r : Reg σ) (a : At σ) (hh : a.live.hdr = .null) (q : Post) (hq : q.Ok) (h10 : q.http11 = false)
    (v : Bytes) (hacc : Spec.Http.field (asc "Accept") q.fields = some v) (hv : Spec.Http.Contains (asc "application/x-frpc") v)
    (hbad : (∀ k, ¬ q.Kind k) ∨ ∃ k, q.Kind k ∧ CutShort S q k) (rest : Bytes) (hd : a.conn.data = q.text ++ rest) (hc : Calm a.conn.sched) (hw : CalmOut false a.wire.sched) :
    Spec.Http.versionText q.http11 = asc "HTTP/1.0" ∧ ∃ a' lines fs body, Web.turn S r a = (a', .again false) ∧
      a'.wire.sent = a.wire.sent ++ (Spec.Http.responseText 0 true (asc "200") (asc "OK") lines ++ body) ∧
      Spec.collectFields [] lines = some fs ∧ fs.map (·.1) = [asc "Content-Type", asc "Accept", asc "Connection", asc "Transfer-Encoding", asc "Server"] := by
  obtain ⟨a', bytes, h1, h2, ⟨out, data, h3, h4, -⟩, -⟩ := C98_refused S hS r a hh q hq hbad rest hd hc hw
  have hout : out = .binary := by
    rw [hacc] at h3
    cases out with
    | binary => rfl
    | xml =>
      rcases h3 v rfl with ⟨-, h⟩ | ⟨h, -⟩
      · rw [hb] at h; cases h
      · exact absurd hv h
    | json =>
      obtain ⟨w, hw1, -, hw2⟩ := h3
      cases hw1
      exact absurd hv hw2
    | base64 =>
      obtain ⟨w, hw1, -, -, hw2⟩ := h3
      cases hw1
      exact absurd hv hw2
  subst hout
  obtain ⟨lines, fs, own, body, e1, -, e3, -, -, -, -, e8, e9⟩ := h4
  refine ⟨by rw [h10]; decide +kernel, a', lines, fs, body, h1, by rw [h2, e1], e3, ?_⟩
  rw [e8]
  simpa using e9

/-- A post of plain text by an HTTP/1.0 client. -/
def plainPost : Post := { webPost "/RPC2" [(asc "Content-Type", asc "text/plain"), (asc "Accept", asc "application/x-frpc"), (asc "Content-Length", asc "2")] (asc "hi") with http11 := false }

example : plainPost.Ok ∧ plainPost.http11 = false ∧ Spec.Http.field (asc "Accept") plainPost.fields = some (asc "application/x-frpc") ∧ (∀ k, ¬ plainPost.Kind k) ∧
    CanRefuse webConf ∧ webConf.http.useBinary = true := by
  have h := webPost_ok "/RPC2" [(asc "Content-Type", asc "text/plain"), (asc "Accept", asc "application/x-frpc"), (asc "Content-Length", asc "2")] (asc "hi")
    (by unfold Spec.Http.IsWord; decide +kernel) (by decide +kernel) (by decide +kernel) (by decide +kernel) (by decide +kernel)
  exact ⟨⟨h.path, h.lines, h.fields, h.framed, h.length⟩, rfl, by decide +kernel, fun k hk => absurd ((chooseKind_iff _ _).2 hk) (by cases k <;> decide +kernel), webConf_refuses, rfl⟩

end Frpc
