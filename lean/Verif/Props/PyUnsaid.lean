import Verif.Props.PyWeb
/-!
# Results of the Python server that cannot be sent: C147
-/
namespace Frpc
open HttpIO HttpOut HttpServer Remote Spec Spec.Http Spec.Web
open PyServer (Reg World)
open Python (Py)
open Spec.Python (LoadableItems)
open PyWeb (Conf)

variable {σ : Type}

namespace PyWeb

/-- As long as the buffer holds everything, nothing is sent. -/
theorem writes_small (c : HttpOut.Conf) : ∀ (ds : List Bytes) (w : Writer), w.back.length + ds.flatten.length ≤ 65536 →
    ∃ w', PyWeb.writes c ds w = (.ok (), w') ∧ w'.wire = w.wire ∧ w'.headersSent = w.headersSent
  | [], w, _ => ⟨w, rfl, rfl, rfl⟩
  | d :: ds, w, h => by
    rw [List.flatten_cons, List.length_append] at h
    have hb : PyWeb.BUFFER = 65536 := rfl
    have h1 : PyWeb.write c d w = (.ok (), { w with total := (w.total + d.length) % 2 ^ 64, back := w.back ++ d }) := by
      unfold PyWeb.write
      simp only [hb]
      rw [if_neg (by omega)]
    obtain ⟨w2, b1, b2, b3⟩ := writes_small c ds { w with total := (w.total + d.length) % 2 ^ 64, back := w.back ++ d } (by simp only [List.length_append]; omega)
    exact ⟨w2, by unfold PyWeb.writes; rw [h1]; exact b1, b2, b3⟩

/-- Once it does not, the header and chunks have been sent. -/
theorem writes_big (c : HttpOut.Conf) (hch : c.chunks = true) (H : Bytes) (hH : ∀ n, c.head n = H) (ds : List Bytes) (hf : FirstWrite ds) (hl : 65536 < ds.flatten.length)
    (wire : Wire) (hc : CalmOut false wire.sched) : ∃ w', ∃ ps : List Bytes, PyWeb.writes c ds (.init wire) = (.ok (), w') ∧ CalmOut false w'.wire.sched ∧ w'.headersSent = true ∧
      w'.wire.sent = wire.sent ++ H ++ (ps.map chunk).flatten ∧ (∀ p ∈ ps, p ≠ []) ∧ ps.flatten <+: ds.flatten := by
  have hb : PyWeb.BUFFER = 65536 := rfl
  -- what the buffer holds, and whether the header has been sent
  have key : ∀ (ds : List Bytes) (w : Writer), w.back ≠ [] → CalmOut false w.wire.sched → w.headersSent = true ∨ 65536 < w.back.length + ds.flatten.length →
      (w.headersSent = false → w.back.length ≤ 65536) → ∀ w', PyWeb.writes c ds w = (.ok (), w') → w'.headersSent = true := by
    intro ds
    induction ds with
    | nil =>
      intro w h1 h2 h3 h4 w' h5
      cases h5
      cases hs : w.headersSent with
      | true => rfl
      | false =>
        have := h4 hs
        rcases h3 with h3 | h3
        · rw [hs] at h3; cases h3
        · simp at h3; omega
    | cons d ds ih =>
      intro w h1 h2 h3 h4 w' h5
      rw [List.flatten_cons, List.length_append] at h3
      unfold PyWeb.writes at h5
      by_cases ho : d.length > (2 ^ 64 + PyWeb.BUFFER - w.back.length) % 2 ^ 64
      · obtain ⟨wire', g1, g2, g3⟩ := sendResponse_calm c { w with total := (w.total + d.length) % 2 ^ 64 } h2
        have hd : d ≠ [] := by rintro rfl; simp at ho
        have hwr : PyWeb.write c d w = (.ok (), ⟨(w.total + d.length) % 2 ^ 64, [], d, true, wire'⟩) := by
          unfold PyWeb.write
          simp only [hch, if_true, if_pos ho, g1, List.nil_append]
        rw [hwr] at h5
        exact ih _ hd g3 (.inl rfl) (fun h => by cases h) w' h5
      · have hwr : PyWeb.write c d w = (.ok (), { w with total := (w.total + d.length) % 2 ^ 64, back := w.back ++ d }) := by
          unfold PyWeb.write
          simp only [if_neg ho]
        rw [hwr] at h5
        rw [hb] at ho
        refine ih { w with total := (w.total + d.length) % 2 ^ 64, back := w.back ++ d } (by simp [h1]) h2 ?_ ?_ w' h5
        · rcases h3 with h3 | h3
          · exact .inl h3
          · exact .inr (by simp only [List.length_append]; omega)
        · intro h
          have := h4 h
          simp only [List.length_append]
          omega
  obtain ⟨d, ds', rfl, hd1, hd2⟩ := hf
  have hw : PyWeb.write c d (.init wire) = (.ok (), ⟨d.length % 2 ^ 64, [], d, false, wire⟩) := by
    unfold PyWeb.write
    simp only [Writer.init, List.length_nil, hb]
    rw [if_neg (by omega)]
    simp
  obtain ⟨w1, ps, h1, h2, h3, h4, h5, h6⟩ := writes_chunks c hch H hH ds' ⟨d.length % 2 ^ 64, [], d, false, wire⟩ hd1 hc
  have hh := key ds' ⟨d.length % 2 ^ 64, [], d, false, wire⟩ hd1 hc (.inr (by simpa using hl)) (fun _ => by show d.length ≤ 65536; omega) w1 h1
  have hs : w1.wire.sent = wire.sent ++ H ++ (ps.map chunk).flatten := by
    simpa [pend, hh] using h4
  refine ⟨w1, ps, by unfold PyWeb.writes; rw [hw]; exact h1, h3, hh, hs, h5, ⟨w1.back, by simpa using h6⟩⟩

/-- A request that is understood, up to the marshalling of the result. -/
theorem turn_ran (S : PyWeb.Conf σ) (r : Reg σ) (a : PyWeb.At σ) {left : HttpHeader.Fields} (ho : a.live.out = polished left)
    (x : PyAsk) (hq : x.post.Ok) (hk : x.post.Kind x.kind) (hn : (0 : UInt8) ∉ x.name)
    (hu : Understood S x.kind x.post.data x.name x.args (fun v => v = x.ver ∨ v = ⟨2, 1⟩)) {v : Py} {custom : HttpHeader.Fields} {w1 : World σ}
    (hr : Ran S r a.live.world x v custom w1)
    (hs : ∀ ver, ver = x.ver ∨ ver = ⟨2, 1⟩ → ∀ out, AnsweredIn S.useBinary (field (asc "Accept") x.post.fields) out → ∃ m, Mar.new out ver = some m)
    (rest : Bytes) (hd : a.conn.data = x.post.text ++ rest) (hc : Calm a.conn.sched) :
    ∃ srv' s' ver m, (ver = x.ver ∨ ver = ⟨2, 1⟩) ∧ AnsweredIn S.useBinary (field (asc "Accept") x.post.fields) srv'.outType ∧
      (srv'.chunks = true ↔ x.post.http11 = true ∧ srv'.outType = .binary) ∧ Mar.new srv'.outType ver = some m ∧
      PyWeb.turn S r a = answer S ⟨⟨w1, srv', polished (left ++ custom), ver⟩, s', a.wire⟩ m v := by
  obtain ⟨hpre, hdis⟩ := hr
  rename_i w0 w1 pre
  obtain ⟨qs, srv', s', h1, h2, h3, h4, h5, h6, h7, h8, h9⟩ := C73_any_request (PyWeb.env S) a.live.srv x.post.path hq.path x.post.http11 x.post.lines hq.lines x.post.fields hq.fields
    x.post.data x.post.body rest hq.framed hq.length a.conn hc (by rw [hd]; unfold Post.text; rw [List.append_assoc]) x.kind hk hu.feed hu.finish
  obtain ⟨b1, b2, b3, b4⟩ := hu.built qs h3 h2
  obtain ⟨m, m1⟩ := hs _ b4 srv'.outType h7
  have htk : take S ⟨w0, srv', a.live.out ++ polished pre, version S x.kind qs⟩ w1 =
      ⟨{ w1 with user := (S.added w1.user).2 }, srv', polished (left ++ (pre ++ (S.added w1.user).1)), version S x.kind qs⟩ := by
    unfold take
    simp only [added_polished, ho]
    simp [polished]
  refine ⟨srv', s', version S x.kind qs, m, b4, h7, h8, m1, ?_⟩
  rw [turn_pre S r a hpre]
  unfold readTurn
  have hrd := read_post S a.live.srv (method := asc "POST") (by unfold Spec.Http.IsWord; decide +kernel) hq.path x.post.http11 x.post.lines (x.post.body ++ rest) a.conn hc
    (by rw [hd]; unfold Post.text; rw [List.append_assoc])
  simp only [hrd, h1]
  unfold callTurn
  have hnn : (isNone (Python.seen (PyWeb.built S x.kind qs))) = false := by rw [b3]; rfl
  have hpar : params S (PyWeb.built S x.kind qs) = .ok (.tuple x.args) := by
    unfold params
    simp only [b1, b3, Python.toTuple]
  simp only [m1, hnn, Bool.and_false, Bool.false_eq_true, if_false, b2, PyServer.cstr_eq hn, hpar, hdis, htk]

end PyWeb

/-- **C147 (one error).** A request whose result cannot be converted gets, if nothing of the result has been sent, exactly one answer: the HTTP error 500 that says why. Nothing of the result
is in it, and `serve` returns. Nothing has been sent unless the answer is binary and the part before the place that cannot be converted is longer than the buffer (`C147_violated`). -/
theorem C147_error_partial (S : PyWeb.Conf σ) (hp : Python.Plain S.opts) (hP : Spec.Xml.Conforms S.parser) (r : Reg σ) (x : PyWeb.Live σ) (ho : x.out = [])
    (q : PyAsk) (hq : q.Ok S) {v : Py} {custom : HttpHeader.Fields} {w1 : World σ} (hr : Ran S r x.world q v custom w1) {ex : Python.Exn} (hx : (PyWeb.script S v).2 = some ex)
    (hs : ∀ ver, ver = q.ver ∨ ver = ⟨2, 1⟩ → ∀ out, AnsweredIn S.useBinary (field (asc "Accept") q.post.fields) out →
      ∃ m ws k, Mar.new out ver = some m ∧ m.packAll S.strOk S.dbl (PyWeb.script S v).1 = (ws, k, none) ∧ (out = .binary → q.post.http11 = true → ws.flatten.length ≤ 65536))
    (c : Conn) (rest : Bytes) (hd : c.data = q.post.text ++ rest) (hc : Calm c.sched) (down : List SEv) (hw : CalmOut false down) :
    ∃ a, PyWeb.serve S r x c ⟨down, []⟩ = (a, .done) ∧ a.wire.sent = PyWeb.httpError 500 (S.raisedText ex) ∧ a.live.world = w1 := by
  obtain ⟨srv', s', ver, m, g1, g2, g3, g4, g5⟩ := PyWeb.turn_ran S r ⟨{ x with srv := { x.srv with close := false, head := false } }, c, ⟨down, []⟩⟩ (left := []) (by rw [ho]; rfl) q hq.post hq.kind hq.name
    (PyWeb.carries_understood hp hP hq.call).1 hr (fun ver hv out hout => by obtain ⟨m, -, -, h, -⟩ := hs ver hv out hout; exact ⟨m, h⟩) rest hd hc
  obtain ⟨m', ws, k, m1, m2, m3⟩ := hs ver g1 srv'.outType g2
  rw [g4] at m1
  cases m1
  have hwr : ∃ w', PyWeb.writes (PyWeb.conf S ⟨w1, srv', PyWeb.polished ([] ++ custom), ver⟩) ws (.init ⟨down, []⟩) = (.ok (), w') ∧ w'.wire = ⟨down, []⟩ ∧ w'.headersSent = false := by
    cases hch : srv'.chunks with
    | false =>
      obtain ⟨w', a1, -, a3, a4, -⟩ := PyWeb.writes_plain (PyWeb.conf S ⟨w1, srv', PyWeb.polished ([] ++ custom), ver⟩) hch ws (.init ⟨down, []⟩)
      exact ⟨w', a1, a3, a4⟩
    | true =>
      obtain ⟨k1, k2⟩ := g3.1 hch
      exact PyWeb.writes_small _ ws (.init ⟨down, []⟩) (by simpa [Writer.init] using m3 k2 k1)
  obtain ⟨w', a1, a2, a3⟩ := hwr
  obtain ⟨w3, k1, k2, -⟩ := sendData_calm false (PyWeb.httpError 500 (S.raisedText ex)) ⟨down, []⟩ hw
  refine ⟨⟨⟨w1, srv', PyWeb.polished ([] ++ custom), ver⟩, s', w3⟩, ?_, by simpa using k2, rfl⟩
  unfold PyWeb.serve
  rw [PyWeb.serveLoop, g5]
  unfold PyWeb.answer PyWeb.unfinished
  simp only [m2, hx, a1, PyWeb.after, a2, a3, Bool.false_eq_true, if_false]
  unfold PyWeb.failHttp
  simp only [k1]

/-- **C147 is false of long results.** If the answer is binary and the part of the result before the place that cannot be converted is longer than the buffer, the client gets the header of an
answer 200, some chunks, and then, where the next chunk should be, the header of the HTTP error. -/
theorem C147_violated (S : PyWeb.Conf σ) (hp : Python.Plain S.opts) (hP : Spec.Xml.Conforms S.parser) (r : Reg σ) (x : PyWeb.Live σ) (ho : x.out = [])
    (q : PyAsk) (hq : q.Ok S) (h11 : q.post.http11 = true) {v : Py} {custom : HttpHeader.Fields} {w1 : World σ} (hr : Ran S r x.world q v custom w1) {ex : Python.Exn}
    (hx : (PyWeb.script S v).2 = some ex)
    (hs : ∀ ver, ver = q.ver ∨ ver = ⟨2, 1⟩ → ∀ out, AnsweredIn S.useBinary (field (asc "Accept") q.post.fields) out → out = .binary ∧
      ∃ m ws k, Mar.new out ver = some m ∧ m.packAll S.strOk S.dbl (PyWeb.script S v).1 = (ws, k, none) ∧ FirstWrite ws ∧ 65536 < ws.flatten.length)
    (c : Conn) (rest : Bytes) (hd : c.data = q.post.text ++ rest) (hc : Calm c.sched) (down : List SEv) (hw : CalmOut false down) :
    ∃ (a : PyWeb.At σ) (fields : Bytes) (ps : List Bytes), PyWeb.serve S r x c ⟨down, []⟩ = (a, .done) ∧
      a.wire.sent = asc "HTTP/1.1 200 OK\r\n" ++ fields ++ crlf ++ (ps.map (fun p => hex p.length ++ crlf ++ p ++ crlf)).flatten ++ PyWeb.httpError 500 (S.raisedText ex) ∧ ∀ p ∈ ps, p ≠ [] := by
  obtain ⟨srv', s', ver, m, g1, g2, g3, g4, g5⟩ := PyWeb.turn_ran S r ⟨{ x with srv := { x.srv with close := false, head := false } }, c, ⟨down, []⟩⟩ (left := []) (by rw [ho]; rfl) q hq.post hq.kind hq.name
    (PyWeb.carries_understood hp hP hq.call).1 hr (fun ver hv out hout => by obtain ⟨-, m, -, -, h, -⟩ := hs ver hv out hout; exact ⟨m, h⟩) rest hd hc
  obtain ⟨hb, m', ws, k, m1, m2, m3, m4⟩ := hs ver g1 srv'.outType g2
  rw [g4] at m1
  cases m1
  have hch : srv'.chunks = true := g3.2 ⟨h11, hb⟩
  obtain ⟨w', ps, a1, a2, a3, a4, a5, -⟩ := PyWeb.writes_big (PyWeb.conf S ⟨w1, srv', PyWeb.polished ([] ++ custom), ver⟩) hch (PyWeb.head S srv' (PyWeb.polished ([] ++ custom)) 0)
    (fun n => by show PyWeb.head S srv' _ n = _; unfold PyWeb.head PyWeb.ownFields; simp only [hch, if_true]) ws m3 m4 ⟨down, []⟩ hw
  obtain ⟨w3, k1, k2, -⟩ := sendData_calm false (PyWeb.httpError 500 (S.raisedText ex)) w'.wire a2
  refine ⟨⟨⟨w1, srv', [], ver⟩, s', w3⟩, (PyWeb.polished ([] ++ custom) ++ PyWeb.ownFields S srv' 0).flatMap headLine, ps, ?_, ?_, a5⟩
  · unfold PyWeb.serve
    rw [PyWeb.serveLoop, g5]
    unfold PyWeb.answer PyWeb.unfinished
    simp only [m2, hx, a1, PyWeb.after, a3, if_true]
    unfold PyWeb.failHttp
    simp only [k1]
  · show w3.sent = _
    rw [k2, a4]
    rfl

/-- A method that returns a list of a text and a number that is too large. -/
def pyLong (s : Bytes) : PyServer.Fn Nat := fun st _ => (.ok (.list [.str s, .int (2 ^ 70)]), st + 1)

/-- A registry with it as `big`. -/
def pyLongReg (s : Bytes) : Reg Nat := PyServer.built (PyServer.new Nat none none none true) [.method { name := .str (asc "big"), method := some (pyLong s) }]

/-- The call `big()`, of a client that takes the binary protocol. -/
def pyLongAsk : PyAsk :=
  ⟨webPost "/RPC2" [(asc "Content-Type", asc "application/x-frpc"), (asc "Accept", asc "application/x-frpc"), (asc "Content-Length", asc "9")]
    (sendCall (fun _ => true) ⟨2, 1⟩ (asc "big") []).1.flatten, .binary, asc "big", [], ⟨2, 1⟩⟩

theorem pyLongAsk_ok : pyLongAsk.Ok pyWebConf :=
  ⟨webPost_ok _ _ _ (by unfold Spec.Http.IsWord; decide +kernel) (by decide +kernel) (by decide +kernel) (by decide +kernel) (by decide +kernel),
    (chooseKind_iff _ _).1 (by decide +kernel), .binary (S := pyWebConf) (strOk := fun _ => true) (args := []) Web.full21 (by simp [HeldItems])
      (by simp [SmallItems]) (by simp [LoadableItems]) (by rfl), by decide +kernel⟩

/-- What is written before the number. -/
theorem pyLong_packed (s : Bytes) (hs : s.length < 2 ^ 31) : ∃ ws k, (Mar.bin ⟨2, 1⟩).packAll (fun _ => true) xmlExampleDbl
    (PyWeb.script pyWebConf (.list [.str s, .int (2 ^ 70)])).1 = (ws, k, none) ∧ FirstWrite ws ∧ s.length ≤ ws.flatten.length ∧ ws.flatten.length ≤ s.length + 100 := by
  have hz : sz32 s.length = s.length := by unfold sz32; omega
  have hsc : (PyWeb.script pyWebConf (.list [.str s, .int (2 ^ 70)])).1 = [.packMethodResponse, .packArray 2, .packString s] := by
    have : (PyWeb.script pyWebConf (.list [.str s, .int (2 ^ 70)])).1 = [.packMethodResponse, .packArray 2, .packString (s.take (sz32 s.length))] := rfl
    rw [this, hz, List.take_length]
  rw [hsc]
  refine ⟨[BinMarshaller.packMagic ⟨2, 1⟩, [BinMarshaller.dataType T_RESPONSE 0]] ++ (BinMarshaller.sized ⟨2, 1⟩ T_ARRAY 2 ++ (BinMarshaller.sized ⟨2, 1⟩ T_STRING s.length ++ [s] ++ [])), .bin ⟨2, 1⟩, rfl,
    ⟨_, _, rfl, by decide, by decide⟩, ?_, ?_⟩
  · simp
    omega
  · have hm : (BinMarshaller.packMagic ⟨2, 1⟩).length = 4 := rfl
    have ha : (BinMarshaller.sized ⟨2, 1⟩ T_ARRAY 2).flatten.length = 2 := rfl
    have hn : (BinMarshaller.number (s.length : Int) (BinMarshaller.getNumberSize ⟨2, 1⟩ (BinMarshaller.getNumberType ⟨2, 1⟩ (s.length : Int)))).length ≤ 8 := by
      unfold BinMarshaller.number
      rw [List.length_take, leBytes_length]
      omega
    simp only [List.flatten_append, List.length_append, List.flatten_cons, List.flatten_nil, List.append_nil, hm, ha, List.length_cons, List.length_nil]
    unfold BinMarshaller.sized
    simp only [List.flatten_cons, List.flatten_nil, List.append_nil, List.length_append, List.length_cons, List.length_nil]
    omega

/-- The hypotheses of `C147_violated` and of `C147_error_partial` hold, for a long and for a short text. -/
example (s : Bytes) (hl : s.length < 2 ^ 31) : pyLongAsk.Ok pyWebConf ∧ pyLongAsk.post.http11 = true ∧
    (∃ w1 custom, Ran pyWebConf (pyLongReg s) ⟨0, false⟩ pyLongAsk (.list [.str s, .int (2 ^ 70)]) custom w1) ∧
    (PyWeb.script pyWebConf (.list [.str s, .int (2 ^ 70)])).2 = some .overflow ∧
    ∀ ver, ver = pyLongAsk.ver ∨ ver = ⟨2, 1⟩ → ∀ out, AnsweredIn pyWebConf.useBinary (field (asc "Accept") pyLongAsk.post.fields) out → out = .binary ∧
      ∃ m ws k, Mar.new out ver = some m ∧ m.packAll pyWebConf.strOk pyWebConf.dbl (PyWeb.script pyWebConf (.list [.str s, .int (2 ^ 70)])).1 = (ws, k, none) ∧ FirstWrite ws ∧
        (65536 < s.length → 65536 < ws.flatten.length) ∧ (s.length ≤ 1000 → ws.flatten.length ≤ 65536) := by
  refine ⟨pyLongAsk_ok, rfl, ⟨_, _, .mk (w1 := ⟨1, false⟩) (.no rfl) ?_⟩, rfl, ?_⟩
  · exact C111_call_partial pyOld rfl (pyLongReg s) ⟨0, false⟩ (asc "big") (by decide +kernel) (.tuple []) [] _ rfl (pyLong s) rfl 0 1 1 (.ok (.list [.str s, .int (2 ^ 70)])) _
      (.none rfl) rfl (.plain _ rfl (.value _))
  · intro ver hver out hout
    have hver : ver = ⟨2, 1⟩ := hver.elim id id
    subst hver
    have : out = .binary := by
      have h := (chooseOut_in pyWebConf.useBinary (field (asc "Accept") pyLongAsk.post.fields)).1
      rw [show (chooseOut pyWebConf.useBinary (field (asc "Accept") pyLongAsk.post.fields)).1 = .binary by decide +kernel] at h
      obtain ⟨-, a, ha, h1⟩ := h
      cases out
      · rcases hout a ha with ⟨-, h⟩ | ⟨h, -⟩
        · cases h
        · exact absurd h1 h
      · rfl
      · obtain ⟨b, hb, h3⟩ := hout
        grind
      · obtain ⟨b, hb, h3, h4, h5⟩ := hout
        grind
    subst this
    obtain ⟨ws, k, p1, p2, p3, p4⟩ := pyLong_packed s hl
    exact ⟨rfl, .bin ⟨2, 1⟩, ws, k, rfl, p1, p2, fun h => by omega, fun h => by omega⟩

end Frpc
