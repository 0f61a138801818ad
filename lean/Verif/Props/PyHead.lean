import Verif.Props.PyWeb
/-!
# `HEAD` requests to the Python server: C120

The user gives `registerHead` a function that says with a number whether the server is up: 0 is yes.
-/
namespace Frpc
open HttpIO HttpOut HttpServer Spec.XmlRpc Remote Spec.Web
open PyServer (Reg World)
open Python (Py PB)
variable {σ : Type}

/-- What the user's function has said, as the protocol has it: up, down, or no answer at all. -/
inductive HeadSays : Except PyServer.Exc Py → Nat → Prop
  | up : HeadSays (.ok (.int 0)) 200
  | false : HeadSays (.ok (.bool false)) 200
  | down {n : Int} : n ≠ 0 → -(2 : Int) ^ 63 ≤ n → n < 2 ^ 63 → HeadSays (.ok (.int n)) 503
  | true : HeadSays (.ok (.bool true)) 503
  | large {n : Int} : ¬(-(2 : Int) ^ 63 ≤ n ∧ n < 2 ^ 63) → HeadSays (.ok (.int n)) 500
  | other {v : Py} : (∀ n, v ≠ .int n) → (∀ b, v ≠ .bool b) → HeadSays (.ok v) 500
  | raised {e : PyServer.Exc} : HeadSays (.error e) 500

namespace PyWeb

/-- The turn on a `HEAD`. -/
theorem turn_head (S : PyWeb.Conf σ) (r : Reg σ) (a : PyWeb.At σ) {w0 : World σ} {pre : HttpHeader.Fields} (hpre : PreRead S r a.live.world w0 pre)
    {path : Bytes} (hp : Spec.Http.IsWord path) (http11 : Bool) (ls : List Spec.HLine) (hls : ∀ l ∈ ls, l.Ok) (fs : List (Bytes × Bytes)) (hfs : Spec.collectFields [] ls = some fs) (rest : Bytes)
    (hc : Calm a.conn.sched) (hd : a.conn.data = Spec.Http.requestText (asc "HEAD") path http11 ls ++ rest) :
    ∃ sc, Calm sc ∧ PyWeb.turn S r a = headTurn S r ⟨⟨w0, { a.live.srv with head := true, close := true }, a.live.out ++ polished pre, a.live.ver⟩, ⟨rest, sc, []⟩, a.wire⟩ := by
  have hm : Spec.Http.IsWord (asc "HEAD") := by unfold Spec.Http.IsWord; decide +kernel
  obtain ⟨sc, hc', h1⟩ := readRequest_head_read (PyWeb.env S) a.live.srv hm hp http11 ls hls fs hfs rest a.conn hc hd
  have hrd := PyWeb.read_post S a.live.srv hm hp http11 ls rest a.conn hc hd
  refine ⟨sc, hc', ?_⟩
  rw [PyWeb.turn_pre S r a hpre]
  unfold PyWeb.readTurn
  have hb : readBody (PyWeb.env S) { a.live.srv with close := false, head := false } (asc "HEAD", path, http11) (stored fs) ⟨rest, sc, []⟩ =
      (.ok none, { a.live.srv with head := true, close := true }, ⟨rest, sc, []⟩) := by
    unfold readBody
    rw [if_pos (by show asc "HEAD" ≠ asc "POST"; decide +kernel), if_pos rfl]
  simp only [hrd, h1, hb]

/-- The header without chunks is a whole response without content. -/
theorem head_reply (S : PyWeb.Conf σ) (x : Live σ) (custom : List (Bytes × Bytes)) (hok : ∀ f ∈ custom, Spec.PyWeb.MayAdd f) (hx : x.out = polished custom) (hch : x.srv.chunks = false) :
    Spec.PyWeb.IsReply ((conf S x).head 0) x.srv.outType custom S.keepAlive false [] := by
  have hw : CalmOut false ([] : List SEv) := fun e he => by cases he
  obtain ⟨w', bytes, h1, h2, -, -, h5⟩ := reply_sent S x custom hok hx [] (by simp) (by rw [hch]; intro h; cases h) ⟨[], []⟩ hw false (by rw [hch]; rfl)
  obtain ⟨w2, g1, -, -, g4, -⟩ := message_sent (conf S x) (by show x.srv.chunks = true → _; rw [hch]; intro h; cases h) [] ⟨[], []⟩ hw
    (by show x.srv.chunks = true → _; rw [hch]; intro h; cases h)
  have e : w' = w2 := by
    have := h1.symm.trans g1
    injection this
  subst e
  have h4 := g4 hch
  rw [h2] at h4
  have h6 : bytes = (conf S x).head 0 := by simpa using h4
  rw [← h6]
  exact h5

end PyWeb

/-- **C120 (up).** `HEAD` to a server whose function says that it is up: the function is run once, the client gets one whole response 200 without content, with the fields that user functions
have added, and the connection is to be closed. Missing: a server whose last call was answered in chunks, see below. -/
theorem C120_up_partial (S : PyWeb.Conf σ) (r : Reg σ) (a : PyWeb.At σ) (ho : a.live.out = []) {w0 : World σ} {pre : HttpHeader.Fields} (hpre : PreRead S r a.live.world w0 pre)
    {path : Bytes} (hp : Spec.Http.IsWord path) (http11 : Bool) (ls : List Spec.HLine) (hls : ∀ l ∈ ls, l.Ok) (fs : List (Bytes × Bytes)) (hfs : Spec.collectFields [] ls = some fs) (rest : Bytes)
    (hc : Calm a.conn.sched) (hd : a.conn.data = Spec.Http.requestText (asc "HEAD") path http11 ls ++ rest) (hw : CalmOut false a.wire.sched)
    (f : PyServer.Fn σ) (hf : r.head = some f) (hup : HeadSays (f w0.user []).1 200) (hmay : ∀ g ∈ pre ++ (S.added (f w0.user []).2).1, Spec.PyWeb.MayAdd g)
    (hch : a.live.srv.chunks = false) :
    ∃ a' bytes, PyWeb.turn S r a = (a', .again true) ∧ a'.wire.sent = a.wire.sent ++ bytes ∧ Spec.PyWeb.IsReply bytes a.live.srv.outType (pre ++ (S.added (f w0.user []).2).1) S.keepAlive false [] ∧
      a'.live.world = { w0 with user := (S.added (f w0.user []).2).2 } ∧ a'.conn.data = rest ∧ ∀ n, PyWeb.stop S a'.live.srv n = true := by
  obtain ⟨sc, -, h1⟩ := PyWeb.turn_head S r a hpre hp http11 ls hls fs hfs rest hc hd
  have hz : ∃ v, (f w0.user []).1 = .ok v ∧ PyWeb.asLong v = some 0 := by
    generalize (f w0.user []).1 = o at hup
    cases hup with
    | up => exact ⟨_, rfl, by decide⟩
    | false => exact ⟨_, rfl, by decide⟩
  obtain ⟨v, hv1, hv2⟩ := hz
  rw [h1]
  unfold PyWeb.headTurn
  simp only [hf, hv1, hv2, ne_eq, not_true_eq_false, if_false, PyWeb.take, PyWeb.added_polished]
  rw [hch]
  simp only [Bool.false_eq_true, if_false]
  have hr := PyWeb.head_reply S ⟨⟨(S.added (f w0.user []).2).2, w0.corrupt⟩, { a.live.srv with head := true, close := true }, PyWeb.polished (pre ++ (S.added (f w0.user []).2).1), a.live.ver⟩ _
    hmay rfl hch
  obtain ⟨w', k1, k2, -⟩ := PyWeb.sendAll_calm ([(PyWeb.conf S ⟨⟨(S.added (f w0.user []).2).2, w0.corrupt⟩, { a.live.srv with head := true, close := true },
    PyWeb.polished (pre ++ (S.added (f w0.user []).2).1), a.live.ver⟩).head 0] ++ []) a.wire hw
  have e : a.live.out ++ PyWeb.polished pre ++ PyWeb.polished (S.added (f w0.user []).2).1 = PyWeb.polished (pre ++ (S.added (f w0.user []).2).1) := by
    rw [ho]
    simp [PyWeb.polished]
  simp only [e]
  rw [show ({ a.live.srv with head := true, close := true } : Srv) = ⟨a.live.srv.outType, a.live.srv.chunks, true, true⟩ from rfl, hch] at k1 hr k2
  rw [k1]
  refine ⟨_, _, rfl, by simpa using k2, hr, rfl, rfl, fun n => ?_⟩
  simp [PyWeb.stop]

/-- **C120 (down).** If it says otherwise, or raises an exception, or has given no number of the C type `long`, the client gets the HTTP error 503 or 500, and `serve` ends. -/
theorem C120_down (S : PyWeb.Conf σ) (r : Reg σ) (a : PyWeb.At σ) {w0 : World σ} {pre : HttpHeader.Fields} (hpre : PreRead S r a.live.world w0 pre)
    {path : Bytes} (hp : Spec.Http.IsWord path) (http11 : Bool) (ls : List Spec.HLine) (hls : ∀ l ∈ ls, l.Ok) (fs : List (Bytes × Bytes)) (hfs : Spec.collectFields [] ls = some fs) (rest : Bytes)
    (hc : Calm a.conn.sched) (hd : a.conn.data = Spec.Http.requestText (asc "HEAD") path http11 ls ++ rest) (hw : CalmOut false a.wire.sched)
    (f : PyServer.Fn σ) (hf : r.head = some f) (code : Nat) (hs : HeadSays (f w0.user []).1 code) (hcode : code ≠ 200) :
    ∃ a' reason, PyWeb.turn S r a = (a', .stop .done) ∧ a'.wire.sent = a.wire.sent ++ PyWeb.httpError code reason ∧
      a'.live.world = { w0 with user := (S.added (f w0.user []).2).2 } ∧ a'.conn.data = rest := by
  obtain ⟨sc, -, h1⟩ := PyWeb.turn_head S r a hpre hp http11 ls hls fs hfs rest hc hd
  have fin : ∀ (b : PyWeb.At σ) (c : Nat) reason, b.wire = a.wire → b.live.world = { w0 with user := (S.added (f w0.user []).2).2 } → b.conn.data = rest →
      ∃ a' reason', PyWeb.failHttp b c reason = (a', .stop .done) ∧
      a'.wire.sent = a.wire.sent ++ PyWeb.httpError c reason' ∧ a'.live.world = { w0 with user := (S.added (f w0.user []).2).2 } ∧ a'.conn.data = rest := by
    intro b c reason hb hb2 hb3
    obtain ⟨w3, k1, k2, -⟩ := sendData_calm false (PyWeb.httpError c reason) a.wire hw
    unfold PyWeb.failHttp
    rw [hb, k1]
    exact ⟨_, reason, rfl, k2, hb2, hb3⟩
  rw [h1]
  unfold PyWeb.headTurn
  simp only [hf]
  generalize hq : (f w0.user []).1 = o at hs
  cases hs with
  | up => exact absurd rfl hcode
  | false => exact absurd rfl hcode
  | down h0 h2 h3 =>
    simp only [PyWeb.asLong, h2, h3, and_self, if_true, ne_eq, h0, not_false_eq_true]
    exact fin _ _ _ rfl rfl rfl
  | true => exact fin _ _ _ rfl rfl rfl
  | large h2 =>
    simp only [PyWeb.asLong, h2, if_false]
    exact fin _ _ _ rfl rfl rfl
  | other h2 h3 =>
    rename_i v
    have : PyWeb.asLong v = none := by
      cases v <;> first
        | rfl
        | exact absurd rfl (h2 _)
        | exact absurd rfl (h3 _)
    simp only [this]
    exact fin _ _ _ rfl rfl rfl
  | raised => exact fin _ _ _ rfl rfl rfl

/-- **C120 is violated.** If the call that the server answered last, to whomever, was answered in chunks, the answer to `HEAD` is a header that announces chunks, and then a content: the end of
the chunks. -/
theorem C120_content_violated (S : PyWeb.Conf σ) (r : Reg σ) (a : PyWeb.At σ) {w0 : World σ} {pre : HttpHeader.Fields} (hpre : PreRead S r a.live.world w0 pre)
    {path : Bytes} (hp : Spec.Http.IsWord path) (http11 : Bool) (ls : List Spec.HLine) (hls : ∀ l ∈ ls, l.Ok) (fs : List (Bytes × Bytes)) (hfs : Spec.collectFields [] ls = some fs) (rest : Bytes)
    (hc : Calm a.conn.sched) (hd : a.conn.data = Spec.Http.requestText (asc "HEAD") path http11 ls ++ rest) (hw : CalmOut false a.wire.sched)
    (f : PyServer.Fn σ) (hf : r.head = some f) (hup : HeadSays (f w0.user []).1 200) (hch : a.live.srv.chunks = true) :
    ∃ a' head, PyWeb.turn S r a = (a', .again true) ∧ a'.wire.sent = a.wire.sent ++ (asc "HTTP/1.1 200 OK\r\n" ++ head ++ asc "\r\n" ++ asc "0\r\n\r\n") := by
  obtain ⟨sc, -, h1⟩ := PyWeb.turn_head S r a hpre hp http11 ls hls fs hfs rest hc hd
  have hz : ∃ v, (f w0.user []).1 = .ok v ∧ PyWeb.asLong v = some 0 := by
    generalize (f w0.user []).1 = o at hup
    cases hup with
    | up => exact ⟨_, rfl, by decide⟩
    | false => exact ⟨_, rfl, by decide⟩
  obtain ⟨v, hv1, hv2⟩ := hz
  rw [h1]
  unfold PyWeb.headTurn
  simp only [hf, hv1, hv2, ne_eq, not_true_eq_false, if_false, PyWeb.take, hch, if_true]
  generalize hh : (PyWeb.conf S _).head 0 = h
  have hx : ∃ t, h = asc "HTTP/1.1 200 OK\r\n" ++ t ++ asc "\r\n" := by rw [← hh]; exact ⟨_, rfl⟩
  obtain ⟨t, rfl⟩ := hx
  obtain ⟨w', k1, k2, -⟩ := PyWeb.sendAll_calm ([asc "HTTP/1.1 200 OK\r\n" ++ t ++ asc "\r\n"] ++ [asc "0\r\n\r\n"]) a.wire hw
  rw [k1]
  refine ⟨_, t, rfl, ?_⟩
  rw [k2]
  simp only [List.flatten_append, List.flatten_cons, List.flatten_nil, List.append_nil, List.append_assoc]

/-- **C115 (the hook before requests).** If it raises an exception, `serve` ends with an exception in Python: nothing is read and nothing sent. -/
theorem C115_preRead (S : PyWeb.Conf σ) (r : Reg σ) (a : PyWeb.At σ) (f : PyServer.Fn σ) (hf : r.preRead = some f) (e : PyServer.Exc) (he : (f a.live.world.user []).1 = .error e) :
    ∃ a', PyWeb.turn S r a = (a', .stop .raised) ∧ a'.wire = a.wire ∧ a'.conn = a.conn := by
  unfold PyWeb.turn
  simp only [hf, he]
  exact ⟨_, rfl, rfl, rfl⟩

/-- **C111 (from Python).** `MethodRegistry.dispatch(name, clientIP, params)` with a text and a tuple is a call like that of a client; with anything else it is an exception, and nothing is run. -/
theorem C111_python (E : PyServer.Env) (r : Reg σ) (w : World σ) (name ip params : Py) :
    (∀ s xs, name = .str s → (0 : UInt8) ∉ s → ip = .tuple xs → PyServer.dispatchPython E r w name ip params = PyServer.dispatch E r w s ip (.ok params)) ∧
    ((∀ s, name = .str s → (0 : UInt8) ∈ s) ∨ (∀ xs, ip ≠ .tuple xs) → ∃ e, PyServer.dispatchPython E r w name ip params = (.null e, w)) := by
  refine ⟨?_, ?_⟩
  · intro s xs h1 h2 h3
    subst h1 h3
    have : s.contains 0 = false := by simpa using h2
    simp only [PyServer.dispatchPython, PyServer.asName, this, Bool.false_eq_true, if_false]
  · intro h
    unfold PyServer.dispatchPython
    cases hn : PyServer.asName name with
    | error e => exact ⟨_, rfl⟩
    | ok n =>
      simp only
      rcases h with h | h
      · exfalso
        cases name <;> simp only [PyServer.asName] at hn <;> try cases hn
        rename_i s
        have := h s rfl
        simp [this] at hn
      · cases ip <;> first
          | exact ⟨_, rfl⟩
          | exact absurd rfl (h _)

/-! ## Witnesses -/

/-- A server that is up as long as it was asked less than three times. -/
def pyHeadReg : Reg Nat := { pyReg with head := some (fun st _ => (.ok (.int (if st < 3 then 0 else 1)), st + 1)) }

/-- `HEAD / HTTP/1.1`. -/
def pyHead : Bytes := Spec.Http.requestText (asc "HEAD") (asc "/") true []

example (st : Nat) (h : st < 3) : HeadSays ((fun st _ => (Except.ok (.int (if st < 3 then 0 else 1)), st + 1) : PyServer.Fn Nat) st []).1 200 := by
  simp only [h, if_true]
  exact .up

/-- The hypotheses are met. -/
example (st : Nat) (h : st < 3) : ∃ a' bytes, PyWeb.turn pyWebConf pyHeadReg ⟨PyWeb.new st, ⟨pyHead ++ [], [], []⟩, ⟨[], []⟩⟩ = (a', .again true) ∧ a'.wire.sent = [] ++ bytes ∧
    Spec.PyWeb.IsReply bytes .xml ([] ++ (pyWebConf.added (st + 1)).1) pyWebConf.keepAlive false [] := by
  obtain ⟨a', bytes, h1, h2, h3, -⟩ := C120_up_partial pyWebConf pyHeadReg ⟨PyWeb.new st, ⟨pyHead ++ [], [], []⟩, ⟨[], []⟩⟩ rfl (PreRead.no rfl) (path := asc "/")
    (by unfold Spec.Http.IsWord; decide +kernel) true [] (by intro l hl; cases hl) [] rfl [] (by intro e he; cases he) rfl (by intro e he; cases he) _ rfl
    (by simp only [PyWeb.new, h, if_true]; exact .up) (by simp only [List.nil_append]; exact pyWeb_fields _) rfl
  exact ⟨a', bytes, h1, h2, h3⟩

example : (fun q : PyWeb.At Nat × PyWeb.End => ((asc "HTTP/1.1 503 Service Unavailable\r\n").isPrefixOf q.1.wire.sent, q.2))
    (PyWeb.serve pyWebConf pyHeadReg (PyWeb.new 3) ⟨pyHead, [], []⟩ ⟨[], []⟩) = (true, .done) := by
  decide +kernel

/-- The call `f(1)` in the binary protocol, of a client that knows chunks and the binary protocol. -/
def pyChunkAsk : Post :=
  webPost "/RPC2" [(asc "Content-Type", asc "application/x-frpc"), (asc "Accept", asc "application/x-frpc"), (asc "Content-Length", asc "9")]
    (sendCall (fun _ => true) ⟨2, 1⟩ (asc "f") [.int 1]).1.flatten

/-- After it, `HEAD` on the next connection gets a content. -/
example : (fun q : PyWeb.At Nat × PyWeb.End => (q.1.live.srv.chunks,
      (fun p : PyWeb.At Nat × PyWeb.End => ((asc "HTTP/1.1 200 OK\r\n").isPrefixOf p.1.wire.sent, (asc "\r\n\r\n0\r\n\r\n").isSuffixOf p.1.wire.sent, p.2))
        (PyWeb.serve pyWebConf { pyHeadReg with head := some (fun st _ => (.ok (.int 0), st)) } q.1.live ⟨pyHead, [], []⟩ ⟨[], []⟩)))
    (PyWeb.serve pyWebConf { pyHeadReg with head := some (fun st _ => (.ok (.int 0), st)) } (PyWeb.new 0) ⟨pyChunkAsk.text, [], []⟩ ⟨[], []⟩) = (true, true, true, .done) := by
  decide +kernel

/-- The call of a method with the argument 1 in the binary protocol. -/
def pyNamed (name : Bytes) (len : String) : Post :=
  webPost "/RPC2" [(asc "Content-Type", asc "application/x-frpc"), (asc "Content-Length", asc len)] (sendCall (fun _ => true) ⟨2, 1⟩ name [.int 1]).1.flatten

/-- What a new server of the examples sends to it, and what has become of the state. -/
def pyAnswer (q : Post) : Bytes × Nat :=
  (fun r : PyWeb.At Nat × PyWeb.End => (r.1.wire.sent, r.1.live.world.user)) (PyWeb.serve pyWebConf pyReg (PyWeb.new 0) ⟨q.text, [], []⟩ ⟨[], []⟩)

/-- **C115 is violated: names are cut.** A call of a method whose name has a NUL in it runs the method of the part before it: the server answers `f`, NUL, `x` as it answers `f`, and other than
the name of no method. -/
theorem C115_nul_violated : (pyNamed (asc "f" ++ [0] ++ asc "x") "11").Ok ∧ pyAnswer (pyNamed (asc "f" ++ [0] ++ asc "x") "11") = pyAnswer (pyNamed (asc "f") "9") ∧
    pyAnswer (pyNamed (asc "fx") "10") ≠ pyAnswer (pyNamed (asc "f") "9") :=
  ⟨webPost_ok _ _ _ (by unfold Spec.Http.IsWord; decide +kernel) (by decide +kernel) (by decide +kernel) (by decide +kernel) (by decide +kernel), by decide +kernel, by decide +kernel⟩

end Frpc
