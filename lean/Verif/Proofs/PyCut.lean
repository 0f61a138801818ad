import Verif.Proofs.PyWeb
import Verif.Props.RemoteAny
/-!
# The Python server over any network: what it sends and what it reads is cut at most
-/
namespace Frpc
namespace PyWeb
open HttpIO HttpOut HttpServer Spec Spec.Http Spec.Web
variable {σ : Type}

/-! ## Sending -/

/-- The same writer on a network that takes everything at once. -/
def ideal (w : Writer) : Writer := { w with wire := ⟨[], w.wire.sent⟩ }

/-- What is sent over any network is a beginning of what is sent over one that takes everything; all of it when there is no exception. -/
structure Follows (F : Writer → Except SErr Unit × Writer) : Prop where
  ok : ∀ w, (F (ideal w)).1 = .ok ()
  still : ∀ w, ideal (F (ideal w)).2 = (F (ideal w)).2
  grows : ∀ w, w.wire.sent <+: (F (ideal w)).2.wire.sent
  cut : ∀ w, (F w).2.wire.sent <+: (F (ideal w)).2.wire.sent
  same : ∀ w, (F w).1 = .ok () → ideal (F w).2 = (F (ideal w)).2

theorem ideal_ideal (w : Writer) : ideal (ideal w) = ideal w := rfl

theorem Follows.id : Follows (fun w => (.ok (), w)) :=
  ⟨fun _ => rfl, fun _ => rfl, fun _ => List.prefix_refl _, fun _ => List.prefix_refl _, fun _ _ => rfl⟩

/-- One after another. -/
theorem Follows.seq {F G : Writer → Except SErr Unit × Writer} (hF : Follows F) (hG : Follows G) :
    Follows (fun w => match F w with
      | (.error e, w) => (.error e, w)
      | (.ok _, w) => G w) := by
  have hok : ∀ w, (match F (ideal w) with
      | (.error e, w) => (.error e, w)
      | (.ok _, w) => G w) = G (F (ideal w)).2 := by
    intro w
    have := hF.ok w
    generalize F (ideal w) = q at this
    obtain ⟨r, w1⟩ := q
    simp only at this
    subst this
    rfl
  refine ⟨fun w => ?_, fun w => ?_, fun w => ?_, fun w => ?_, fun w => ?_⟩
  · simp only [hok]; rw [← hF.still w]; exact hG.ok _
  · simp only [hok]; rw [← hF.still w]; exact hG.still _
  · simp only [hok]
    refine (hF.grows w).trans ?_
    have := hG.grows (F (ideal w)).2
    rwa [hF.still w] at this
  · simp only [hok]
    have g := hG.grows (F (ideal w)).2
    rw [hF.still w] at g
    have h1 := hF.cut w
    have h2 := hF.same w
    generalize F w = q at h1 h2
    obtain ⟨r, w1⟩ := q
    cases r with
    | error e => exact h1.trans g
    | ok u =>
      rw [← h2 rfl]
      exact hG.cut w1
  · simp only [hok]
    have h2 := hF.same w
    generalize F w = q at h2
    obtain ⟨r, w1⟩ := q
    cases r with
    | error e => intro h; cases h
    | ok u =>
      intro h
      rw [← h2 rfl]
      exact hG.same w1 h

/-- Sending something, then changing what is not the network. -/
theorem Follows.send (d : Writer → Bytes) (g : Writer → Writer) (hd : ∀ w, d (ideal w) = d w) (hg : ∀ w, (g w).wire = w.wire) (hgi : ∀ w, ideal (g w) = g (ideal w)) :
    Follows (fun w => match sendData false (d w) w.wire with
      | (.error e, wire) => (.error e, { w with wire := wire })
      | (.ok _, wire) => (.ok (), g { w with wire := wire })) := by
  have key : ∀ w : Writer, sendData false (d w) ⟨[], w.wire.sent⟩ = (.ok (), ⟨[], w.wire.sent ++ d w⟩) := by
    intro w
    obtain ⟨w', h1, h2, pre, h3⟩ := sendData_calm false (d w) ⟨[], w.wire.sent⟩ (fun e he => by cases he)
    have h3 : w'.sched = [] := (List.append_eq_nil_iff.1 h3.symm).2
    rw [h1]
    obtain ⟨a, b⟩ := w'
    simp only at h2 h3
    rw [h2, h3]
  have keyi : ∀ w : Writer, sendData false (d (ideal w)) (ideal w).wire = (.ok (), ⟨[], w.wire.sent ++ d w⟩) := by
    intro w
    rw [hd]; exact key w
  refine ⟨fun w => ?_, fun w => ?_, fun w => ?_, fun w => ?_, fun w => ?_⟩
  · simp only [keyi]
  · simp only [keyi, hgi]; rfl
  · simp only [keyi, hg]; exact List.prefix_append _ _
  · simp only [keyi, hg]
    generalize hq : sendData false (d w) w.wire = q
    obtain ⟨r, w1⟩ := q
    obtain ⟨p, h1, h2, h3⟩ := sendData_sound false (d w) w.wire r w1 hq
    cases r with
    | error e => simp only [h2]; exact (List.prefix_append_right_inj _).2 h1
    | ok u => simp only [hg, h2]; exact (List.prefix_append_right_inj _).2 h1
  · simp only [keyi]
    generalize hq : sendData false (d w) w.wire = q
    obtain ⟨r, w1⟩ := q
    obtain ⟨p, h1, h2, h3⟩ := sendData_sound false (d w) w.wire r w1 hq
    cases r with
    | error e => intro h; cases h
    | ok u =>
      intro _
      simp only [hgi]
      have : w1.sent = w.wire.sent ++ d w := by rw [h2, h3 rfl]
      simp only [ideal, this]

theorem Follows.congr {F G : Writer → Except SErr Unit × Writer} (h : ∀ w, F w = G w) (hF : Follows F) : Follows G := by
  have : F = G := funext h
  rw [← this]; exact hF

/-- Several pieces; `g` at the end. -/
theorem Follows.sendAll (g : Writer → Writer) (hg : ∀ w, (g w).wire = w.wire) (hgi : ∀ w, ideal (g w) = g (ideal w)) : ∀ ds : List Bytes,
    Follows (fun w => match PyWeb.sendAll ds w.wire with
      | (.error e, wire) => (.error e, { w with wire := wire })
      | (.ok _, wire) => (.ok (), g { w with wire := wire }))
  | [] => ⟨fun _ => rfl, fun w => by simp only [PyWeb.sendAll, hgi]; rfl, fun w => by simp only [PyWeb.sendAll, hg]; exact List.prefix_refl _,
      fun w => by simp only [PyWeb.sendAll, hg]; exact List.prefix_refl _, fun w _ => by simp only [PyWeb.sendAll, hgi]⟩
  | d :: ds => by
    refine Follows.congr (fun w => ?_) ((Follows.send (fun _ => d) (fun w => w) (fun _ => rfl) (fun _ => rfl) (fun _ => rfl)).seq (Follows.sendAll g hg hgi ds))
    simp only [PyWeb.sendAll]
    generalize sendData false d w.wire = q
    obtain ⟨r, w1⟩ := q
    cases r <;> rfl

/-- The pieces may depend on the writer. -/
theorem Follows.dep {F : Writer → Writer → Except SErr Unit × Writer} (h : ∀ w0, Follows (F w0)) (hi : ∀ w0 w, F (ideal w0) w = F w0 w) : Follows (fun w => F w w) :=
  ⟨fun w => by simp only [hi]; exact (h w).ok w, fun w => by simp only [hi]; exact (h w).still w, fun w => by simp only [hi]; exact (h w).grows w,
   fun w => by simp only [hi]; exact (h w).cut w, fun w => by simp only [hi]; exact (h w).same w⟩

theorem Follows.sendResponse (c : HttpOut.Conf) : Follows (PyWeb.sendResponse c) := by
  have hhead : Follows (PyWeb.sendHead c) := by
    refine Follows.congr (fun w => ?_) (Follows.dep (F := fun w0 w => if w0.headersSent then (.ok (), w) else
      match sendData false (c.head w.total) w.wire with
      | (.error e, wire) => (.error e, { w with wire := wire })
      | (.ok _, wire) => (.ok (), { w with headersSent := true, wire := wire })) (fun w0 => ?_) (fun _ _ => rfl))
    · rfl
    by_cases h : w0.headersSent = true
    · simp only [if_pos h]; exact Follows.id
    · simp only [if_neg h]
      exact Follows.send (fun w => c.head w.total) (fun w => { w with headersSent := true }) (fun _ => rfl) (fun _ => rfl) (fun _ => rfl)
  refine Follows.congr (fun w => ?_) (hhead.seq (Follows.dep (F := fun w0 w => match PyWeb.sendAll (content c w0) w.wire with
      | (.error e, wire) => (.error e, { w with wire := wire })
      | (.ok _, wire) => (.ok (), { w with front := [], back := [], wire := wire })) (fun w0 =>
    Follows.sendAll (fun w => { w with front := [], back := [] }) (fun _ => rfl) (fun _ => rfl) (content c w0)) (fun _ _ => rfl)))
  unfold PyWeb.sendResponse
  rfl

theorem Follows.pure (g : Writer → Writer) (hg : ∀ w, (g w).wire = w.wire) (hgi : ∀ w, ideal (g w) = g (ideal w)) : Follows (fun w => (.ok (), g w)) :=
  Follows.congr (fun _ => rfl) (Follows.sendAll g hg hgi [])

theorem Follows.write (c : HttpOut.Conf) (d : Bytes) : Follows (PyWeb.write c d) := by
  refine Follows.congr (fun w => ?_) (Follows.dep (F := fun w0 w =>
    match (((.ok (), { w with total := (w.total + d.length) % 2 ^ 64 }) : Except SErr Unit × Writer)) with
    | (.error e, w) => (.error e, w)
    | (.ok _, w) =>
    if d.length > (2 ^ 64 + BUFFER - w0.back.length) % 2 ^ 64 then
      if c.chunks then
        match PyWeb.sendResponse c w with
        | (.error e, w) => (.error e, w)
        | (.ok _, w) => (.ok (), { w with back := w.back ++ d })
      else if d.length > BUFFER then (.ok (), { w with front := w.front ++ [w.back], back := d })
      else (.ok (), { w with back := w.back ++ d })
    else (.ok (), { w with back := w.back ++ d })) (fun w0 => ?_) (fun _ _ => rfl))
  · rfl
  refine (Follows.pure (fun w => { w with total := (w.total + d.length) % 2 ^ 64 }) (fun _ => rfl) (fun _ => rfl)).seq (G := fun w =>
    if d.length > (2 ^ 64 + BUFFER - w0.back.length) % 2 ^ 64 then
      if c.chunks then
        match PyWeb.sendResponse c w with
        | (.error e, w) => (.error e, w)
        | (.ok _, w) => (.ok (), { w with back := w.back ++ d })
      else if d.length > BUFFER then (.ok (), { w with front := w.front ++ [w.back], back := d })
      else (.ok (), { w with back := w.back ++ d })
    else (.ok (), { w with back := w.back ++ d })) ?_
  have hback := Follows.pure (fun w => { w with back := w.back ++ d }) (fun _ => rfl) (fun _ => rfl)
  by_cases h1 : d.length > (2 ^ 64 + BUFFER - w0.back.length) % 2 ^ 64
  · simp only [if_pos h1]
    by_cases h2 : c.chunks = true
    · simp only [if_pos h2]
      exact (Follows.sendResponse c).seq hback
    · simp only [if_neg h2]
      by_cases h3 : d.length > BUFFER
      · simp only [if_pos h3]
        exact Follows.pure (fun w => { w with front := w.front ++ [w.back], back := d }) (fun _ => rfl) (fun _ => rfl)
      · simp only [if_neg h3]; exact hback
  · simp only [if_neg h1]; exact hback

theorem Follows.writes (c : HttpOut.Conf) : ∀ ds : List Bytes, Follows (PyWeb.writes c ds)
  | [] => Follows.id
  | d :: ds => Follows.congr (fun w => by rw [PyWeb.writes]; rfl) ((Follows.write c d).seq (Follows.writes c ds))

theorem Follows.message (c : HttpOut.Conf) (ds : List Bytes) : Follows (PyWeb.message c ds) := by
  have hflush : Follows (PyWeb.flush c) := by
    by_cases h : c.chunks = true
    · refine Follows.congr (fun w => ?_) ((Follows.sendResponse c).seq (Follows.send (fun _ => asc "0\r\n\r\n") (fun w => w) (fun _ => rfl) (fun _ => rfl) (fun _ => rfl)))
      unfold PyWeb.flush
      simp only [h, if_true]
      rfl
    · refine Follows.congr (fun w => ?_) ((Follows.sendResponse c).seq Follows.id)
      unfold PyWeb.flush
      simp only [if_neg h]
      rfl
  exact Follows.congr (fun w => rfl) ((Follows.writes c ds).seq hflush)

/-- A message over any network is a beginning of a response. -/
theorem reply_any (S : Conf σ) (x : Live σ) (custom : List (Bytes × Bytes)) (hok : ∀ f ∈ custom, Spec.PyWeb.MayAdd f) (hx : x.out = polished custom)
    (ds : List Bytes) (hlen : ds.flatten.length < 2 ^ 64) (hfirst : x.srv.chunks = true → FirstWrite ds) (down : List SEv)
    (known : Bool) (hk : x.srv.chunks = (known && decide (x.srv.outType = .binary))) :
    ∃ bytes lost, (PyWeb.message (PyWeb.conf S x) ds (.init ⟨down, []⟩)).2.wire.sent ++ lost = bytes ∧
      ((PyWeb.message (PyWeb.conf S x) ds (.init ⟨down, []⟩)).1 = .ok () → lost = []) ∧
      Spec.PyWeb.IsReply bytes x.srv.outType custom S.keepAlive known ds.flatten := by
  obtain ⟨w', bytes, h1, h2, -, -, h5⟩ := reply_sent S x custom hok hx ds hlen hfirst ⟨[], []⟩ (fun e he => by cases he) known hk
  have hf := Follows.message (PyWeb.conf S x) ds
  have hi : ideal (.init ⟨down, []⟩) = .init ⟨[], []⟩ := rfl
  have hc := hf.cut (.init ⟨down, []⟩)
  have hs := hf.same (.init ⟨down, []⟩)
  rw [hi, h1] at hc hs
  simp only [List.nil_append] at h2 hc hs
  rw [h2] at hc
  obtain ⟨lost, hl⟩ := hc
  refine ⟨bytes, lost, hl, fun ho => ?_, h5⟩
  have := congrArg (fun w : Writer => w.wire.sent) (hs ho)
  simp only [ideal, h2] at this
  rw [this] at hl
  exact List.append_right_eq_self.1 hl

/-! ## Reading -/

/-- What the Python server makes of a request that was cut anywhere. -/
theorem read_cut (S : Conf σ) (srv : Srv) (c : ClientCfg) (hok : ClientOk c) (total : Nat) (body text lost : Bytes)
    (hplain : c.chunks = false → total = body.length ∧ text = body)
    (hchunks : c.chunks = true → ∃ ps, text = chunked ps ∧ (∀ p ∈ ps, p ≠ []) ∧ ps.flatten = body) (s : Conn)
    (hd : s.data ++ lost = clientHead c total ++ text) (hlen : body.length < 2 ^ 63)
    (hfeed : ∀ l : List Bytes, NoEmpty l → l.flatten <+: body → PyWeb.feed S (if c.binary then .binary else .xml) l = none)
    (hfinish : ∀ l : List Bytes, NoEmpty l → l.flatten = body → PyWeb.finish S (if c.binary then .binary else .xml) l = none) :
    Heard (PyWeb.env S) c body (PyWeb.readRequest S srv s) := by
  have hfr := readRequest_framed (PyWeb.env S) srv c hok total body text lost hplain hchunks s hd hlen hfeed hfinish
  generalize hq : readLine (srvCfg (fun _ => none)) true { s with out := [] } = q
  have hp := (readLineOpt_plain (srvCfg (fun _ => none)) true false { s with out := [] }).2
  obtain ⟨q, s1⟩ := q
  have hq' : readLineOpt (srvCfg (fun _ => none)) true false { s with out := [] } = (q, s1) := hq
  rw [hq'] at hp
  cases q with
  | error e =>
    right
    refine ⟨ofHErr e, { srv with close := false, head := false }, s1, ?_, ofHErr_plain (hp e rfl)⟩
    unfold PyWeb.readRequest
    simp only
    have : firstLine (s.data.length + 1) { s with out := [] } = (.error (ofHErr e), s1) := by
      rw [firstLine, hq]
    rw [this]
  | ok line =>
    have hline : line ≠ [] := by
      have hpost : asc "POST " = asc "POST" ++ [32] := by decide +kernel
      have hsp : asc " " = [32] := by decide +kernel
      have hcr : asc "\r\n" = crlf := by decide +kernel
      have hvw : (if c.http10 then asc "HTTP/1.0" else asc "HTTP/1.1") ≠ [] ∧ (10 : UInt8) ∉ (if c.http10 then asc "HTTP/1.0" else asc "HTTP/1.1") ∧
          (if c.http10 then asc "HTTP/1.0" else asc "HTTP/1.1").getLast? = some (if c.http10 then 48 else 49) := by
        cases c.http10 <;> decide +kernel
      generalize hver : (if c.http10 then asc "HTTP/1.0" else asc "HTTP/1.1") = ver at hvw
      have hpath : (10 : UInt8) ∉ c.path := by
        intro hm
        have := hok.path.2 _ hm
        revert this; decide
      obtain ⟨g1, -, -⟩ := readLineOpt_own hq' (l := asc "POST" ++ 32 :: (c.path ++ 32 :: ver))
        (rest := (clientFields c total).flatMap headLine ++ crlf ++ text) (lost := lost) (by
          show s.data ++ lost = _
          rw [hd]
          unfold clientHead
          rw [hver, hpost, hsp, hcr]
          simp) (by
          have h4 : (10 : UInt8) ∉ asc "POST" := by decide +kernel
          simp [hpath, hvw.2.1, h4]) (by
          have e : asc "POST" ++ 32 :: (c.path ++ 32 :: ver) = (asc "POST" ++ 32 :: (c.path ++ [32])) ++ ver := by simp
          rw [e, List.getLast?_append, hvw.2.2]
          cases c.http10 <;> simp)
      rw [g1]
      simp
    rw [read_same S srv s hline hq]
    exact hfr

/-- What the client reads of a response of the Python server that was cut anywhere. -/
theorem reply_cut (limits : Int × Int) (feed finish : HttpServer.Kind → List Bytes → Option Err) (keepAlive : Bool) {bytes : Bytes} {b keep known : Bool} {custom : List (Bytes × Bytes)}
    {data : Bytes} (hr : Spec.PyWeb.IsReply bytes (if b then .binary else .xml) custom keep known data) (hl : data.length < 2 ^ 63) {sent lost : Bytes} (hs : sent ++ lost = bytes)
    (pre : Bytes) (hpre : Tail pre) (back : List Ev) (r : Response) (conn : Conn) (h : readResponse limits feed finish keepAlive ⟨pre ++ sent, back, []⟩ = (.ok r, conn)) :
    r.kind = (if b then .binary else .xml) ∧ r.body.flatten = data ∧ NoEmpty r.body ∧ (Tail conn.data ∨ (lost ≠ [] ∧ conn.data <+: crlf)) := by
  obtain ⟨lines, given, own, body, h1, h2, h3, h4, -, h6, -⟩ := hr
  obtain ⟨-, k1, k2, ⟨pre', k3, k4⟩, -⟩ := readResponse_cut limits feed finish keepAlive 0 true 200 (by omega) (asc "OK") (by decide) (by decide) (by decide)
    lines h2 (given ++ own) h3 data body [] lost h4 hl pre hpre _ conn (by
      show (pre ++ sent) ++ lost = _
      rw [List.append_assoc, hs, h1, show dec 200 = asc "200" from by decide +kernel]; simp) r h
  refine ⟨?_, k2, readResponse_pieces h, ?_⟩
  · rw [h6, Option.getD_some] at k1
    have hx : Spec.Http.Contains (asc "text/xml") (asc "text/xml") := by rw [← hasSub_iff]; decide +kernel
    have hnx : ¬ Spec.Http.Contains (asc "text/xml") (asc "application/x-frpc") := by rw [← hasSub_iff]; decide +kernel
    cases b with
    | true =>
      cases hk : r.kind with
      | binary => rfl
      | xml => rw [hk] at k1; exact absurd k1 hnx
      | urlEncoded => rw [hk] at k1; exact k1.elim
      | base64 => rw [hk] at k1; exact k1.elim
    | false =>
      cases hk : r.kind with
      | binary => rw [hk] at k1; exact absurd hx k1.2
      | xml => rfl
      | urlEncoded => rw [hk] at k1; exact k1.elim
      | base64 => rw [hk] at k1; exact k1.elim
  · rw [List.append_nil] at k4
    by_cases hm0 : lost = []
    · left
      rw [hm0, List.append_nil] at k4
      rw [k4]; exact k3
    · rcases k3 with rfl | rfl | rfl
      · left; rw [(List.append_eq_nil_iff.1 k4).1]; exact .inl rfl
      · left
        cases hcd : conn.data with
        | nil => exact .inl rfl
        | cons a l =>
          rw [hcd] at k4
          simp only [List.cons_append, List.cons.injEq, List.append_eq_nil_iff] at k4
          rw [k4.1, k4.2.1]; exact .inr (.inl rfl)
      · exact .inr ⟨hm0, ⟨lost, k4⟩⟩

end PyWeb
end Frpc
