import Verif.Model.PyWeb
import Verif.Spec.PyWeb
import Verif.Props.Web
import Verif.Props.Python
/-!
# Facts for the Python server over HTTP
-/
namespace Frpc
namespace PyWeb
open HttpIO HttpOut HttpServer Spec Spec.Http Spec.Web

/-! ## Sending -/

theorem calm_suffix {a b pre : List SEv} (h : CalmOut false b) (hs : b = pre ++ a) : CalmOut false a :=
  fun e he => h e (by rw [hs]; exact List.mem_append_right _ he)

theorem sendAll_calm : ∀ (ds : List Bytes) (wire : Wire), CalmOut false wire.sched →
    ∃ w', sendAll ds wire = (.ok (), w') ∧ w'.sent = wire.sent ++ ds.flatten ∧ CalmOut false w'.sched
  | [], wire, h => ⟨wire, rfl, by simp, h⟩
  | d :: ds, wire, h => by
    obtain ⟨w1, h1, h2, pre, h3⟩ := sendData_calm false d wire h
    obtain ⟨w2, g1, g2, g3⟩ := sendAll_calm ds w1 (calm_suffix h h3)
    exact ⟨w2, by unfold sendAll; rw [h1]; exact g1, by rw [g2, h2]; simp, g3⟩

theorem sendResponse_calm (c : HttpOut.Conf) (w : Writer) (hc : CalmOut false w.wire.sched) :
    ∃ wire', PyWeb.sendResponse c w = (.ok (), { w with headersSent := true, front := [], back := [], wire := wire' }) ∧
      wire'.sent = w.wire.sent ++ (if w.headersSent then [] else c.head w.total) ++ (content c w).flatten ∧ CalmOut false wire'.sched := by
  have hh : ∃ w1, sendHead c w = (.ok (), { w with headersSent := true, wire := w1 }) ∧ w1.sent = w.wire.sent ++ (if w.headersSent then [] else c.head w.total) ∧
      CalmOut false w1.sched := by
    unfold sendHead
    cases hs : w.headersSent with
    | true => exact ⟨w.wire, by simp only [if_true, ← hs], by simp, hc⟩
    | false =>
      obtain ⟨w1, h1, h2, pre, h3⟩ := sendData_calm false (c.head w.total) w.wire hc
      exact ⟨w1, by simp [h1], by simp [h2], calm_suffix hc h3⟩
  obtain ⟨w1, h1, h2, h3⟩ := hh
  obtain ⟨w2, g1, g2, g3⟩ := sendAll_calm (content c w) w1 h3
  refine ⟨w2, ?_, by rw [g2, h2], g3⟩
  unfold PyWeb.sendResponse
  rw [h1]
  simp only
  have : content c { w with headersSent := true, wire := w1 } = content c w := rfl
  rw [this, g1]

theorem writes_plain (c : HttpOut.Conf) (hch : c.chunks = false) : ∀ (ds : List Bytes) (w : Writer),
    ∃ w', PyWeb.writes c ds w = (.ok (), w') ∧ w'.front.flatten ++ w'.back = w.front.flatten ++ w.back ++ ds.flatten ∧ w'.wire = w.wire ∧
      w'.headersSent = w.headersSent ∧ w'.total % 2 ^ 64 = (w.total + ds.flatten.length) % 2 ^ 64 ∧ (w.total < 2 ^ 64 → w'.total < 2 ^ 64)
  | [], w => ⟨w, rfl, by simp, rfl, rfl, by simp, fun h => h⟩
  | d :: ds, w => by
    have h1 : ∃ w1, PyWeb.write c d w = (.ok (), w1) ∧ w1.front.flatten ++ w1.back = w.front.flatten ++ w.back ++ d ∧ w1.wire = w.wire ∧ w1.headersSent = w.headersSent ∧
        w1.total = (w.total + d.length) % 2 ^ 64 := by
      unfold PyWeb.write
      simp only [hch, Bool.false_eq_true, if_false]
      split
      · split
        · exact ⟨_, rfl, by simp, rfl, rfl, rfl⟩
        · exact ⟨_, rfl, by simp, rfl, rfl, rfl⟩
      · exact ⟨_, rfl, by simp, rfl, rfl, rfl⟩
    obtain ⟨w1, a1, a2, a3, a4, a5⟩ := h1
    obtain ⟨w2, b1, b2, b3, b4, b5, b6⟩ := writes_plain c hch ds w1
    refine ⟨w2, by unfold PyWeb.writes; rw [a1]; exact b1, by rw [b2, a2]; simp, by rw [b3, a3], by rw [b4, a4], ?_, fun _ => b6 (by rw [a5]; omega)⟩
    rw [b5, a5, List.flatten_cons, List.length_append]
    omega

/-- What of the header is still to be sent. -/
def pend (H : Bytes) (w : Writer) : Bytes := if w.headersSent then [] else H

theorem writes_chunks (c : HttpOut.Conf) (hch : c.chunks = true) (H : Bytes) (hH : ∀ n, c.head n = H) : ∀ (ds : List Bytes) (w : Writer), w.back ≠ [] → CalmOut false w.wire.sched →
    ∃ w', ∃ ps : List Bytes, PyWeb.writes c ds w = (.ok (), w') ∧ w'.back ≠ [] ∧ CalmOut false w'.wire.sched ∧
      w'.wire.sent ++ pend H w' = w.wire.sent ++ pend H w ++ (ps.map chunk).flatten ∧ (∀ p ∈ ps, p ≠ []) ∧ ps.flatten ++ w'.back = w.back ++ ds.flatten
  | [], w, hb, hc => ⟨w, [], rfl, hb, hc, by simp, by simp, by simp⟩
  | d :: ds, w, hb, hc => by
    have h1 : ∃ w1, ∃ ps : List Bytes, PyWeb.write c d w = (.ok (), w1) ∧ w1.back ≠ [] ∧ CalmOut false w1.wire.sched ∧
      w1.wire.sent ++ pend H w1 = w.wire.sent ++ pend H w ++ (ps.map chunk).flatten ∧ (∀ p ∈ ps, p ≠ []) ∧ ps.flatten ++ w1.back = w.back ++ d := by
      unfold PyWeb.write
      simp only [hch, if_true]
      split
      · next ho =>
        have hd : d ≠ [] := by rintro rfl; simp at ho
        obtain ⟨wire', g1, g2, g3⟩ := sendResponse_calm c { w with total := (w.total + d.length) % 2 ^ 64 } hc
        rw [g1]
        refine ⟨_, [w.back], rfl, by simpa using hd, g3, ?_, by simpa using hb, by simp⟩
        simp only [g2, pend, hH, content, hch, if_true]
        have h2 : asc "\r\n" = crlf := by decide
        simp [chunk, h2]
      · exact ⟨_, [], rfl, by simp [hb], hc, by simp [pend], by simp, by simp⟩
    obtain ⟨w1, ps, a1, a2, a3, a4, a5, a6⟩ := h1
    obtain ⟨w2, qs, b1, b2, b3, b4, b5, b6⟩ := writes_chunks c hch H hH ds w1 a2 a3
    refine ⟨w2, ps ++ qs, by unfold PyWeb.writes; rw [a1]; exact b1, b2, b3, by rw [b4, a4]; simp, ?_, ?_⟩
    · intro p hp
      rcases List.mem_append.1 hp with hp | hp
      · exact a5 p hp
      · exact b5 p hp
    · rw [List.flatten_append, List.append_assoc, b6, ← List.append_assoc, a6]; simp

theorem chunked_eq (ps : List Bytes) (b : Bytes) : (ps.map chunk).flatten ++ chunk b ++ asc "0\r\n\r\n" = chunked (ps ++ [b]) := by
  have h : asc "0\r\n\r\n" = [48] ++ crlf ++ crlf := by decide
  rw [h]
  induction ps with
  | nil => simp [chunk, Spec.chunked]
  | cons p ps ih => show _ = hex p.length ++ crlf ++ p ++ crlf ++ chunked (ps ++ [b]); rw [← ih]; simp [chunk]

theorem message_sent (c : HttpOut.Conf) (hH : c.chunks = true → ∀ n, c.head n = c.head 0) (ds : List Bytes) (wire : Wire)
    (hc : CalmOut false wire.sched) (hfirst : c.chunks = true → FirstWrite ds) :
    ∃ w', PyWeb.message c ds (.init wire) = (.ok (), w') ∧ w'.headersSent = true ∧ CalmOut false w'.wire.sched ∧
      (c.chunks = false → w'.wire.sent = wire.sent ++ c.head (ds.flatten.length % 2 ^ 64) ++ ds.flatten) ∧
      (c.chunks = true → ∃ ps, w'.wire.sent = wire.sent ++ c.head 0 ++ chunked ps ∧ (∀ p ∈ ps, p ≠ []) ∧ ps.flatten = ds.flatten) := by
  cases hch : c.chunks with
  | false =>
    obtain ⟨w1, h1, h2, h3, h4, h5, h6⟩ := writes_plain c hch ds (.init wire)
    obtain ⟨w2, g1, g2, g3⟩ := sendResponse_calm c w1 (by rw [h3]; exact hc)
    refine ⟨{ w1 with headersSent := true, front := [], back := [], wire := w2 }, ?_, rfl, g3, fun _ => ?_, by simp⟩
    · unfold PyWeb.message PyWeb.flush
      rw [h1]
      simp only [g1, hch, Bool.false_eq_true, if_false]
    · show w2.sent = _
      have ht : w1.total = ds.flatten.length % 2 ^ 64 := by
        have := h6 (by simp [Writer.init])
        simp only [Writer.init] at h5
        omega
      rw [g2, h3, h4, ht, content, hch]
      simp only [Writer.init, Bool.false_eq_true, if_false] at h2 ⊢
      rw [List.flatten_append]
      simp at h2
      simp [h2]
  | true =>
    obtain ⟨d, ds', rfl, hd1, hd2⟩ := hfirst hch
    have hw : PyWeb.write c d (.init wire) = (.ok (), ⟨d.length % 2 ^ 64, [], d, false, wire⟩) := by
      unfold PyWeb.write
      have hb : PyWeb.BUFFER = 65536 := rfl
      simp only [Writer.init, List.length_nil, hb]
      rw [if_neg (by omega)]
      simp
    obtain ⟨w1, ps, h1, h2, h3, h4, h5, h6⟩ := writes_chunks c hch (c.head 0) (hH hch) ds' ⟨d.length % 2 ^ 64, [], d, false, wire⟩ hd1 hc
    obtain ⟨w2, g1, g2, g3⟩ := sendResponse_calm c w1 h3
    obtain ⟨w3, k1, k2, pre, k3⟩ := sendData_calm false (asc "0\r\n\r\n") w2 g3
    refine ⟨{ w1 with headersSent := true, front := [], back := [], wire := w3 }, ?_, rfl, calm_suffix g3 k3, by simp, fun _ => ⟨ps ++ [w1.back], ?_, ?_, ?_⟩⟩
    · unfold PyWeb.message PyWeb.flush PyWeb.writes
      rw [hw]
      simp only [h1, g1, hch, if_true, k1]
    · show w3.sent = _
      have hp : pend (c.head 0) w1 = (if w1.headersSent then [] else c.head w1.total) := by unfold pend; rw [hH hch w1.total]
      have h2' : asc "\r\n" = crlf := by decide
      rw [k2, g2, ← hp, h4, ← chunked_eq]
      have hpe : pend (c.head 0) ⟨d.length % 2 ^ 64, [], d, false, wire⟩ = c.head 0 := rfl
      rw [hpe]
      simp only [content, hch, if_true, chunk, h2', List.append_assoc, List.flatten_cons, List.flatten_nil, List.append_nil]
    · intro p hp
      rcases List.mem_append.1 hp with hp | hp
      · exact h5 p hp
      · simp at hp; rw [hp]; exact h2
    · rw [List.flatten_append]; simpa using h6

/-! ## The header -/

theorem polishLoop_all {P : UInt8 → Prop} (hu : ∀ c, P c → P (toUpper c)) (hl : ∀ c, P c → P (toLower c)) : ∀ (s : Bytes) (b : Bool), (∀ c ∈ s, P c) →
    ∀ c ∈ HttpHeader.polishLoop b s, P c
  | [], _, _ => by simp [HttpHeader.polishLoop]
  | x :: s, b, h => by
    intro c hc
    simp only [HttpHeader.polishLoop, List.mem_cons] at hc
    rcases hc with rfl | hc
    · have hx := h x (by simp)
      split
      · cases b
        · exact hu x hx
        · exact hl x hx
      · exact hx
    · exact polishLoop_all hu hl s _ (fun c hc => h c (by simp [hc])) c hc

theorem polishLoop_length : ∀ (s : Bytes) (b : Bool), (HttpHeader.polishLoop b s).length = s.length
  | [], _ => rfl
  | x :: s, b => by simp [HttpHeader.polishLoop, polishLoop_length s]

theorem polished_ok {f : Bytes × Bytes} (h : Spec.PyWeb.MayAdd f) : FieldOk (HttpHeader.polishName f.1, f.2) := by
  obtain ⟨h1, h2, h3, h4, -⟩ := h
  refine ⟨?_, ?_, h3, h4⟩
  · intro hn
    have := polishLoop_length f.1 false
    have hn' : HttpHeader.polishLoop false f.1 = [] := hn
    rw [hn'] at this
    exact h1 (List.length_eq_zero_iff.1 this.symm)
  · refine polishLoop_all (P := fun c => isSpace c = false ∧ c ≠ 58) ?_ ?_ f.1 false h2
    · intro c hc
      have := forall_byte (fun c => decide (isSpace c = false ∧ c ≠ 58 → isSpace (toUpper c) = false ∧ toUpper c ≠ 58)) (by decide +kernel) c
      exact (of_decide_eq_true this) hc
    · intro c hc
      have := forall_byte (fun c => decide (isSpace c = false ∧ c ≠ 58 → isSpace (toLower c) = false ∧ toLower c ≠ 58)) (by decide +kernel) c
      exact (of_decide_eq_true this) hc

/-- Fields as `add` stores them. -/
def polished (fs : List (Bytes × Bytes)) : List (Bytes × Bytes) := fs.map (fun f => (HttpHeader.polishName f.1, f.2))

theorem added_polished : ∀ (fs : List (Bytes × Bytes)) (h : HttpHeader.Fields), fs.foldl (fun h f => HttpHeader.add h f.1 f.2) h = h ++ polished fs
  | [], h => by simp [polished]
  | f :: fs, h => by
    rw [List.foldl_cons, added_polished fs]
    simp [HttpHeader.add, polished]

variable {σ : Type}

theorem ownFields_ok (S : Conf σ) (srv : Srv) (n : Nat) : ∀ f ∈ ownFields S srv n, FieldOk f := by
  have lit : ∀ f : Bytes × Bytes, (f.1 ≠ [] ∧ (∀ c ∈ f.1, isSpace c = false ∧ c ≠ 58) ∧ (10 : UInt8) ∉ f.2 ∧ f.2.getLast? ≠ some 13) → FieldOk f := fun _ h => h
  have hcl : FieldOk (asc "Content-Length", dec n) :=
    ⟨by dsimp only; decide +kernel, by dsimp only; decide +kernel, (dec_line n).1, (dec_line n).2⟩
  intro f hf
  unfold ownFields at hf
  simp only [List.mem_cons, List.not_mem_nil, or_false] at hf
  rcases hf with (rfl | rfl | rfl | rfl | rfl)
  · cases srv.outType <;> exact lit _ (by decide +kernel)
  · cases S.useBinary <;> exact lit _ (by decide +kernel)
  · cases S.keepAlive <;> exact lit _ (by decide +kernel)
  · cases srv.chunks
    · exact hcl
    · exact lit (asc "Transfer-Encoding", asc "chunked") (by decide +kernel)
  · exact lit _ (by decide +kernel)

theorem first_skip {name : Bytes} : ∀ {fs gs : List (Bytes × Bytes)}, (∀ f ∈ fs, f.1.map toLower ≠ name.map toLower) → first name (fs ++ gs) = first name gs
  | [], _, _ => rfl
  | (n, v) :: fs, gs, h => by
    rw [List.cons_append, first_miss (h (n, v) (by simp)), first_skip (fun f hf => h f (by simp [hf]))]

theorem ownFields_first (S : Conf σ) (srv : Srv) (n : Nat) (custom : List (Bytes × Bytes)) (hc : ∀ f ∈ custom, Spec.PyWeb.MayAdd f) :
    let fs := polished custom ++ ownFields S srv n
    first (asc "Content-Type") fs = some (typeName srv.outType) ∧
    first (asc "Connection") fs = some (if S.keepAlive then asc "keep-alive" else asc "close") ∧
    (srv.chunks = false → first (asc "Content-Length") fs = some (dec n)) ∧
    (srv.chunks = true → first (asc "Content-Length") fs = none ∧ first (asc "Transfer-Encoding") fs = some (asc "chunked")) := by
  have skip : ∀ name, (lower name) ∈ [asc "content-type", asc "accept", asc "connection", asc "transfer-encoding", asc "content-length", asc "server"] →
      first name (polished custom ++ ownFields S srv n) = first name (ownFields S srv n) := by
    intro name hn
    refine first_skip (fun f hf => ?_)
    obtain ⟨g, hg, rfl⟩ := List.mem_map.1 hf
    have h1 : lower (HttpHeader.polishName g.1) = lower g.1 := HttpHeader.lower_polishLoop false g.1
    intro he
    have h2 : lower g.1 = lower name := by rw [← h1]; exact he
    exact (hc g hg).2.2.2.2 (by rw [h2]; exact hn)
  have ht : trim (dec n) = dec n := trim_id (fun x hx => (dec_plain n x hx).1)
  simp only
  rw [skip _ (by decide +kernel), skip _ (by decide +kernel), skip _ (by decide +kernel), skip _ (by decide +kernel)]
  unfold ownFields
  refine ⟨?_, ?_, fun h => ?_, fun h => ⟨?_, ?_⟩⟩
  · rw [first_hit rfl]; cases srv.outType <;> decide +kernel
  · rw [first_miss (by decide +kernel), first_miss (by decide +kernel), first_hit rfl]; cases S.keepAlive <;> decide +kernel
  · simp only [h, Bool.false_eq_true, if_false]
    rw [first_miss (by decide +kernel), first_miss (by decide +kernel), first_miss (by decide +kernel), first_hit rfl, ht]
  · simp only [h, if_true]
    rw [first_miss (by decide +kernel), first_miss (by decide +kernel), first_miss (by decide +kernel), first_miss (by decide +kernel),
      first_miss (by decide +kernel)]
    rfl
  · simp only [h, if_true]
    rw [first_miss (by decide +kernel), first_miss (by decide +kernel), first_miss (by decide +kernel), first_hit rfl]; decide +kernel

/-- What the server sends for the writes is a response with them as its content. -/
theorem reply_sent (S : Conf σ) (x : Live σ) (custom : List (Bytes × Bytes)) (hok : ∀ f ∈ custom, Spec.PyWeb.MayAdd f) (hx : x.out = polished custom)
    (ds : List Bytes) (hlen : ds.flatten.length < 2 ^ 64) (hfirst : x.srv.chunks = true → FirstWrite ds) (wire : Wire)
    (hs : CalmOut false wire.sched) (known : Bool) (hk : x.srv.chunks = (known && decide (x.srv.outType = .binary))) :
    ∃ w' bytes, PyWeb.message (PyWeb.conf S x) ds (.init wire) = (.ok (), w') ∧ w'.wire.sent = wire.sent ++ bytes ∧ CalmOut false w'.wire.sched ∧ w'.headersSent = true ∧
      Spec.PyWeb.IsReply bytes x.srv.outType custom S.keepAlive known ds.flatten := by
  obtain ⟨w', h1, h0, hcalm, h2, h3⟩ := message_sent (PyWeb.conf S x) (fun h n => by
    have h : x.srv.chunks = true := h
    simp [PyWeb.conf, PyWeb.head, ownFields, h]) ds wire hs hfirst
  have hst : asc "HTTP/1.1 200 OK\r\n" = versionText true ++ asc " " ++ asc "200" ++ asc " " ++ asc "OK" ++ crlf := by decide +kernel
  have key : ∀ total body, (x.srv.chunks = false → total = ds.flatten.length ∧ body = ds.flatten) →
      (x.srv.chunks = true → ∃ ps, body = chunked ps ∧ (∀ p ∈ ps, p ≠ []) ∧ ps.flatten = ds.flatten) →
      Spec.PyWeb.IsReply (PyWeb.head S x.srv x.out total ++ body) x.srv.outType custom S.keepAlive known ds.flatten := by
    intro total body hp hch
    obtain ⟨f1, f3, f4, f5⟩ := ownFields_first S x.srv total custom hok
    have hcoll := collect_asLine (x.out ++ ownFields S x.srv total) []
    rw [List.nil_append, hx, List.map_append (f := fun f : Bytes × Bytes => (f.1, trim f.2))] at hcoll
    have hm : ∀ name, field name ((polished custom).map (fun f => (f.1, trim f.2)) ++ (ownFields S x.srv total).map (fun f => (f.1, trim f.2))) =
        first name (polished custom ++ ownFields S x.srv total) := by
      intro name; unfold field first; rw [List.map_append]
    refine ⟨(x.out ++ ownFields S x.srv total).map asLine, (polished custom).map (fun f => (f.1, trim f.2)), (ownFields S x.srv total).map (fun f => (f.1, trim f.2)), body,
      ?_, ?_, ?_, ?_, ?_, ?_, ?_, ?_, ?_⟩
    · unfold PyWeb.head responseText
      rw [hst, List.append_assoc _ ((x.out ++ ownFields S x.srv total).flatMap headLine), flatMap_headLine]
      simp
    · intro l hl
      obtain ⟨f, hf, rfl⟩ := List.mem_map.1 hl
      rw [hx] at hf
      rcases List.mem_append.1 hf with hf | hf
      · obtain ⟨g, hg, rfl⟩ := List.mem_map.1 hf
        exact (polished_ok (hok g hg)).line
      · exact (ownFields_ok S x.srv total f hf).line
    · rw [hx]; exact hcoll
    · unfold Framed
      rw [hm, hm]
      cases hcc : x.srv.chunks with
      | false => exact .inl ⟨by rw [← (hp hcc).1]; exact f4 hcc, (hp hcc).2⟩
      | true =>
        obtain ⟨ps, a, b, d⟩ := hch hcc
        exact .inr ⟨(f5 hcc).1, ⟨_, (f5 hcc).2, by decide +kernel⟩, ps, a, b, d⟩
    · intro hkn
      rw [hm]
      have hcc : x.srv.chunks = false := by rw [hk, hkn]; rfl
      rw [← (hp hcc).1]; exact f4 hcc
    · rw [hm]; exact f1
    · rw [hm]; exact f3
    · unfold polished
      rw [List.map_map, List.map_map]
      refine List.map_congr_left (fun f _ => ?_)
      simp only [Function.comp]
      rw [show lower (HttpHeader.polishName f.1) = lower f.1 from HttpHeader.lower_polishLoop false f.1]
    · rw [← hk]
      unfold ownFields
      cases x.srv.chunks <;> simp
  cases hch : x.srv.chunks with
  | false =>
    refine ⟨w', _, h1, ?_, hcalm, h0, key ds.flatten.length ds.flatten (fun _ => ⟨rfl, rfl⟩) (fun h => absurd h (by simp [hch]))⟩
    rw [h2 hch, Nat.mod_eq_of_lt hlen, List.append_assoc]; rfl
  | true =>
    obtain ⟨ps, g1, g2, g3⟩ := h3 hch
    refine ⟨w', _, h1, ?_, hcalm, h0, key 0 (chunked ps) (fun h => absurd h (by simp [hch])) (fun _ => ⟨ps, rfl, g2, g3⟩)⟩
    rw [g1, List.append_assoc]; rfl

/-! ## Reading -/

theorem readLineLoop_opt (cfg : Cfg) (check : Bool) : ∀ (f : Nat) (nb : Bool) (line : Bytes) (s : Conn) {l : Bytes} {s' : Conn},
    readLineLoop cfg check false f nb line s = (.ok l, s') → readLineLoop cfg check true f nb line s = (.ok l, s')
  | 0, _, _, _, _, _, h => by simp [readLineLoop] at h
  | f + 1, nb, line, s, l, s', h => by
    unfold readLineLoop at h ⊢
    revert h
    generalize poll s = q
    obtain ⟨p, s1⟩ := q
    cases p with
    | timeout => intro h; simp at h
    | fail => intro h; simp at h
    | ready n =>
      simp only
      intro h
      split at h
      · simp at h
      · next hb =>
        rw [if_neg hb]
        split at h
        · split at h
          · simp at h
          · next hc => rw [if_neg hc]; exact h
        · split at h
          · simp at h
          · next hc => rw [if_neg hc]; exact readLineLoop_opt cfg check f _ _ _ h

/-- When the first line is one, the two servers read alike. -/
theorem read_same (S : Conf σ) (srv : Srv) (s : Conn) {line : Bytes} {s1 : Conn} (hl : line ≠ [])
    (h : readLine (srvCfg (fun _ => none)) true { s with out := [] } = (.ok line, s1)) : PyWeb.readRequest S srv s = HttpServer.readRequest (PyWeb.env S) srv s := by
  have h' : readLineOpt (srvCfg (fun _ => none)) true true { s with out := [] } = (.ok line, s1) := readLineLoop_opt _ _ _ _ _ _ h
  have hf : firstLine ({ s with out := [] : Conn }.data.length + 1) { s with out := [] } = (requestLine line, s1) := by
    rw [firstLine, h]
    cases line with
    | nil => exact absurd rfl hl
    | cons c l => rfl
  unfold PyWeb.readRequest HttpServer.readRequest
  simp only
  rw [hf, h']
  cases line with
  | nil => exact absurd rfl hl
  | cons c l =>
    simp only
    cases requestLine (c :: l) <;> rfl

/-- A request as it should be is read alike. -/
theorem read_post (S : Conf σ) (srv : Srv) {method path : Bytes} (hm : IsWord method) (hp : IsWord path) (http11 : Bool) (ls : List HLine) (after : Bytes) (s : Conn) (hc : Calm s.sched)
    (hd : s.data = requestText method path http11 ls ++ after) : PyWeb.readRequest S srv s = HttpServer.readRequest (PyWeb.env S) srv s := by
  have hsp : asc " " = [32] := by decide +kernel
  obtain ⟨sc1, hc1, hr1⟩ := readLineOpt_crlf_any (srvCfg (fun _ => none)) true false { s with out := [] }
    (method ++ 32 :: (path ++ 32 :: versionText http11)) (blockText ls ++ after) hc
    (by show s.data = _; rw [hd]; unfold requestText; rw [hsp]; simp)
    (by
      have := word_lf hm; have := word_lf hp; have := word_lf (version_word http11)
      simp_all)
    (by
      have e : method ++ 32 :: (path ++ 32 :: versionText http11) = (method ++ 32 :: (path ++ [32])) ++ versionText http11 := by simp
      rw [e]; exact word_last (version_word http11))
    (.inl (by show (-1 : Int) < 0; omega))
  exact read_same S srv s (by simp) hr1

end PyWeb
end Frpc
