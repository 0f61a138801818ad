import Verif.Model.Web
import Verif.Spec.Web
import Verif.Proofs.Remote
import Verif.Props.Remote
import Verif.Props.HttpPeer
import Verif.Props.Json
import Verif.Props.Base64
/-!
# Facts for the whole server
-/
namespace Frpc
namespace Web
open HttpIO HttpOut HttpServer Registry Remote Spec Spec.Http Spec.Web Spec.Registry

/-! ## Sending leaves a rest of the schedule -/

theorem sendLoop_sched (watch : Bool) : ∀ (f : Nat) (data : Bytes) (w : Wire), (sendLoop watch f data w).2.sched <:+ w.sched
  | 0, _, w => List.suffix_refl _
  | f + 1, data, w => by
    unfold sendLoop
    have tk : ∀ (n : Nat) (v : Wire), v.sched <:+ w.sched →
        (if data.drop (data.take n).length = [] then ((.ok () : Except SErr Unit), { v with sent := v.sent ++ data.take n })
          else sendLoop watch f (data.drop (data.take n).length) { v with sent := v.sent ++ data.take n }).2.sched <:+ w.sched := by
      intro n v hv
      split
      · exact hv
      · exact (sendLoop_sched watch f _ _).trans hv
    cases hs : w.sched with
    | nil => simp only; rw [← hs]; exact tk _ w (List.suffix_refl _)
    | cons e sched =>
      have h1 : sched <:+ e :: sched := List.suffix_cons _ _
      rw [hs] at tk
      simp only
      cases e.act with
      | timeout => exact h1
      | fail => simp only; split <;> exact h1
      | epipe => simp only; split <;> exact h1
      | zero =>
        simp only; split
        · exact h1
        · exact (sendLoop_sched watch f _ _).trans h1
      | sent k =>
        simp only; split
        · exact h1
        · exact tk _ { w with sched := sched } h1

theorem sendData_sched (watch : Bool) (data : Bytes) (w : Wire) : (sendData watch data w).2.sched <:+ w.sched := by
  unfold sendData
  split
  · exact List.suffix_refl _
  · exact sendLoop_sched _ _ _ _

theorem sendChunk_sched (c : HttpOut.Conf) (last : Bool) (w : Writer) : (sendChunk c last w).2.wire.sched <:+ w.wire.sched := by
  unfold sendChunk
  simp only
  have := sendData_sched c.watch (headOnce c w ++ hex w.back.length ++ asc "\r\n" ++ w.back ++ (if last then asc "\r\n0\r\n\r\n" else asc "\r\n")) w.wire
  revert this
  generalize sendData _ _ _ = q
  obtain ⟨r, wire⟩ := q
  intro h
  cases r <;> exact h

theorem sendFront_sched (c : HttpOut.Conf) : ∀ (ds : List Bytes) (wire : Wire), (sendFront c ds wire).2.sched <:+ wire.sched
  | [], _ => List.suffix_refl _
  | d :: ds, wire => by
    unfold sendFront
    have := sendData_sched c.watch d wire
    revert this
    generalize sendData _ _ _ = q
    obtain ⟨r, w⟩ := q
    intro h
    cases r with
    | error e => exact h
    | ok u => exact (sendFront_sched c ds w).trans h

theorem sendPlain_sched (c : HttpOut.Conf) (w : Writer) : (sendPlain c w).2.wire.sched <:+ w.wire.sched := by
  unfold sendPlain
  simp only
  have hi : (insertHead (headOnce c w) w).wire = w.wire := by unfold insertHead; split <;> rfl
  generalize insertHead (headOnce c w) w = v at hi
  rw [← hi]
  have := sendFront_sched c v.front v.wire
  revert this
  generalize sendFront _ _ _ = q
  obtain ⟨r, w1⟩ := q
  intro h
  cases r with
  | error e => exact h
  | ok u =>
    simp only
    have := sendData_sched false v.back w1
    revert this
    generalize hq : sendData false v.back w1 = q
    obtain ⟨r, w2⟩ := q
    intro h2
    cases r <;> exact h2.trans h

theorem write_sched (c : HttpOut.Conf) (d : Bytes) (w : Writer) : (write c d w).2.wire.sched <:+ w.wire.sched := by
  unfold write
  simp only
  split
  · split
    · have := sendChunk_sched c false { w with total := (w.total + d.length) % 2 ^ 32 }
      revert this
      generalize sendChunk _ _ _ = q
      obtain ⟨r, w1⟩ := q
      intro h
      cases r <;> exact h
    · split <;> exact List.suffix_refl _
  · exact List.suffix_refl _

theorem writes_sched (c : HttpOut.Conf) : ∀ (ds : List Bytes) (w : Writer), (writes c ds w).2.wire.sched <:+ w.wire.sched
  | [], _ => List.suffix_refl _
  | d :: ds, w => by
    unfold writes
    have := write_sched c d w
    revert this
    generalize write _ _ _ = q
    obtain ⟨r, w1⟩ := q
    intro h
    cases r with
    | error e => exact h
    | ok u => exact (writes_sched c ds w1).trans h

theorem message_sched (c : HttpOut.Conf) (ds : List Bytes) (w : Writer) : (message c ds w).2.wire.sched <:+ w.wire.sched := by
  unfold message
  have := writes_sched c ds w
  revert this
  generalize writes _ _ _ = q
  obtain ⟨r, w1⟩ := q
  intro h
  cases r with
  | error e => exact h
  | ok u =>
    simp only [flush]
    split
    · exact (sendPlain_sched c w1).trans h
    · exact (sendChunk_sched c true w1).trans h

theorem calmOut_suffix {watch : Bool} {a b : List SEv} (h : CalmOut watch b) (hs : a <:+ b) : CalmOut watch a :=
  fun e he => h e (hs.subset he)

/-! ## The response -/

/-- What the server sends for the writes is a response with them as its content. -/
theorem reply_sent (c : ServerCfg) (hok : ServerOk c) (ds : List Bytes) (hlen : ds.flatten.length < 2 ^ 32) (hfirst : c.chunks = true → FirstWrite ds) (wire : Wire)
    (hs : CalmOut false wire.sched) (known : Bool) (hk : c.chunks = (known && decide (c.outType = .binary))) :
    ∃ w' bytes, message (serverConf c) ds (.init wire) = (.ok (), w') ∧ w'.wire.sent = wire.sent ++ bytes ∧ CalmOut false w'.wire.sched ∧
      IsReply bytes c.outType c.custom c.keepAlive known ds.flatten := by
  obtain ⟨w', h1, h2, h3⟩ := message_sent (serverConf c) (fun h n => serverHead_const c h n) ds wire hs hfirst
  have hcalm : CalmOut false w'.wire.sched := by
    have := message_sched (serverConf c) ds (.init wire)
    rw [h1] at this
    exact calmOut_suffix hs this
  have hst : asc "HTTP/1.1 200 OK\r\n" = versionText true ++ asc " " ++ asc "200" ++ asc " " ++ asc "OK" ++ crlf := by decide +kernel
  have key : ∀ total body, (c.chunks = false → total = ds.flatten.length ∧ body = ds.flatten) →
      (c.chunks = true → ∃ ps, body = chunked ps ∧ (∀ p ∈ ps, p ≠ []) ∧ ps.flatten = ds.flatten) →
      IsReply (serverHead c total ++ body) c.outType c.custom c.keepAlive known ds.flatten := by
    intro total body hp hch
    obtain ⟨f1, f2, f3, f4, f5⟩ := serverFields_first hok total
    have hcoll := collect_asLine (serverFields c total) []
    rw [List.nil_append] at hcoll
    refine ⟨(serverFields c total).map asLine, _, ((serverFields c total).take 5).map (fun f => (f.1, trim f.2)), body, ?_, ?_, hcoll, ?_, ?_, ?_, f3, ?_, ?_⟩
    · unfold serverHead responseText
      rw [hst, List.append_assoc _ ((serverFields c total).flatMap headLine), flatMap_headLine]
      simp
    · intro l hl
      obtain ⟨f, hf, rfl⟩ := List.mem_map.1 hl
      exact (serverFields_ok hok total f hf).line
    · cases hcc : c.chunks with
      | false => exact .inl ⟨by rw [← (hp hcc).1]; exact f4 hcc, (hp hcc).2⟩
      | true =>
        obtain ⟨ps, a, b, d⟩ := hch hcc
        exact .inr ⟨(f5 hcc).1, ⟨_, (f5 hcc).2, by decide +kernel⟩, ps, a, b, d⟩
    · intro hkn
      have hcc : c.chunks = false := by rw [hk, hkn]; rfl
      rw [← (hp hcc).1]; exact f4 hcc
    · show first _ _ = _
      rw [f1]; cases c.outType <;> rfl
    · rw [← List.map_append]
      congr 1
    · rw [← hk]
      unfold serverFields
      cases c.chunks <;> simp
  cases hch : c.chunks with
  | false =>
    refine ⟨w', _, h1, ?_, hcalm, key ds.flatten.length ds.flatten (fun _ => ⟨rfl, rfl⟩) (fun h => absurd h (by simp [hch]))⟩
    rw [h2 hch, Nat.mod_eq_of_lt hlen, List.append_assoc]; rfl
  | true =>
    obtain ⟨ps, g1, g2, g3⟩ := h3 hch
    refine ⟨w', _, h1, ?_, hcalm, key 0 (chunked ps) (fun h => absurd h (by simp [hch])) (fun _ => ⟨ps, rfl, g2, g3⟩)⟩
    rw [g1, List.append_assoc]; rfl

end Web
end Frpc
