import Verif.Model.HttpOut
import Verif.Spec.Http
/-! # Sending -/
namespace Frpc
namespace HttpOut
open Spec

/-- The peer takes bytes without errors and, where it matters, without answering early. -/
def CalmOut (watch : Bool) (l : List SEv) : Prop :=
  ∀ e ∈ l, (e.act = .zero ∨ ∃ k, e.act = .sent k) ∧ (watch = true → e.input = false)

theorem take_length_take (d : Bytes) (n : Nat) : d.drop (d.take n).length = d.drop n := by
  rw [List.length_take]
  rcases Nat.le_total n d.length with hm | hm
  · rw [Nat.min_eq_left hm]
  · rw [Nat.min_eq_right hm, List.drop_eq_nil_of_le hm]; simp

/-- What a `send` does when bytes are taken. -/
theorem sendLoop_taken (watch : Bool) (f : Nat) (data : Bytes) (w : Wire) (n : Nat)
    (ih : ∀ (data : Bytes) (w : Wire) r w', sendLoop watch f data w = (r, w') →
      ∃ p, p <+: data ∧ w'.sent = w.sent ++ p ∧ (r = .ok () → p = data))
    (r : Except SErr Unit) (w' : Wire)
    (h : (if data.drop (data.take n).length = [] then (.ok (), { w with sent := w.sent ++ data.take n })
      else sendLoop watch f (data.drop (data.take n).length) { w with sent := w.sent ++ data.take n }) = (r, w')) :
    ∃ p, p <+: data ∧ w'.sent = w.sent ++ p ∧ (r = .ok () → p = data) := by
  rw [take_length_take] at h
  split at h
  · next hz =>
    simp only [Prod.mk.injEq] at h
    obtain ⟨rfl, rfl⟩ := h
    refine ⟨data.take n, List.take_prefix _ _, rfl, fun _ => ?_⟩
    have := List.take_append_drop n data
    rw [hz] at this; simpa using this
  · obtain ⟨p, h1, h2, h3⟩ := ih _ _ _ _ h
    simp only at h2
    refine ⟨data.take n ++ p, ?_, by rw [h2]; simp, fun hr => ?_⟩
    · obtain ⟨t, ht⟩ := h1
      exact ⟨t, by rw [List.append_assoc, ht, List.take_append_drop]⟩
    · rw [h3 hr, List.take_append_drop]

theorem sendLoop_sound (watch : Bool) : ∀ (f : Nat) (data : Bytes) (w : Wire) (r : Except SErr Unit) (w' : Wire),
    sendLoop watch f data w = (r, w') → ∃ p, p <+: data ∧ w'.sent = w.sent ++ p ∧ (r = .ok () → p = data) := by
  intro f
  induction f with
  | zero =>
    intro data w r w' h
    simp only [sendLoop, Prod.mk.injEq] at h
    obtain ⟨rfl, rfl⟩ := h
    exact ⟨[], by simp, by simp, by simp⟩
  | succ f ih =>
    intro data w r w' h
    have stop : ∀ (e : SErr) (v : Wire), v.sent = w.sent → (Except.error e, v) = (r, w') →
        ∃ p, p <+: data ∧ w'.sent = w.sent ++ p ∧ (r = .ok () → p = data) := by
      intro e v hv h
      simp only [Prod.mk.injEq] at h
      obtain ⟨rfl, rfl⟩ := h
      exact ⟨[], by simp, by simp [hv], by simp⟩
    unfold sendLoop at h
    split at h
    · exact sendLoop_taken watch f data w _ ih r w' h
    · next e sched _ =>
      simp only at h
      split at h
      · exact stop _ { w with sched := sched } rfl h
      · split at h
        · exact stop _ { w with sched := sched } rfl h
        · exact stop _ { w with sched := sched } rfl h
      · split at h
        · exact stop _ { w with sched := sched } rfl h
        · exact stop _ { w with sched := sched } rfl h
      · split at h
        · exact stop _ { w with sched := sched } rfl h
        · exact ih _ { w with sched := sched } _ _ h
      · split at h
        · exact stop _ { w with sched := sched } rfl h
        · exact sendLoop_taken watch f data { w with sched := sched } _ ih r w' h

theorem sendData_sound (watch : Bool) (data : Bytes) (w : Wire) (r : Except SErr Unit) (w' : Wire) (h : sendData watch data w = (r, w')) :
    ∃ p, p <+: data ∧ w'.sent = w.sent ++ p ∧ (r = .ok () → p = data) := by
  unfold sendData at h
  split at h
  · next hz =>
    simp only [Prod.mk.injEq] at h
    obtain ⟨rfl, rfl⟩ := h
    subst hz
    exact ⟨[], by simp, by simp, by simp⟩
  · exact sendLoop_sound watch _ data w r w' h

theorem sendLoop_calm (watch : Bool) : ∀ (f : Nat) (data : Bytes) (w : Wire), CalmOut watch w.sched → data ≠ [] → data.length + w.sched.length < f →
    ∃ w', sendLoop watch f data w = (.ok (), w') ∧ ∃ pre, w.sched = pre ++ w'.sched := by
  intro f
  induction f with
  | zero => intro data w _ _ h; omega
  | succ f ih =>
    intro data w hc hne hf
    have hd : 0 < data.length := List.length_pos_iff.2 hne
    have taken : ∀ (n : Nat) (v : Wire), 0 < n → CalmOut watch v.sched → v.sched.length + data.length ≤ f →
        ∃ w', (if data.drop (data.take n).length = [] then (.ok (), { v with sent := v.sent ++ data.take n })
          else sendLoop watch f (data.drop (data.take n).length) { v with sent := v.sent ++ data.take n }) = (.ok (), w') ∧ ∃ pre, v.sched = pre ++ w'.sched := by
      intro n v hn hv hl
      rw [take_length_take]
      split
      · exact ⟨_, rfl, [], rfl⟩
      · next hz =>
        have h := ih (data.drop n) { v with sent := v.sent ++ data.take n } hv hz
          (by simp only [List.length_drop]; omega)
        exact h
    unfold sendLoop
    split
    · next hs =>
      have := taken HttpIO.BUFF w (by decide) hc (by omega)
      exact this
    · next e sched hs =>
      have he := hc e (by rw [hs]; simp)
      have hc' : CalmOut watch sched := fun x hx => hc x (by rw [hs]; simp [hx])
      have hin : (watch && e.input) = false := by
        cases watch with
        | false => rfl
        | true => simp [he.2 rfl]
      rw [hs] at hf
      simp only [List.length_cons] at hf
      rcases he.1 with h | ⟨k, h⟩
      · simp only [h, hin, Bool.false_eq_true, if_false]
        obtain ⟨w', h1, pre, h2⟩ := ih data { w with sched := sched } hc' hne (by simp only; omega)
        exact ⟨w', h1, e :: pre, by rw [hs]; simpa using h2⟩
      · simp only [h, hin, Bool.false_eq_true, if_false]
        obtain ⟨w', h1, pre, h2⟩ := taken (min (k + 1) HttpIO.BUFF) { w with sched := sched } (by unfold HttpIO.BUFF; omega) hc' (by simp only; omega)
        exact ⟨w', h1, e :: pre, by rw [hs]; simpa using h2⟩

theorem sendData_calm (watch : Bool) (data : Bytes) (w : Wire) (hc : CalmOut watch w.sched) :
    ∃ w', sendData watch data w = (.ok (), w') ∧ w'.sent = w.sent ++ data ∧ ∃ pre, w.sched = pre ++ w'.sched := by
  have h0 : ∃ w', sendData watch data w = (.ok (), w') ∧ ∃ pre, w.sched = pre ++ w'.sched := by
    unfold sendData
    split
    · exact ⟨w, rfl, [], rfl⟩
    · next hne => exact sendLoop_calm watch _ data w hc hne (by omega)
  obtain ⟨w', h1, h2⟩ := h0
  obtain ⟨p, -, h3, h4⟩ := sendData_sound watch data w _ _ h1
  refine ⟨w', h1, ?_, h2⟩
  rw [h3, h4 rfl]

/-! ## What a message consists of -/

/-- One chunk. -/
def chunk (p : Bytes) : Bytes := hex p.length ++ crlf ++ p ++ crlf

/-- The bytes a chunked message will put on the wire. -/
def chunkStream (H : Bytes) : List Bytes → Bytes → Bool → Bytes
  | [], back, sent => (if sent then [] else H) ++ chunk back ++ [48] ++ crlf ++ crlf
  | d :: ds, back, sent =>
    if oversize d.length back.length then (if sent then [] else H) ++ chunk back ++ chunkStream H ds d true
    else chunkStream H ds (back ++ d) sent

/-- Success means all of `all` is on the wire; failure, a part from its beginning. -/
def Sends (w : Wire) (r : Except SErr Unit) (w' : Wire) (all : Bytes) : Prop :=
  ∃ p, p <+: all ∧ w'.sent = w.sent ++ p ∧ (r = .ok () → p = all)

theorem sendChunk_sends (c : Conf) (last : Bool) (w : Writer) (r : Except SErr Unit) (w' : Writer) (h : sendChunk c last w = (r, w')) :
    Sends w.wire r w'.wire (headOnce c w ++ chunk w.back ++ (if last then [48] ++ crlf ++ crlf else [])) ∧
    (r = .ok () → w' = { w with back := [], headersSent := true, wire := w'.wire }) := by
  have e : headOnce c w ++ hex w.back.length ++ asc "\r\n" ++ w.back ++ (if last then asc "\r\n0\r\n\r\n" else asc "\r\n") =
      headOnce c w ++ chunk w.back ++ (if last then [48] ++ crlf ++ crlf else []) := by
    have h1 : asc "\r\n" = crlf := by decide
    have h2 : asc "\r\n0\r\n\r\n" = crlf ++ ([48] ++ crlf ++ crlf) := by decide
    rw [h1, h2]
    cases last <;> simp [chunk]
  unfold sendChunk at h
  simp only [e] at h
  split at h
  · next wire hs =>
    simp only [Prod.mk.injEq] at h
    obtain ⟨rfl, rfl⟩ := h
    exact ⟨sendData_sound _ _ _ _ _ hs, fun _ => rfl⟩
  · next er wire hs =>
    simp only [Prod.mk.injEq] at h
    obtain ⟨rfl, rfl⟩ := h
    obtain ⟨p, h1, h2, h3⟩ := sendData_sound _ _ _ _ _ hs
    exact ⟨⟨p, h1, h2, by simp⟩, by simp⟩

theorem Sends.append {w w1 w2 : Wire} {r : Except SErr Unit} {a b : Bytes} (h1 : Sends w (.ok ()) w1 a) (h2 : Sends w1 r w2 b) : Sends w r w2 (a ++ b) := by
  obtain ⟨p, -, e1, g1⟩ := h1
  obtain ⟨q, ⟨t, ht⟩, e2, g2⟩ := h2
  have := g1 rfl
  subst this
  refine ⟨p ++ q, ⟨t, by rw [List.append_assoc, ht]⟩, by rw [e2, e1]; simp, fun hr => by rw [g2 hr]⟩

theorem Sends.short {w w1 : Wire} {e : SErr} {a : Bytes} (b : Bytes) (h : Sends w (.error e) w1 a) : Sends w (.error e) w1 (a ++ b) := by
  obtain ⟨p, ⟨t, ht⟩, e1, -⟩ := h
  exact ⟨p, ⟨t ++ b, by rw [← List.append_assoc, ht]⟩, e1, by simp⟩

theorem message_chunks (c : Conf) (hch : c.chunks = true) (H : Bytes) (hH : ∀ n, c.head n = H) : ∀ (ds : List Bytes) (w : Writer) (r : Except SErr Unit) (w' : Writer),
    message c ds w = (r, w') → Sends w.wire r w'.wire (chunkStream H ds w.back w.headersSent) := by
  intro ds
  induction ds with
  | nil =>
    intro w r w' h
    simp only [message, writes, flush, hch] at h
    have := (sendChunk_sends c true w r w' h).1
    simpa [chunkStream, headOnce, hH] using this
  | cons d ds ih =>
    intro w r w' h
    unfold message writes write at h
    simp only [hch] at h
    unfold chunkStream
    cases ho : oversize d.length w.back.length with
    | false =>
      simp only [ho] at h
      have := ih { w with total := (w.total + d.length) % 2 ^ 32, back := w.back ++ d } r w' h
      simpa using this
    | true =>
      simp only [ho] at h
      simp only [if_true]
      generalize hs : sendChunk c false { w with total := (w.total + d.length) % 2 ^ 32 } = rs at h
      obtain ⟨r1, w1⟩ := rs
      obtain ⟨s1, s2⟩ := sendChunk_sends c false _ r1 w1 hs
      simp only [headOnce, hH, Bool.false_eq_true, if_false, List.append_nil] at s1
      cases r1 with
      | error e =>
        simp only [Prod.mk.injEq] at h
        obtain ⟨rfl, rfl⟩ := h
        exact s1.short _
      | ok u =>
        have hw := s2 rfl
        simp only at h
        refine s1.append ?_
        have := ih { w1 with back := w1.back ++ d } r w' h
        rw [hw] at this
        rw [hw]
        simpa using this

theorem message_chunks_calm (c : Conf) (hch : c.chunks = true) : ∀ (ds : List Bytes) (w : Writer),
    CalmOut c.watch w.wire.sched → ∃ w', message c ds w = (.ok (), w') := by
  have one : ∀ (last : Bool) (w : Writer), CalmOut c.watch w.wire.sched →
      ∃ w', sendChunk c last w = (.ok (), w') ∧ CalmOut c.watch w'.wire.sched := by
    intro last w hc
    unfold sendChunk
    simp only
    obtain ⟨w', h1, -, pre, h2⟩ := sendData_calm c.watch _ w.wire hc
    rw [h1]
    exact ⟨_, rfl, fun e he => hc e (by rw [h2]; simp at he ⊢; exact .inr he)⟩
  intro ds
  induction ds with
  | nil =>
    intro w hc
    simp only [message, writes, flush, hch]
    obtain ⟨w', h, -⟩ := one true w hc
    exact ⟨w', h⟩
  | cons d ds ih =>
    intro w hc
    unfold message writes write
    simp only [hch]
    cases ho : oversize d.length w.back.length with
    | false => exact ih { w with total := (w.total + d.length) % 2 ^ 32, back := w.back ++ d } hc
    | true =>
      simp only
      obtain ⟨w1, h1, h2⟩ := one false { w with total := (w.total + d.length) % 2 ^ 32 } hc
      rw [h1]
      exact ih { w1 with back := w1.back ++ d } h2

/-- The stream is the header and a chunked body of the writes. -/
theorem chunkStream_eq (H : Bytes) : ∀ (ds : List Bytes) (back : Bytes) (sent : Bool), back ≠ [] →
    ∃ ps, chunkStream H ds back sent = (if sent then [] else H) ++ chunked ps ∧ (∀ p ∈ ps, p ≠ []) ∧ ps.flatten = back ++ ds.flatten := by
  intro ds
  induction ds with
  | nil =>
    intro back sent hb
    refine ⟨[back], ?_, by simpa using hb, by simp⟩
    simp [chunkStream, chunk, chunked]
  | cons d ds ih =>
    intro back sent hb
    unfold chunkStream
    by_cases ho : oversize d.length back.length = true
    · rw [if_pos ho]
      have hd : d ≠ [] := by
        rintro rfl
        simp [oversize] at ho
      obtain ⟨ps, h1, h2, h3⟩ := ih d true hd
      refine ⟨back :: ps, ?_, ?_, by simp [h3]⟩
      · rw [h1]; simp [chunked, chunk]
      · intro p hp
        rcases List.mem_cons.1 hp with rfl | hp
        · exact hb
        · exact h2 p hp
    · rw [if_neg ho]
      obtain ⟨ps, h1, h2, h3⟩ := ih (back ++ d) sent (by simp [hb])
      exact ⟨ps, h1, h2, by rw [h3]; simp⟩

theorem chunkStream_first (H d : Bytes) (ds : List Bytes) (hd : d.length ≤ BUFFER) :
    chunkStream H (d :: ds) [] false = chunkStream H ds d false := by
  have : oversize d.length ([] : Bytes).length = false := by
    have h2 : BUFFER = 64512 := rfl
    simp only [oversize, decide_eq_false_iff_not, List.length_nil]
    omega
  rw [chunkStream, this]
  simp

/-! ## Without chunks -/

theorem writes_plain (c : Conf) (hch : c.chunks = false) : ∀ (ds : List Bytes) (w : Writer),
    ∃ w', writes c ds w = (.ok (), w') ∧ w'.front.flatten ++ w'.back = w.front.flatten ++ w.back ++ ds.flatten ∧ w'.wire = w.wire ∧
      w'.headersSent = w.headersSent ∧ (w.total < 2 ^ 32 → w'.total = (w.total + ds.flatten.length) % 2 ^ 32) := by
  intro ds
  induction ds with
  | nil => intro w; exact ⟨w, rfl, by simp, rfl, rfl, fun h => by simp [Nat.mod_eq_of_lt h]⟩
  | cons d ds ih =>
    intro w
    have hw : ∃ w1, write c d w = (.ok (), w1) ∧ w1.front.flatten ++ w1.back = w.front.flatten ++ w.back ++ d ∧ w1.wire = w.wire ∧
        w1.headersSent = w.headersSent ∧ w1.total = (w.total + d.length) % 2 ^ 32 := by
      unfold write
      simp only [hch]
      cases oversize d.length w.back.length with
      | false => exact ⟨_, rfl, by simp, rfl, rfl, rfl⟩
      | true =>
        simp only
        split
        · exact ⟨_, rfl, by simp, rfl, rfl, rfl⟩
        · exact ⟨_, rfl, by simp, rfl, rfl, rfl⟩
    obtain ⟨w1, a1, a2, a3, a4, a5⟩ := hw
    obtain ⟨w2, b1, b2, b3, b4, b5⟩ := ih w1
    refine ⟨w2, by simp only [writes, a1, b1], by rw [b2, a2]; simp, by rw [b3, a3], by rw [b4, a4], fun _ => ?_⟩
    rw [b5 (by rw [a5]; omega), a5]
    simp only [List.flatten_cons, List.length_append]
    omega

theorem sendFront_sends (c : Conf) : ∀ (l : List Bytes) (wire : Wire) (r : Except SErr Unit) (wire' : Wire),
    sendFront c l wire = (r, wire') → Sends wire r wire' l.flatten := by
  intro l
  induction l with
  | nil =>
    intro wire r wire' h
    simp only [sendFront, Prod.mk.injEq] at h
    obtain ⟨rfl, rfl⟩ := h
    exact ⟨[], by simp, by simp, by simp⟩
  | cons d l ih =>
    intro wire r wire' h
    unfold sendFront at h
    split at h
    · next e w1 hs =>
      simp only [Prod.mk.injEq] at h
      obtain ⟨rfl, rfl⟩ := h
      exact Sends.short l.flatten (sendData_sound _ _ _ _ _ hs)
    · next w1 hs =>
      exact Sends.append (sendData_sound _ _ _ _ _ hs) (ih _ _ _ h)

theorem sendFront_calm (c : Conf) : ∀ (l : List Bytes) (wire : Wire), CalmOut c.watch wire.sched →
    ∃ wire', sendFront c l wire = (.ok (), wire') ∧ ∃ pre, wire.sched = pre ++ wire'.sched := by
  intro l
  induction l with
  | nil => intro wire _; exact ⟨wire, rfl, [], rfl⟩
  | cons d l ih =>
    intro wire hc
    unfold sendFront
    obtain ⟨w1, h1, -, pre, h2⟩ := sendData_calm c.watch d wire hc
    rw [h1]
    obtain ⟨w2, g1, pre2, g2⟩ := ih w1 (fun e he => hc e (by rw [h2]; simp [he]))
    exact ⟨w2, g1, pre ++ pre2, by rw [h2, g2]; simp⟩

theorem insertHead_flat (h : Bytes) (w : Writer) : (insertHead h w).front.flatten ++ (insertHead h w).back = h ++ (w.front.flatten ++ w.back) := by
  unfold insertHead
  split
  · next hf => simp [hf]
  · next hf => simp [hf]

theorem insertHead_wire (h : Bytes) (w : Writer) : (insertHead h w).wire = w.wire := by
  unfold insertHead; split <;> rfl

theorem sendPlain_sends (c : Conf) (w : Writer) (r : Except SErr Unit) (w' : Writer) (h : sendPlain c w = (r, w')) :
    Sends w.wire r w'.wire (headOnce c w ++ (w.front.flatten ++ w.back)) := by
  rw [← insertHead_flat, ← insertHead_wire (headOnce c w) w]
  unfold sendPlain at h
  simp only at h
  generalize insertHead (headOnce c w) w = v at h ⊢
  split at h
  · next e wire hs =>
    simp only [Prod.mk.injEq] at h
    obtain ⟨rfl, rfl⟩ := h
    exact Sends.short _ (sendFront_sends c _ _ _ _ hs)
  · next wire hs =>
    refine Sends.append (sendFront_sends c _ _ _ _ hs) ?_
    split at h
    · next e wire' hs' =>
      simp only [Prod.mk.injEq] at h
      obtain ⟨rfl, rfl⟩ := h
      exact sendData_sound _ _ _ _ _ hs'
    · next wire' hs' =>
      simp only [Prod.mk.injEq] at h
      obtain ⟨rfl, rfl⟩ := h
      exact sendData_sound _ _ _ _ _ hs'

theorem CalmOut.unwatched {watch : Bool} {l : List SEv} (h : CalmOut watch l) : CalmOut false l :=
  fun e he => ⟨(h e he).1, by simp⟩

theorem sendPlain_calm (c : Conf) (w : Writer) (hc : CalmOut c.watch w.wire.sched) : ∃ w', sendPlain c w = (.ok (), w') := by
  unfold sendPlain
  simp only
  have hc' : CalmOut c.watch (insertHead (headOnce c w) w).wire.sched := by rw [insertHead_wire]; exact hc
  generalize insertHead (headOnce c w) w = v at hc' ⊢
  obtain ⟨w1, h1, pre, h2⟩ := sendFront_calm c v.front v.wire hc'
  rw [h1]
  simp only
  obtain ⟨w2, g1, -⟩ := sendData_calm false v.back w1 (CalmOut.unwatched (watch := c.watch) (fun e he => hc' e (by rw [h2]; simp [he])))
  rw [g1]
  exact ⟨_, rfl⟩

theorem message_plain (c : Conf) (hch : c.chunks = false) (ds : List Bytes) (wire : Wire) (r : Except SErr Unit) (w' : Writer)
    (h : message c ds (.init wire) = (r, w')) : Sends wire r w'.wire (c.head (ds.flatten.length % 2 ^ 32) ++ ds.flatten) := by
  obtain ⟨w1, h1, h2, h3, h4, h5⟩ := writes_plain c hch ds (.init wire)
  simp only [message, h1, flush, hch] at h
  have := sendPlain_sends c w1 r w' h
  have ht := h5 (by simp [Writer.init])
  simp only [Writer.init, Nat.zero_add] at ht h4 h2 h3
  simp only [headOnce, h4, Bool.false_eq_true, if_false, ht, h2, h3] at this
  simpa using this

theorem message_plain_calm (c : Conf) (hch : c.chunks = false) (ds : List Bytes) (wire : Wire) (hc : CalmOut c.watch wire.sched) :
    ∃ w', message c ds (.init wire) = (.ok (), w') := by
  obtain ⟨w1, h1, -, h3, -⟩ := writes_plain c hch ds (.init wire)
  simp only [message, h1, flush, hch]
  exact sendPlain_calm c w1 (by rw [h3]; exact hc)

end HttpOut
end Frpc
