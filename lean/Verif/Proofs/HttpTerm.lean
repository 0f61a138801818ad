import Verif.Proofs.HttpText
import Verif.Model.HttpServer
/-! # The readers end, and only consume -/
namespace Frpc
namespace HttpServer
open HttpIO HttpOut

/-- A step of a reader: it did not run out of the bound, and what is left is an end of what was there. -/
def Step {α} (s : Conn) (r : Except HErr α × Conn) : Prop := r.1 ≠ .error .fuel ∧ r.2.data <:+ s.data

theorem poll_data (s : Conn) : (poll s).2.data = s.data ∧ (poll s).2.out = s.out := by
  unfold poll; split <;> simp

theorem readLineLoop_step (cfg : Cfg) (check opt : Bool) : ∀ (f : Nat) (nb : Bool) (line : Bytes) (s : Conn), s.data.length < f →
    Step s (readLineLoop cfg check opt f nb line s) ∧
    (∀ l, (readLineLoop cfg check opt f nb line s).1 = .ok l → opt = false ∨ l ≠ [] → (readLineLoop cfg check opt f nb line s).2.data.length < s.data.length)
  | 0, _, _, _, h => by omega
  | f + 1, nb, line, s, h => by
    unfold readLineLoop
    obtain ⟨hp, -⟩ := poll_data s
    generalize hq : poll s = q at hp
    obtain ⟨q, s1⟩ := q
    simp only at hp
    cases q with
    | timeout =>
      cases opt <;> simp [Step, hp]
    | fail => simp [Step, hp]
    | ready avail =>
      simp only
      split
      · cases hb : (nb && opt) <;> simp [Step, hp]
        simp at hb
        simp [hb.2]
      · next hne =>
        rw [hp] at hne
        have hlen : 0 < (s.data.take (min avail BUFF)).length := List.length_pos_iff.2 hne
        split
        · next i hi =>
          split
          · simp [Step, hp]
          · refine ⟨⟨by simp, by rw [hp]; exact List.drop_suffix _ _⟩, fun l _ _ => ?_⟩
            simp only [List.length_drop, hp]
            have : 0 < s.data.length := by simp at hlen; omega
            omega
        · split
          · simp [Step, hp]
          · rw [hp]
            have hd : (List.drop (s.data.take (min avail BUFF)).length s.data).length < s.data.length := by
              rw [List.length_drop]; simp at hlen ⊢; omega
            obtain ⟨⟨h1, h2⟩, h3⟩ := readLineLoop_step cfg check opt f false (line ++ s.data.take (min avail BUFF))
              { s1 with data := s.data.drop (s.data.take (min avail BUFF)).length } (by show (List.drop _ s.data).length < f; omega)
            refine ⟨⟨h1, h2.trans (List.drop_suffix _ _)⟩, fun l hl ho => ?_⟩
            have := h3 l hl ho
            simp only at this
            omega

theorem readLineOpt_step (cfg : Cfg) (check opt : Bool) (s : Conn) : Step s (readLineOpt cfg check opt s) :=
  (readLineLoop_step cfg check opt _ true [] s (by omega)).1

theorem readLineOpt_less {cfg : Cfg} {check opt : Bool} {s s' : Conn} {l : Bytes} (h : readLineOpt cfg check opt s = (.ok l, s')) (ho : opt = false ∨ l ≠ []) :
    s'.data.length < s.data.length := by
  have := (readLineLoop_step cfg check opt _ true [] s (Nat.lt_succ_self _)).2 l
  unfold readLineOpt at h
  rw [h] at this
  exact this rfl ho

theorem readLineLoop_noSink (cfg : Cfg) (check opt : Bool) : ∀ (f : Nat) (nb : Bool) (line : Bytes) (s : Conn) (e : HErr),
    (readLineLoop cfg check opt f nb line s).1 = .error e → ∀ x, e ≠ .sink x
  | 0, _, _, _, e, h => by simp [readLineLoop] at h; subst h; simp
  | f + 1, nb, line, s, e, h => by
    unfold readLineLoop at h
    generalize poll s = q at h
    obtain ⟨q, s1⟩ := q
    cases q with
    | timeout => cases opt <;> simp at h; subst h; simp
    | fail => simp at h; subst h; simp
    | ready avail =>
      simp only at h
      split at h
      · split at h <;> simp at h
        subst h; simp
      · split at h
        · split at h <;> simp at h
          subst h; simp
        · split at h
          · simp at h; subst h; simp
          · exact readLineLoop_noSink cfg check opt f _ _ _ e h

theorem readLineOpt_noSink (cfg : Cfg) (check opt : Bool) (s : Conn) (e : HErr) (h : (readLineOpt cfg check opt s).1 = .error e) : ∀ x, e ≠ .sink x :=
  readLineLoop_noSink cfg check opt _ _ _ _ e h

theorem readBlockLoop_step (cfg : Cfg) : ∀ (f : Nat) (len : Option Nat) (s : Conn), s.data.length < f → Step s (readBlockLoop cfg f len s)
  | 0, _, _, h => by omega
  | f + 1, len, s, h => by
    unfold readBlockLoop
    obtain ⟨hp, -⟩ := poll_data s
    generalize hq : poll s = q at hp
    obtain ⟨q, s1⟩ := q
    simp only at hp
    cases q with
    | timeout => simp [Step, hp]
    | fail => simp [Step, hp]
    | ready avail =>
      dsimp -zeta only
      extract_lets toRead buff s2 len2
      clear_value toRead
      have hbuff : buff = s.data.take (min avail toRead) := by simp only [buff, hp]
      have hs2 : s2 = { s1 with data := s.data.drop (s.data.take (min avail toRead)).length } := by simp only [s2, hbuff, hp]
      clear_value s2 buff
      subst hbuff hs2
      split
      · cases len <;> simp [Step, hp]
      · next hne =>
        have hlen : 0 < (s.data.take (min avail toRead)).length := List.length_pos_iff.2 hne
        have hd : (List.drop (s.data.take (min avail toRead)).length s.data).length < s.data.length := by
          rw [List.length_drop]; simp at hlen ⊢; omega
        have hsuf : List.drop (s.data.take (min avail toRead)).length s.data <:+ s.data := List.drop_suffix _ _
        split
        · exact ⟨by simp, hsuf⟩
        · unfold sinkWrite
          simp only
          cases cfg.sink (s1.out ++ [List.take (min avail toRead) s.data]) with
          | some e => exact ⟨by simp, hsuf⟩
          | none =>
            simp only
            split
            · exact ⟨by simp, hsuf⟩
            · obtain ⟨h1, h2⟩ := readBlockLoop_step cfg f len2
                { s1 with data := s.data.drop (s.data.take (min avail toRead)).length, out := s1.out ++ [List.take (min avail toRead) s.data] }
                (by show (List.drop _ s.data).length < f; omega)
              exact ⟨h1, h2.trans hsuf⟩

theorem readBlock_step (cfg : Cfg) (len : Nat) (s : Conn) : Step s (readBlock cfg len s) := by
  unfold readBlock
  split
  · simp [Step]
  · split
    · simp [Step]
    · exact readBlockLoop_step _ _ _ _ (by omega)

theorem Step.trans {α β} {s : Conn} {a : Except HErr α} {s1 : Conn} {r : Except HErr β × Conn} (h1 : Step s (a, s1)) (h2 : Step s1 r) : Step s r :=
  ⟨h2.1, h2.2.trans h1.2⟩

theorem Step.len {α} {s s1 : Conn} {a : Except HErr α} (h : Step s (a, s1)) : s1.data.length ≤ s.data.length := h.2.length_le

theorem Step.err {α β} {s s1 : Conn} {e : HErr} (h : Step s ((.error e : Except HErr α), s1)) : Step s ((.error e : Except HErr β), s1) :=
  ⟨by have := h.1; simp only [ne_eq, Except.error.injEq] at this ⊢; exact this, h.2⟩

theorem readHeaderLoop_step (cfg : Cfg) (opt : Bool) : ∀ (f : Nat) (nl : Bool) (h : HttpHeader.Fields) (s : Conn), s.data.length < f →
    Step s (readHeaderLoop cfg opt f nl h s)
  | 0, _, _, _, hf => by omega
  | f + 1, nl, h, s, hf => by
    unfold readHeaderLoop
    have hl := readLineOpt_step cfg false (nl && opt) s
    generalize hq : readLineOpt cfg false (nl && opt) s = q at hl
    obtain ⟨q, s1⟩ := q
    cases q with
    | error e => exact hl.err
    | ok line =>
      cases line with
      | nil => exact ⟨by simp, hl.2⟩
      | cons a l =>
        have hlt := readLineOpt_less hq (.inr (by simp))
        have hval : ∀ {α : Type}, Step s ((.error .value : Except HErr α), s1) := ⟨by simp, hl.2⟩
        simp only
        split
        · exact hval
        · split
          · split
            · exact hval
            · exact Step.trans (a := Except.ok ()) ⟨by simp, hl.2⟩ (readHeaderLoop_step cfg opt f false _ s1 (by omega))
          · exact Step.trans (a := Except.ok ()) ⟨by simp, hl.2⟩ (readHeaderLoop_step cfg opt f false _ s1 (by omega))

theorem readHeader_step (cfg : Cfg) (opt : Bool) (h : HttpHeader.Fields) (s : Conn) : Step s (readHeader cfg opt h s) :=
  readHeaderLoop_step cfg opt _ true h s (by omega)

theorem readChunkSize_step (cfg : Cfg) (s : Conn) :
    Step s (readChunkSize cfg s) ∧ ∀ n s1, readChunkSize cfg s = (.ok n, s1) → s1.data.length < s.data.length := by
  unfold readChunkSize readLine
  have hl := readLineOpt_step cfg false false s
  generalize hq : readLineOpt cfg false false s = q at hl
  obtain ⟨q, s1⟩ := q
  cases q with
  | error e => exact ⟨hl.err, by simp⟩
  | ok line =>
    have hlt := readLineOpt_less hq (.inl rfl)
    simp only
    split
    · exact ⟨⟨by simp, hl.2⟩, by simp⟩
    · split
      · exact ⟨⟨by simp, hl.2⟩, by simp⟩
      · refine ⟨⟨by simp, hl.2⟩, fun n s2 h => ?_⟩
        simp only [Prod.mk.injEq] at h
        rw [← h.2]; exact hlt

theorem readChunkedLoop_step (cfg : Cfg) : ∀ (f : Nat) (h : HttpHeader.Fields) (s : Conn), s.data.length < f → Step s (readChunkedLoop cfg f h s)
  | 0, _, _, hf => by omega
  | f + 1, h, s, hf => by
    unfold readChunkedLoop
    obtain ⟨hl, hlt⟩ := readChunkSize_step cfg s
    generalize hq : readChunkSize cfg s = q at hl hlt
    obtain ⟨q, s1⟩ := q
    cases q with
    | error e => exact hl.err
    | ok n =>
      have hlt := hlt n s1 rfl
      cases n with
      | zero => exact hl.trans (readHeader_step cfg true h s1)
      | succ n =>
        simp only
        split
        · exact ⟨by simp, hl.2⟩
        · have hb := readBlock_step cfg (n + 1) s1
          generalize readBlock cfg (n + 1) s1 = q at hb
          obtain ⟨q, s2⟩ := q
          have hb' := hb.len
          cases q with
          | error e => exact hl.trans hb.err
          | ok _ =>
            simp only [readLine]
            have hc := readLineOpt_step cfg false false s2
            generalize readLineOpt cfg false false s2 = q at hc
            obtain ⟨q, s3⟩ := q
            have hc' := hc.len
            cases q with
            | error e => exact hl.trans (hb.trans hc.err)
            | ok line =>
              cases line with
              | nil => exact hl.trans (hb.trans (hc.trans (readChunkedLoop_step cfg f h s3 (by omega))))
              | cons a l => exact hl.trans (hb.trans ⟨by simp, hc.2⟩)

theorem readContent_step (cfg : Cfg) (request : Bool) (h : HttpHeader.Fields) (s : Conn) : Step s (readContent cfg request h s) := by
  have self : ∀ {α : Type} {e : HErr}, e ≠ .fuel → Step s ((.error e : Except HErr α), s) := fun he => ⟨by simpa using he, List.suffix_refl _⟩
  have keep : ∀ r : Except HErr Unit × Conn, Step s r → Step s (match r with
    | (.error e, s) => ((.error e : Except HErr HttpHeader.Fields), s)
    | (.ok _, s) => (.ok h, s)) := by
    rintro ⟨r, s1⟩ hr
    cases r with
    | error e => exact hr.err
    | ok _ => exact ⟨by simp, hr.2⟩
  unfold readContent
  simp only
  split
  · split
    · exact self (by simp)
    · split
      · exact self (by simp)
      · split
        · exact self (by simp)
        · exact keep _ (readBlock_step _ _ _)
  · split
    · split
      · exact readChunkedLoop_step _ _ _ _ (by omega)
      · exact self (by simp)
    · split
      · exact ⟨by simp, List.suffix_refl _⟩
      · exact keep _ (readBlockLoop_step _ _ _ _ (by omega))

/-- A block that was read is exactly the announced number of bytes. -/
theorem readBlockLoop_sound (cfg : Cfg) : ∀ (f n : Nat) (s s' : Conn), 0 < n → readBlockLoop cfg f (some n) s = (.ok (), s') →
    ∃ p, s.data = p ++ s'.data ∧ p.length = n ∧ s'.out.flatten = s.out.flatten ++ p
  | 0, _, _, _, _, h => by simp [readBlockLoop] at h
  | f + 1, n, s, s', hn, h => by
    unfold readBlockLoop at h
    obtain ⟨hp, hp2⟩ := poll_data s
    generalize hq : poll s = q at hp hp2 h
    obtain ⟨q, s1⟩ := q
    simp only at hp hp2
    cases q with
    | timeout => simp at h
    | fail => simp at h
    | ready avail =>
      simp only [hp] at h
      generalize hb : s.data.take (min avail (if n > BUFF then BUFF else n)) = buff at h
      split at h
      · simp at h
      · next hne =>
        have hlen : 0 < buff.length := List.length_pos_iff.2 hne
        have hle : buff.length ≤ n := by
          rw [← hb, List.length_take]; split <;> omega
        have hd : s.data = buff ++ s.data.drop buff.length := by
          have hpre : buff <+: s.data := by rw [← hb]; exact List.take_prefix _ _
          obtain ⟨t, ht⟩ := hpre
          rw [← ht]; simp
        split at h
        · simp at h
        · unfold sinkWrite at h
          simp only at h
          cases hs : cfg.sink (s1.out ++ [buff]) with
          | some e => simp [hs] at h
          | none =>
            simp only [hs, Option.map_some, Option.some.injEq] at h
            split at h
            · next hz =>
              simp only [Prod.mk.injEq, true_and] at h
              subst h
              exact ⟨buff, hd, by omega, by simp [hp2]⟩
            · next hz =>
              obtain ⟨p, h1, h2, h3⟩ := readBlockLoop_sound cfg f (n - buff.length) _ s' (by omega) h
              simp only at h1 h3
              refine ⟨buff ++ p, ?_, by simp; omega, ?_⟩
              · rw [List.append_assoc, ← h1]; exact hd
              · rw [h3]; simp [hp2]

theorem readBlock_sound {cfg : Cfg} {n : Nat} {s s' : Conn} (h : readBlock cfg n s = (.ok (), s')) :
    ∃ p, s.data = p ++ s'.data ∧ p.length = n ∧ s'.out.flatten = s.out.flatten ++ p := by
  unfold readBlock at h
  split at h
  · next hz =>
    simp only [Prod.mk.injEq, true_and] at h
    subst h
    exact ⟨[], by simp, by simp [hz], by simp⟩
  · next hz =>
    split at h
    · simp at h
    · exact readBlockLoop_sound cfg _ n s s' (by omega) h

end HttpServer
end Frpc
