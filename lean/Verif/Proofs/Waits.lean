import Verif.Proofs.HttpTerm
/-!
# How often the readers and the senders wait
-/
namespace Frpc
namespace Waits
open HttpIO HttpOut HttpServer

/-- From one state of the connection to another by waits that all came to some bytes: not more waits than bytes; and if they brought one byte each and were not the last ones, not less. -/
def Going (s s' : Conn) : Prop :=
  ∃ used, s.sched = used ++ s'.sched ∧ used.length + s'.data.length ≤ s.data.length ∧ (∀ e ∈ used, ∃ k, e = .bytes k) ∧
    ((∀ e ∈ used, e = .bytes 0) → s'.sched ≠ [] → s.data.length ≤ used.length + s'.data.length)

/-- The same when the last wait may have come to anything. -/
def Final (s s' : Conn) : Prop :=
  ∃ used, s.sched = used ++ s'.sched ∧ used.length + s'.data.length ≤ s.data.length + 1 ∧ (∀ e ∈ used.dropLast, ∃ k, e = .bytes k) ∧
    ((∀ e ∈ used, e = .bytes 0) → s'.sched ≠ [] → s.data.length ≤ used.length + s'.data.length)

theorem Going.final {s s' : Conn} (h : Going s s') : Final s s' := by
  obtain ⟨u, h1, h2, h3, h4⟩ := h
  exact ⟨u, h1, by omega, fun e he => h3 e (List.dropLast_subset _ he), h4⟩

theorem Going.same {s s' : Conn} (h1 : s'.sched = s.sched) (h2 : s'.data = s.data) : Going s s' :=
  ⟨[], by rw [h1]; rfl, by rw [h2]; simp, by simp, by rw [h2]; simp⟩

theorem Going.refl (s : Conn) : Going s s := Going.same rfl rfl

theorem Going.trans {s s1 s2 : Conn} (h : Going s s1) (g : Going s1 s2) : Going s s2 := by
  obtain ⟨u, h1, h2, h3, h4⟩ := h
  obtain ⟨v, g1, g2, g3, g4⟩ := g
  refine ⟨u ++ v, by rw [h1, g1, List.append_assoc], by rw [List.length_append]; omega, ?_, fun ha hne => ?_⟩
  · intro e he
    rcases List.mem_append.1 he with he | he
    · exact h3 e he
    · exact g3 e he
  · have a := h4 (fun e he => ha e (List.mem_append_left _ he)) (by rw [g1]; simp [hne])
    have b := g4 (fun e he => ha e (List.mem_append_right _ he)) hne
    rw [List.length_append]; omega

theorem Going.trans_final {s s1 s2 : Conn} (h : Going s s1) (g : Final s1 s2) : Final s s2 := by
  obtain ⟨u, h1, h2, h3, h4⟩ := h
  obtain ⟨v, g1, g2, g3, g4⟩ := g
  refine ⟨u ++ v, by rw [h1, g1, List.append_assoc], by rw [List.length_append]; omega, ?_, fun ha hne => ?_⟩
  · intro e he
    by_cases c : v = []
    · subst c
      rw [List.append_nil] at he
      exact h3 e (List.dropLast_subset _ he)
    · rw [List.dropLast_append_of_ne_nil c] at he
      rcases List.mem_append.1 he with he | he
      · exact h3 e he
      · exact g3 e he
  · have a := h4 (fun e he => ha e (List.mem_append_left _ he)) (by rw [g1]; simp [hne])
    have b := g4 (fun e he => ha e (List.mem_append_right _ he)) hne
    rw [List.length_append]; omega

/-- A wait that came to something else than bytes. -/
theorem Final.stop {s s1 : Conn} {p : Poll} (h : poll s = (p, s1)) : Final s s1 := by
  unfold poll at h
  split at h <;> cases h
  · exact (Going.refl _).final
  all_goals
    next r hr =>
    refine ⟨[_], hr, by simp; omega, by simp, ?_⟩
    intro _ _
    simp

/-- A wait that came to some bytes, of which some are taken. -/
theorem Going.take {s s1 : Conn} {avail : Nat} (h : poll s = (.ready avail, s1)) (m : Nat) (h1 : 1 ≤ m) (h2 : m ≤ avail) (h3 : m ≤ s.data.length) (o : List Bytes) :
    Going s { s1 with data := s.data.drop m, out := o } := by
  unfold poll at h
  split at h <;> cases h
  · next hs => exact ⟨[], by simp, by simp, by simp, fun _ hne => absurd hs hne⟩
  · next k r hr =>
    refine ⟨[.bytes k], hr, by simp; omega, by simp, fun ha _ => ?_⟩
    have := ha (.bytes k) (by simp)
    cases this
    simp; omega

theorem readLineLoop (cfg : Cfg) (check opt : Bool) : ∀ (f : Nat) (nb : Bool) (line : Bytes) (s : Conn),
    Final s (HttpIO.readLineLoop cfg check opt f nb line s).2 ∧
    (∀ l, (HttpIO.readLineLoop cfg check opt f nb line s).1 = .ok l → opt = false ∨ l ≠ [] → Going s (HttpIO.readLineLoop cfg check opt f nb line s).2)
  | 0, _, _, s => ⟨(Going.refl s).final, by simp [HttpIO.readLineLoop]⟩
  | f + 1, nb, line, s => by
    unfold HttpIO.readLineLoop
    obtain ⟨hp, -⟩ := poll_data s
    generalize hq : poll s = q at hp
    obtain ⟨q, s1⟩ := q
    simp only at hp
    cases q with
    | timeout =>
      cases opt <;> simp [Final.stop hq]
    | fail => simp [Final.stop hq]
    | ready avail =>
      simp only
      split
      · cases hb : (nb && opt) <;> simp [Final.stop hq]
        simp at hb
        simp [hb.2]
      · next hne =>
        rw [hp] at hne ⊢
        have hlen : 0 < (s.data.take (min avail BUFF)).length := List.length_pos_iff.2 hne
        have hle : (s.data.take (min avail BUFF)).length ≤ avail ∧ (s.data.take (min avail BUFF)).length ≤ s.data.length := by
          rw [List.length_take]; omega
        split
        · next i hi =>
          have hi' : i < (s.data.take (min avail BUFF)).length := (List.findIdx?_eq_some_iff_findIdx_eq.1 hi).1
          split
          · exact ⟨Final.stop hq, by simp⟩
          · have := Going.take hq (i + 1) (by omega) (by omega) (by omega) s1.out
            exact ⟨this.final, fun _ _ _ => this⟩
        · split
          · exact ⟨Final.stop hq, by simp⟩
          · have := Going.take hq (s.data.take (min avail BUFF)).length (by omega) (by omega) (by omega) s1.out
            obtain ⟨g1, g2⟩ := readLineLoop cfg check opt f false (line ++ s.data.take (min avail BUFF))
              { s1 with data := s.data.drop (s.data.take (min avail BUFF)).length }
            exact ⟨this.trans_final g1, fun l hl ho => this.trans (g2 l hl ho)⟩

theorem readLineOpt (cfg : Cfg) (check opt : Bool) (s : Conn) : Final s (HttpIO.readLineOpt cfg check opt s).2 := (readLineLoop cfg check opt _ _ _ s).1

theorem readLineOpt_ok {cfg : Cfg} {check opt : Bool} {s s' : Conn} {l : Bytes} (h : HttpIO.readLineOpt cfg check opt s = (.ok l, s')) (ho : opt = false ∨ l ≠ []) : Going s s' := by
  have := (readLineLoop cfg check opt (s.data.length + 1) true [] s).2 l
  unfold HttpIO.readLineOpt at h
  rw [h] at this
  exact this rfl ho

theorem readBlockLoop (cfg : Cfg) : ∀ (f : Nat) (len : Option Nat) (s : Conn),
    Final s (HttpIO.readBlockLoop cfg f len s).2 ∧ (len ≠ none → (HttpIO.readBlockLoop cfg f len s).1 = .ok () → Going s (HttpIO.readBlockLoop cfg f len s).2)
  | 0, _, s => ⟨(Going.refl s).final, by simp [HttpIO.readBlockLoop]⟩
  | f + 1, len, s => by
    unfold HttpIO.readBlockLoop
    obtain ⟨hp, -⟩ := poll_data s
    generalize hq : poll s = q at hp
    obtain ⟨q, s1⟩ := q
    simp only at hp
    cases q with
    | timeout => simp [Final.stop hq]
    | fail => simp [Final.stop hq]
    | ready avail =>
      dsimp -zeta only
      extract_lets toRead buff s2 len2
      clear_value toRead
      have hbuff : buff = s.data.take (min avail toRead) := by simp only [buff, hp]
      have hs2 : s2 = { s1 with data := s.data.drop (s.data.take (min avail toRead)).length } := by simp only [s2, hbuff, hp]
      have hl2 : len2 = len.map (· - buff.length) := rfl
      clear_value s2 buff len2
      subst hbuff hs2
      split
      · cases len <;> simp [Final.stop hq]
      · next hne =>
        have hlen : 0 < (s.data.take (min avail toRead)).length := List.length_pos_iff.2 hne
        have hle : (s.data.take (min avail toRead)).length ≤ avail ∧ (s.data.take (min avail toRead)).length ≤ s.data.length := by
          rw [List.length_take]; omega
        have go := Going.take hq (s.data.take (min avail toRead)).length (by omega) (by omega) (by omega)
        split
        · exact ⟨(go s1.out).final, by simp⟩
        · unfold sinkWrite
          dsimp only
          split
          · next heq =>
            split at heq <;> cases heq
            exact ⟨(go _).final, by simp⟩
          · next heq =>
            split at heq <;> cases heq
            split
            · exact ⟨(go _).final, fun _ _ => go _⟩
            · obtain ⟨g1, g2⟩ := readBlockLoop cfg f len2 { s1 with data := s.data.drop (s.data.take (min avail toRead)).length, out := s1.out ++ [s.data.take (min avail toRead)] }
              refine ⟨(go _).trans_final g1, fun hn he => (go _).trans (g2 ?_ he)⟩
              rw [hl2]
              cases len with
              | none => exact absurd rfl hn
              | some n => simp

theorem readBlock (cfg : Cfg) (len : Nat) (s : Conn) : Final s (HttpIO.readBlock cfg len s).2 ∧ ((HttpIO.readBlock cfg len s).1 = .ok () → Going s (HttpIO.readBlock cfg len s).2) := by
  unfold HttpIO.readBlock
  split
  · exact ⟨(Going.refl s).final, fun _ => Going.refl s⟩
  · split
    · exact ⟨(Going.refl s).final, fun _ => Going.refl s⟩
    · obtain ⟨g1, g2⟩ := readBlockLoop cfg (s.data.length + 1) (some len) s
      exact ⟨g1, fun h => g2 (by simp) h⟩

theorem readHeaderLoop (cfg : Cfg) (opt : Bool) : ∀ (f : Nat) (nl : Bool) (h : HttpHeader.Fields) (s : Conn),
    Final s (HttpIO.readHeaderLoop cfg opt f nl h s).2 ∧ (opt = false → ∀ x, (HttpIO.readHeaderLoop cfg opt f nl h s).1 = .ok x → Going s (HttpIO.readHeaderLoop cfg opt f nl h s).2)
  | 0, _, _, s => ⟨(Going.refl s).final, by simp [HttpIO.readHeaderLoop]⟩
  | f + 1, nl, h, s => by
    unfold HttpIO.readHeaderLoop
    have h1 := readLineOpt cfg false (nl && opt) s
    generalize hq : HttpIO.readLineOpt cfg false (nl && opt) s = q at h1
    obtain ⟨r, s1⟩ := q
    cases r with
    | error e => exact ⟨h1, by simp⟩
    | ok l =>
      cases l with
      | nil => exact ⟨h1, fun ho _ _ => readLineOpt_ok hq (.inl (by simp [ho]))⟩
      | cons c l =>
        have g := readLineOpt_ok hq (.inr (by simp))
        simp only
        split
        · exact ⟨h1, by simp⟩
        · split
          · split
            · exact ⟨h1, by simp⟩
            · obtain ⟨a, b⟩ := readHeaderLoop cfg opt f false _ s1
              exact ⟨g.trans_final a, fun ho x hx => g.trans (b ho x hx)⟩
          · obtain ⟨a, b⟩ := readHeaderLoop cfg opt f false _ s1
            exact ⟨g.trans_final a, fun ho x hx => g.trans (b ho x hx)⟩

theorem readHeader (cfg : Cfg) (opt : Bool) (h : HttpHeader.Fields) (s : Conn) : Final s (HttpIO.readHeader cfg opt h s).2 := (readHeaderLoop cfg opt _ _ h s).1

theorem readHeader_ok {cfg : Cfg} {h x : HttpHeader.Fields} {s s' : Conn} (g : HttpIO.readHeader cfg false h s = (.ok x, s')) : Going s s' := by
  have := (readHeaderLoop cfg false (s.data.length + 1) true h s).2 rfl x
  unfold HttpIO.readHeader at g
  rw [g] at this
  exact this rfl

theorem readChunkSize (cfg : Cfg) (s : Conn) : Final s (HttpIO.readChunkSize cfg s).2 ∧ (∀ n, (HttpIO.readChunkSize cfg s).1 = .ok n → Going s (HttpIO.readChunkSize cfg s).2) := by
  unfold HttpIO.readChunkSize HttpIO.readLine
  have h1 := readLineOpt cfg false false s
  generalize hq : HttpIO.readLineOpt cfg false false s = q at h1
  obtain ⟨r, s1⟩ := q
  cases r with
  | error e => exact ⟨h1, by simp⟩
  | ok l =>
    have g := readLineOpt_ok hq (.inl rfl)
    simp only
    split
    · exact ⟨h1, by simp⟩
    · split
      · exact ⟨h1, by simp⟩
      · exact ⟨h1, fun _ _ => g⟩

theorem readChunkedLoop (cfg : Cfg) : ∀ (f : Nat) (h : HttpHeader.Fields) (s : Conn), Final s (HttpIO.readChunkedLoop cfg f h s).2
  | 0, _, s => (Going.refl s).final
  | f + 1, h, s => by
    unfold HttpIO.readChunkedLoop
    obtain ⟨h1, h2⟩ := readChunkSize cfg s
    generalize hq : HttpIO.readChunkSize cfg s = q at h1 h2
    obtain ⟨r, s1⟩ := q
    cases r with
    | error e => exact h1
    | ok n =>
      have g := h2 n rfl
      cases n with
      | zero => exact g.trans_final (readHeader cfg true h s1)
      | succ n =>
        simp only
        split
        · exact h1
        · obtain ⟨k1, k2⟩ := readBlock cfg (n + 1) s1
          generalize hb : HttpIO.readBlock cfg (n + 1) s1 = q at k1 k2
          obtain ⟨r, s2⟩ := q
          cases r with
          | error e => exact g.trans_final k1
          | ok u =>
            have k := k2 rfl
            unfold HttpIO.readLine
            simp only
            have l1 := readLineOpt cfg false false s2
            generalize hl : HttpIO.readLineOpt cfg false false s2 = q at l1
            obtain ⟨r, s3⟩ := q
            cases r with
            | error e => exact g.trans_final (k.trans_final l1)
            | ok l =>
              have l2 := readLineOpt_ok hl (.inl rfl)
              cases l with
              | nil => exact g.trans_final (k.trans_final (l2.trans_final (readChunkedLoop cfg f h s3)))
              | cons c l => exact g.trans_final (k.trans_final l1)

theorem readContent (cfg : Cfg) (request : Bool) (h : HttpHeader.Fields) (s : Conn) : Final s (HttpIO.readContent cfg request h s).2 := by
  have me := (Going.refl s).final
  unfold HttpIO.readContent
  simp only
  split
  · split
    · exact me
    · split
      · exact me
      · split
        · exact me
        · next n _ _ _ =>
          have := (readBlock cfg n.toNat s).1
          generalize HttpIO.readBlock cfg n.toNat s = q at this
          obtain ⟨r, s1⟩ := q
          cases r <;> exact this
  · split
    · split
      · exact readChunkedLoop cfg _ h s
      · exact me
    · split
      · exact me
      · have := (readBlockLoop cfg (s.data.length + 1) none s).1
        unfold HttpIO.readToEnd
        generalize HttpIO.readBlockLoop cfg (s.data.length + 1) none s = q at this
        obtain ⟨r, s1⟩ := q
        cases r <;> exact this

theorem statusLine (cfg : Cfg) : ∀ (f : Nat) (s : Conn), Final s (HttpServer.statusLine cfg f s).2 ∧ (∀ b, (HttpServer.statusLine cfg f s).1 = .ok b → Going s (HttpServer.statusLine cfg f s).2)
  | 0, s => ⟨(Going.refl s).final, by simp [HttpServer.statusLine]⟩
  | f + 1, s => by
    unfold HttpServer.statusLine HttpIO.readLine
    have h1 := readLineOpt cfg true false s
    generalize hq : HttpIO.readLineOpt cfg true false s = q at h1
    obtain ⟨r, s1⟩ := q
    cases r with
    | error e => exact ⟨h1, by simp⟩
    | ok l =>
      have g := readLineOpt_ok hq (.inl rfl)
      cases l with
      | nil =>
        obtain ⟨a, b⟩ := statusLine cfg f s1
        exact ⟨g.trans_final a, fun x hx => g.trans (b x hx)⟩
      | cons c l =>
        simp only
        split
        · exact ⟨h1, by simp⟩
        · split
          · exact ⟨h1, by simp⟩
          · split
            · exact ⟨h1, by simp⟩
            · exact ⟨h1, fun _ _ => g⟩
        · exact ⟨h1, by simp⟩

theorem readAnswer (limits : Int × Int) (feed finish : HttpServer.Kind → List Bytes → Option Err) (keepAlive http11 : Bool) (h : HttpHeader.Fields) (s : Conn) :
    Final s (HttpServer.readAnswer limits feed finish keepAlive http11 h s).2 := by
  unfold HttpServer.readAnswer
  simp only
  split
  · exact (Going.refl s).final
  · next kind _ =>
    have := readContent ⟨limits.1, limits.2, feed kind⟩ false h s
    generalize HttpIO.readContent ⟨limits.1, limits.2, feed kind⟩ false h s = q at this
    obtain ⟨r, s1⟩ := q
    cases r with
    | error e => exact this
    | ok x =>
      simp only
      split <;> exact this

theorem readResponse (limits : Int × Int) (feed finish : HttpServer.Kind → List Bytes → Option Err) (keepAlive : Bool) (s : Conn) :
    Final s (HttpServer.readResponse limits feed finish keepAlive s).2 := by
  have z : Going s { s with out := [] } := Going.same rfl rfl
  refine z.trans_final ?_
  unfold HttpServer.readResponse
  simp only
  obtain ⟨h1, h2⟩ := statusLine ⟨limits.1, limits.2, fun _ => none⟩ (s.data.length + 1) { s with out := [] }
  generalize HttpServer.statusLine ⟨limits.1, limits.2, fun _ => none⟩ (s.data.length + 1) { s with out := [] } = q at h1 h2
  obtain ⟨r, s1⟩ := q
  cases r with
  | error e => exact h1
  | ok b =>
    have g := h2 b rfl
    simp only
    have k1 := readHeader ⟨limits.1, limits.2, fun _ => none⟩ false [] s1
    generalize hh : HttpIO.readHeader ⟨limits.1, limits.2, fun _ => none⟩ false [] s1 = q at k1
    obtain ⟨r, s2⟩ := q
    cases r with
    | error e => exact g.trans_final k1
    | ok x => exact g.trans_final ((readHeader_ok hh).trans_final (readAnswer ..))

theorem readBody (env : Env) (srv : Srv) (line : Bytes × Bytes × Bool) (h : HttpHeader.Fields) (s : Conn) : Final s (HttpServer.readBody env srv line h s).2.2 := by
  unfold HttpServer.readBody
  simp only
  split
  · split <;> exact (Going.refl s).final
  · split
    · exact (Going.refl s).final
    · next kind _ =>
      have := readContent (srvCfg (env.feed kind line.2.1)) true h s
      generalize HttpIO.readContent (srvCfg (env.feed kind line.2.1)) true h s = q at this
      obtain ⟨r, s1⟩ := q
      cases r with
      | error e => exact this
      | ok x =>
        simp only
        split <;> exact this

theorem readRequest (env : Env) (srv : Srv) (s : Conn) : Final s (HttpServer.readRequest env srv s).2.2 := by
  have z : Going s { s with out := [] } := Going.same rfl rfl
  refine z.trans_final ?_
  unfold HttpServer.readRequest
  simp only
  have h1 := readLineOpt (srvCfg (fun _ => none)) true true { s with out := [] }
  generalize hq : HttpIO.readLineOpt (srvCfg (fun _ => none)) true true { s with out := [] } = q at h1
  obtain ⟨r, s1⟩ := q
  cases r with
  | error e => exact h1
  | ok l =>
    cases l with
    | nil => exact h1
    | cons c l =>
      have g := readLineOpt_ok hq (.inr (by simp))
      simp only
      split
      · exact h1
      · have k1 := readHeader (srvCfg (fun _ => none)) false [] s1
        generalize hh : HttpIO.readHeader (srvCfg (fun _ => none)) false [] s1 = q at k1
        obtain ⟨r, s2⟩ := q
        cases r with
        | error e => exact g.trans_final k1
        | ok x => exact g.trans_final ((readHeader_ok hh).trans_final (readBody ..))

/-! ## Sending -/

/-- Sending that has not ended: every wait took some bytes or none. -/
def Sending (w w' : Wire) : Prop :=
  ∃ used, w.sched = used ++ w'.sched ∧ used.length + w.sent.length ≤ w'.sent.length + used.countP (fun e => e.act = .zero) ∧ (∀ e ∈ used, e.act = .zero ∨ ∃ k, e.act = .sent k)

/-- The same when the last wait may have come to anything. -/
def Ended (w w' : Wire) : Prop :=
  ∃ used, w.sched = used ++ w'.sched ∧ used.length + w.sent.length ≤ w'.sent.length + used.countP (fun e => e.act = .zero) + 1 ∧
    (∀ e ∈ used.dropLast, e.act = .zero ∨ ∃ k, e.act = .sent k)

theorem Sending.ended {w w' : Wire} (h : Sending w w') : Ended w w' := by
  obtain ⟨u, h1, h2, h3⟩ := h
  exact ⟨u, h1, by omega, fun e he => h3 e (List.dropLast_subset _ he)⟩

theorem Sending.refl (w : Wire) : Sending w w := ⟨[], rfl, by simp, by simp⟩

theorem Sending.trans {w w1 w2 : Wire} (h : Sending w w1) (g : Sending w1 w2) : Sending w w2 := by
  obtain ⟨u, h1, h2, h3⟩ := h
  obtain ⟨v, g1, g2, g3⟩ := g
  refine ⟨u ++ v, by rw [h1, g1, List.append_assoc], by rw [List.length_append, List.countP_append]; omega, ?_⟩
  intro e he
  rcases List.mem_append.1 he with he | he
  · exact h3 e he
  · exact g3 e he

theorem Sending.trans_ended {w w1 w2 : Wire} (h : Sending w w1) (g : Ended w1 w2) : Ended w w2 := by
  obtain ⟨u, h1, h2, h3⟩ := h
  obtain ⟨v, g1, g2, g3⟩ := g
  refine ⟨u ++ v, by rw [h1, g1, List.append_assoc], by rw [List.length_append, List.countP_append]; omega, ?_⟩
  intro e he
  by_cases c : v = []
  · subst c
    rw [List.append_nil] at he
    exact h3 e (List.dropLast_subset _ he)
  · rw [List.dropLast_append_of_ne_nil c] at he
    rcases List.mem_append.1 he with he | he
    · exact h3 e he
    · exact g3 e he

theorem Ended.one {w : Wire} {e : SEv} {sched : List SEv} (h : w.sched = e :: sched) : Ended w { w with sched := sched } :=
  ⟨[e], h, by simp; omega, by simp⟩

theorem sendLoop (watch : Bool) : ∀ (f : Nat) (data : Bytes) (w : Wire), data ≠ [] →
    Ended w (HttpOut.sendLoop watch f data w).2 ∧ ((HttpOut.sendLoop watch f data w).1 = .ok () → Sending w (HttpOut.sendLoop watch f data w).2)
  | 0, _, w, _ => ⟨(Sending.refl w).ended, by simp [HttpOut.sendLoop]⟩
  | f + 1, data, w, hd => by
    have hpos : 0 < data.length := List.length_pos_iff.2 hd
    unfold HttpOut.sendLoop
    cases hs : w.sched with
    | nil =>
      simp only
      have st : ∀ p : Bytes, Sending w ⟨[], w.sent ++ p⟩ := fun p => ⟨[], by simp [hs], by simp, by simp⟩
      split
      · have := st (data.take BUFF)
        exact ⟨this.ended, fun _ => this⟩
      · next hne =>
        obtain ⟨a, b⟩ := sendLoop watch f (data.drop (data.take BUFF).length) ⟨[], w.sent ++ data.take BUFF⟩ hne
        exact ⟨(st _).trans_ended a, fun h => (st _).trans (b h)⟩
    | cons e sched =>
      simp only
      have one := Ended.one hs
      cases ha : e.act with
      | timeout => exact ⟨one, by simp⟩
      | fail => cases hw : (watch && e.input) <;> simp [one]
      | epipe => cases watch <;> simp [one]
      | zero =>
        have st : Sending w { w with sched := sched } := ⟨[e], hs, by simp [ha]; omega, by simp [ha]⟩
        cases hw : (watch && e.input) with
        | true => simp [one]
        | false =>
          simp only [Bool.false_eq_true, if_false]
          obtain ⟨a, b⟩ := sendLoop watch f data { w with sched := sched } hd
          exact ⟨st.trans_ended a, fun h => st.trans (b h)⟩
      | sent k =>
        cases hw : (watch && e.input) with
        | true => simp [one]
        | false =>
          simp only [Bool.false_eq_true, if_false]
          have hp : 0 < (data.take (min (k + 1) BUFF)).length := by
            rw [List.length_take]; unfold BUFF; omega
          have st : Sending w ⟨sched, w.sent ++ data.take (min (k + 1) BUFF)⟩ :=
            ⟨[e], hs, by rw [List.length_append]; simp only [List.length_cons, List.length_nil]; omega, by simp [ha]⟩
          split
          · exact ⟨st.ended, fun _ => st⟩
          · next hne =>
            obtain ⟨a, b⟩ := sendLoop watch f _ ⟨sched, w.sent ++ data.take (min (k + 1) BUFF)⟩ hne
            exact ⟨st.trans_ended a, fun h => st.trans (b h)⟩

theorem sendData (watch : Bool) (data : Bytes) (w : Wire) :
    Ended w (HttpOut.sendData watch data w).2 ∧ ((HttpOut.sendData watch data w).1 = .ok () → Sending w (HttpOut.sendData watch data w).2) := by
  unfold HttpOut.sendData
  split
  · exact ⟨(Sending.refl w).ended, fun _ => Sending.refl w⟩
  · next h => exact sendLoop watch _ data w h

theorem sendChunk (c : HttpOut.Conf) (last : Bool) (w : Writer) :
    Ended w.wire (HttpOut.sendChunk c last w).2.wire ∧ ((HttpOut.sendChunk c last w).1 = .ok () → Sending w.wire (HttpOut.sendChunk c last w).2.wire) := by
  unfold HttpOut.sendChunk
  simp only
  generalize headOnce c w ++ hex w.back.length ++ asc "\r\n" ++ w.back ++ (if last then asc "\r\n0\r\n\r\n" else asc "\r\n") = data
  have := sendData c.watch data w.wire
  generalize HttpOut.sendData c.watch data w.wire = q at this
  obtain ⟨r, w'⟩ := q
  cases r with
  | error e => exact ⟨this.1, by simp⟩
  | ok u => exact ⟨this.1, fun _ => this.2 rfl⟩

theorem sendFront (c : HttpOut.Conf) : ∀ (ds : List Bytes) (w : Wire), Ended w (HttpOut.sendFront c ds w).2 ∧ ((HttpOut.sendFront c ds w).1 = .ok () → Sending w (HttpOut.sendFront c ds w).2)
  | [], w => ⟨(Sending.refl w).ended, fun _ => Sending.refl w⟩
  | d :: ds, w => by
    unfold HttpOut.sendFront
    have := sendData c.watch d w
    generalize HttpOut.sendData c.watch d w = q at this
    obtain ⟨r, w'⟩ := q
    cases r with
    | error e => exact ⟨this.1, by simp⟩
    | ok u =>
      obtain ⟨a, b⟩ := sendFront c ds w'
      exact ⟨(this.2 rfl).trans_ended a, fun h => (this.2 rfl).trans (b h)⟩

theorem insertHead_wire (h : Bytes) (w : Writer) : (insertHead h w).wire = w.wire := by
  unfold insertHead; split <;> rfl

theorem sendPlain (c : HttpOut.Conf) (w : Writer) : Ended w.wire (HttpOut.sendPlain c w).2.wire := by
  unfold HttpOut.sendPlain
  simp only
  have := sendFront c (insertHead (headOnce c w) w).front (insertHead (headOnce c w) w).wire
  rw [insertHead_wire] at this ⊢
  generalize HttpOut.sendFront c (insertHead (headOnce c w) w).front w.wire = q at this
  obtain ⟨r, w1⟩ := q
  cases r with
  | error e => exact this.1
  | ok u =>
    simp only
    have g := sendData false (insertHead (headOnce c w) w).back w1
    generalize HttpOut.sendData false (insertHead (headOnce c w) w).back w1 = q at g
    obtain ⟨r, w2⟩ := q
    cases r <;> exact (this.2 rfl).trans_ended g.1

theorem write (c : HttpOut.Conf) (d : Bytes) (w : Writer) :
    Ended w.wire (HttpOut.write c d w).2.wire ∧ ((HttpOut.write c d w).1 = .ok () → Sending w.wire (HttpOut.write c d w).2.wire) := by
  have me := Sending.refl w.wire
  unfold HttpOut.write
  simp only
  split
  · split
    · have := sendChunk c false { w with total := (w.total + d.length) % 2 ^ 32 }
      generalize HttpOut.sendChunk c false { w with total := (w.total + d.length) % 2 ^ 32 } = q at this
      obtain ⟨r, w1⟩ := q
      cases r with
      | error e => exact ⟨this.1, by simp⟩
      | ok u => exact ⟨this.1, fun _ => this.2 rfl⟩
    · split <;> exact ⟨me.ended, fun _ => me⟩
  · exact ⟨me.ended, fun _ => me⟩

theorem writes (c : HttpOut.Conf) : ∀ (ds : List Bytes) (w : Writer),
    Ended w.wire (HttpOut.writes c ds w).2.wire ∧ ((HttpOut.writes c ds w).1 = .ok () → Sending w.wire (HttpOut.writes c ds w).2.wire)
  | [], w => ⟨(Sending.refl _).ended, fun _ => Sending.refl _⟩
  | d :: ds, w => by
    unfold HttpOut.writes
    have := write c d w
    generalize HttpOut.write c d w = q at this
    obtain ⟨r, w'⟩ := q
    cases r with
    | error e => exact ⟨this.1, by simp⟩
    | ok u =>
      obtain ⟨a, b⟩ := writes c ds w'
      exact ⟨(this.2 rfl).trans_ended a, fun h => (this.2 rfl).trans (b h)⟩

theorem message (c : HttpOut.Conf) (ds : List Bytes) (w : Writer) : Ended w.wire (HttpOut.message c ds w).2.wire := by
  unfold HttpOut.message
  have := writes c ds w
  generalize HttpOut.writes c ds w = q at this
  obtain ⟨r, w'⟩ := q
  cases r with
  | error e => exact this.1
  | ok u =>
    refine (this.2 rfl).trans_ended ?_
    show Ended w'.wire (HttpOut.flush c w').2.wire
    unfold HttpOut.flush
    split
    · exact sendPlain c w'
    · exact (sendChunk c true w').1

end Waits
end Frpc
