import Verif.Props.HttpPeer
import Verif.Proofs.HttpTerm
/-!
# Reading a response under any schedule

What the reader has read when it succeeds, whatever timeouts, failures and segments there are on the way.
-/
namespace Frpc
namespace HttpServer
open HttpIO Spec Spec.Http

/-- What may be left of a response: the end of the last line of a chunked body. -/
def Tail (pre : Bytes) : Prop := pre = [] ∨ pre = [10] ∨ pre = crlf

theorem stripCR_cr (l : Bytes) (h13 : l.getLast? ≠ some 13) : stripCR (l ++ [13]) = l := by
  unfold stripCR
  simp only [List.reverse_append, List.reverse_cons, List.reverse_nil, List.nil_append, List.singleton_append, List.dropWhile_cons]
  simp only [beq_self_eq_true, if_true]
  cases hr : l.reverse with
  | nil => have := congrArg List.reverse hr; simpa using this.symm
  | cons c r =>
    have hl : l = r.reverse ++ [c] := by have := congrArg List.reverse hr; simpa using this
    have hc13 : c ≠ 13 := by rintro rfl; apply h13; rw [hl]; simp
    simp [List.dropWhile_cons, hc13, hl]

theorem split_lf : ∀ (a b x y : Bytes), (10 : UInt8) ∉ a → (10 : UInt8) ∉ b → a ++ 10 :: x = b ++ 10 :: y → a = b ∧ x = y := by
  intro a
  induction a with
  | nil =>
    intro b x y _ hb h
    cases b with
    | nil => simpa using h
    | cons c b => simp at h; simp [← h.1] at hb
  | cons c a ih =>
    intro b x y ha hb h
    cases b with
    | nil => simp at h; simp [h.1] at ha
    | cons d b =>
      simp at h
      obtain ⟨e, e'⟩ := ih b x y (by simp at ha; exact ha.2) (by simp at hb; exact hb.2) h.2
      exact ⟨by rw [h.1, e], e'⟩

theorem readLineOpt_own_lf {cfg : Cfg} {check : Bool} {s s' : Conn} {x l rest lost : Bytes} (h : readLineOpt cfg check false s = (.ok x, s'))
    (hd : s.data ++ lost = l ++ 10 :: rest) (h10 : (10 : UInt8) ∉ l) : x = stripCR l ∧ s'.data ++ lost = rest ∧ s'.out = s.out := by
  obtain ⟨before, r, e1, e2, e3, e4, e5, -⟩ := readLineLoop_sound cfg check _ _ _ _ _ _ h
  rw [e1, List.append_assoc, List.cons_append] at hd
  obtain ⟨rfl, rfl⟩ := split_lf _ _ _ _ e2 h10 hd
  exact ⟨by simpa using e3, by rw [e4], e5⟩

theorem readLineOpt_own {cfg : Cfg} {check : Bool} {s s' : Conn} {x l rest lost : Bytes} (h : readLineOpt cfg check false s = (.ok x, s'))
    (hd : s.data ++ lost = l ++ (crlf ++ rest)) (h10 : (10 : UInt8) ∉ l) (h13 : l.getLast? ≠ some 13) :
    x = l ∧ s'.data ++ lost = rest ∧ s'.out = s.out := by
  have := readLineOpt_own_lf h (l := l ++ [13]) (rest := rest) (by rw [hd]; simp [crlf]) (by simp [h10])
  rwa [stripCR_cr l h13] at this

theorem readHeaderLoop_own (cfg : Cfg) : ∀ (ls : List HLine) (f : Nat) (nl : Bool) (acc fs : List (Bytes × Bytes)) (h : HttpHeader.Fields) (s s' : Conn) (rest lost : Bytes),
    s.data ++ lost = blockText ls ++ rest → (∀ l ∈ ls, l.Ok) → collectFields acc ls = some fs →
    readHeaderLoop cfg false f nl (stored acc) s = (.ok h, s') → h = stored fs ∧ s'.data ++ lost = rest ∧ s'.out = s.out := by
  intro ls
  induction ls with
  | nil =>
    intro f nl acc fs h s s' rest lost hd _ hfs hr
    cases f with
    | zero => simp [readHeaderLoop] at hr
    | succ f =>
      unfold readHeaderLoop at hr
      rw [Bool.and_false] at hr
      generalize hq : readLineOpt cfg false false s = q at hr
      obtain ⟨q, s1⟩ := q
      cases q with
      | error e => simp at hr
      | ok x =>
        obtain ⟨rfl, h2, h3⟩ := readLineOpt_own hq (l := []) (rest := rest) (by rw [hd]; simp [blockText]) (by simp) (by simp)
        simp only [Prod.mk.injEq, Except.ok.injEq] at hr
        obtain ⟨rfl, rfl⟩ := hr
        simp only [collectFields, Option.some.injEq] at hfs
        exact ⟨by rw [hfs], h2, h3⟩
  | cons l ls ih =>
    intro f nl acc fs h s s' rest lost hd hok hfs hr
    have hl := hok l (by simp)
    cases f with
    | zero => simp [readHeaderLoop] at hr
    | succ f =>
      unfold readHeaderLoop at hr
      rw [Bool.and_false] at hr
      generalize hq : readLineOpt cfg false false s = q at hr
      obtain ⟨q, s1⟩ := q
      cases q with
      | error e => simp at hr
      | ok x =>
        obtain ⟨rfl, h2, h3⟩ := readLineOpt_own hq (l := l.text) (rest := blockText ls ++ rest) (by rw [hd]; simp [blockText]) hl.1 hl.2.1
        have hne : ∃ a t, l.text = a :: t := by
          cases l with
          | field n v =>
            obtain ⟨-, -, h, -⟩ := hl
            cases n with
            | nil => exact absurd rfl h
            | cons a n => exact ⟨a, n ++ [58] ++ v, by simp [HLine.text]⟩
          | more c t => exact ⟨c, t, rfl⟩
        obtain ⟨a, t, hat⟩ := hne
        obtain ⟨name, value, g1, g2⟩ := line_step l hl acc
        rw [hat] at g1 hr
        simp only [g1] at hr
        rw [← h3]
        rcases g2 with ⟨g2, g3⟩ | ⟨rfl, rfl, g3⟩ | ⟨rfl, acc', g3, g4⟩
        · rw [if_neg g2] at hr
          have : HttpHeader.add (stored acc) name value = stored (acc ++ [(name, value)]) := by simp [HttpHeader.add, stored]
          rw [this] at hr
          simp only [collectFields, g3] at hfs
          exact ih f false _ fs h s1 s' rest lost h2 (fun l hl => hok l (by simp [hl])) hfs hr
        · simp [collectFields, g3] at hfs
        · simp only [collectFields, g3] at hfs
          simp only [if_true, g4] at hr
          exact ih f false _ fs h s1 s' rest lost h2 (fun l hl => hok l (by simp [hl])) hfs hr

/-- The optional line after the last chunk. -/
theorem trailer_whole (cfg : Cfg) (h h' : HttpHeader.Fields) (s s' : Conn) (rest : Bytes) (hd : s.data = crlf ++ rest) (hr : readHeader cfg true h s = (.ok h', s')) :
    h' = h ∧ s'.out = s.out ∧ ∃ pre, Tail pre ∧ s'.data = pre ++ rest := by
  have key : ∀ (f : Nat) (nb : Bool) (s : Conn) (x : Bytes) (s' : Conn), s.data = crlf ++ rest → readLineLoop cfg false true f nb [] s = (.ok x, s') →
      x = [] ∧ s'.out = s.out ∧ ∃ pre, Tail pre ∧ s'.data = pre ++ rest := by
    intro f nb s x s' hd hr
    cases f with
    | zero => simp [readLineLoop] at hr
    | succ f =>
      unfold readLineLoop at hr
      rcases poll_cases s with ⟨a, sc, h1, -, ha⟩ | ⟨sc, h1, -⟩ | ⟨sc, h1, -⟩
      · have ha : 0 < a := by
          rcases ha with h | h
          · exact h
          · rw [hd] at h; simp [crlf] at h
        rw [h1] at hr
        simp only at hr
        have hmin : 0 < min a BUFF := by unfold BUFF; omega
        obtain ⟨m, hm⟩ : ∃ m, min a BUFF = m + 1 := ⟨min a BUFF - 1, by omega⟩
        rw [hm, hd] at hr
        cases m with
        | zero =>
          simp only [crlf, List.cons_append, List.nil_append, Nat.zero_add, List.take_succ_cons, List.take_zero] at hr
          simp only [List.cons_ne_nil, if_false, List.findIdx?_cons, List.findIdx?_nil, beq_iff_eq, Bool.false_and] at hr
          have : ¬ ((13 : UInt8) = 10) := by decide
          simp only [this, if_false, Option.map_none, Bool.false_eq_true, List.length_cons, List.length_nil, Nat.zero_add, List.drop_succ_cons, List.drop_zero] at hr
          -- the second line of the loop
          cases f with
          | zero => simp [readLineLoop] at hr
          | succ f =>
            unfold readLineLoop at hr
            generalize hs2 : ({ data := 10 :: rest, sched := sc, out := s.out } : Conn) = s2 at hr
            have hd2 : s2.data = 10 :: rest := by rw [← hs2]
            have ho2 : s2.out = s.out := by rw [← hs2]
            rcases poll_cases s2 with ⟨b, sc2, h2, -, hb⟩ | ⟨sc2, h2, -⟩ | ⟨sc2, h2, -⟩
            · have hb : 0 < b := by
                rcases hb with h | h
                · exact h
                · rw [hd2] at h; simp at h
              rw [h2] at hr
              simp only at hr
              obtain ⟨m, hm⟩ : ∃ m, min b BUFF = m + 1 := ⟨min b BUFF - 1, by unfold BUFF; omega⟩
              rw [hm, hd2] at hr
              simp only [List.take_succ_cons, List.cons_ne_nil, if_false, List.findIdx?_cons, beq_self_eq_true, if_true, Bool.false_and, Bool.false_eq_true, List.take_zero] at hr
              simp only [Prod.mk.injEq, Except.ok.injEq] at hr
              obtain ⟨rfl, rfl⟩ := hr
              exact ⟨by decide, ho2, [], .inl rfl, by simp⟩
            · rw [h2] at hr
              simp only [if_true, Prod.mk.injEq, Except.ok.injEq] at hr
              obtain ⟨rfl, rfl⟩ := hr
              exact ⟨rfl, ho2, [10], .inr (.inl rfl), by simp [hd2]⟩
            · rw [h2] at hr; simp at hr
        | succ m =>
          simp only [crlf, List.cons_append, List.nil_append, List.take_succ_cons] at hr
          have : ¬ ((13 : UInt8) = 10) := by decide
          simp only [List.cons_ne_nil, if_false, List.findIdx?_cons, beq_iff_eq, this, beq_self_eq_true, if_true, Option.map_some, Bool.false_and, Bool.false_eq_true] at hr
          simp only [Prod.mk.injEq, Except.ok.injEq] at hr
          obtain ⟨rfl, rfl⟩ := hr
          exact ⟨by rw [Nat.zero_add, List.take_succ_cons, List.take_zero]; decide, rfl, [], .inl rfl, by simp⟩
      · rw [h1] at hr
        simp only [if_true, Prod.mk.injEq, Except.ok.injEq] at hr
        obtain ⟨rfl, rfl⟩ := hr
        exact ⟨rfl, rfl, crlf, .inr (.inr rfl), hd⟩
      · rw [h1] at hr; simp at hr
  unfold readHeader readHeaderLoop at hr
  generalize hq : readLineOpt cfg false (true && true) s = q at hr
  obtain ⟨q, s1⟩ := q
  cases q with
  | error e => simp at hr
  | ok x =>
    obtain ⟨rfl, h2, h3⟩ := key _ _ _ _ _ hd hq
    simp only [Prod.mk.injEq, Except.ok.injEq] at hr
    obtain ⟨rfl, rfl⟩ := hr
    exact ⟨rfl, h2, h3⟩

theorem crlf_split {d lost rest : Bytes} (h : d ++ lost = crlf ++ rest) :
    (d = [] ∧ lost = crlf ++ rest) ∨ (d = [13] ∧ lost = 10 :: rest) ∨ ∃ d', d = crlf ++ d' ∧ d' ++ lost = rest := by
  cases d with
  | nil => exact .inl ⟨rfl, h⟩
  | cons a d =>
    simp only [crlf, List.cons_append, List.nil_append, List.cons.injEq] at h
    obtain ⟨rfl, h⟩ := h
    cases d with
    | nil => exact .inr (.inl ⟨rfl, h⟩)
    | cons b d =>
      simp only [List.cons_append, List.cons.injEq] at h
      obtain ⟨rfl, h⟩ := h
      exact .inr (.inr ⟨d, rfl, h⟩)

/-- The same when the connection may end within it. -/
theorem trailer_own (cfg : Cfg) (h h' : HttpHeader.Fields) (s s' : Conn) (rest lost : Bytes) (hd : s.data ++ lost = crlf ++ rest) (hr : readHeader cfg true h s = (.ok h', s')) :
    h' = h ∧ s'.out = s.out ∧ ∃ pre, Tail pre ∧ s'.data ++ lost = pre ++ rest := by
  have key0 : ∀ (f : Nat) (nb : Bool) (line : Bytes) (s : Conn) (x : Bytes) (s' : Conn), s.data = [] → readLineLoop cfg false true f nb line s = (.ok x, s') →
      x = [] ∧ s'.out = s.out ∧ s'.data = [] := by
    intro f nb line s x s' hd hr
    cases f with
    | zero => simp [readLineLoop] at hr
    | succ f =>
      unfold readLineLoop at hr
      rcases poll_cases s with ⟨a, sc, h1, -, -⟩ | ⟨sc, h1, -⟩ | ⟨sc, h1, -⟩
      · rw [h1] at hr
        simp only [hd, List.take_nil, if_true] at hr
        split at hr
        · simp only [Prod.mk.injEq, Except.ok.injEq] at hr
          obtain ⟨rfl, rfl⟩ := hr
          exact ⟨rfl, rfl, rfl⟩
        · simp at hr
      · rw [h1] at hr
        simp only [if_true, Prod.mk.injEq, Except.ok.injEq] at hr
        obtain ⟨rfl, rfl⟩ := hr
        exact ⟨rfl, rfl, hd⟩
      · rw [h1] at hr; simp at hr
  have key1 : ∀ (f : Nat) (nb : Bool) (s : Conn) (x : Bytes) (s' : Conn), s.data = [13] → readLineLoop cfg false true f nb [] s = (.ok x, s') →
      x = [] ∧ s'.out = s.out ∧ (s'.data = [13] ∨ s'.data = []) := by
    intro f nb s x s' hd hr
    cases f with
    | zero => simp [readLineLoop] at hr
    | succ f =>
      unfold readLineLoop at hr
      rcases poll_cases s with ⟨a, sc, h1, -, ha⟩ | ⟨sc, h1, -⟩ | ⟨sc, h1, -⟩
      · have ha : 0 < a := by
          rcases ha with h | h
          · exact h
          · rw [hd] at h; simp at h
        rw [h1] at hr
        simp only at hr
        obtain ⟨m, hm⟩ : ∃ m, min a BUFF = m + 1 := ⟨min a BUFF - 1, by unfold BUFF; omega⟩
        rw [hm, hd] at hr
        have : ¬ ((13 : UInt8) = 10) := by decide
        simp only [List.take_succ_cons, List.take_nil, List.cons_ne_nil, if_false, List.findIdx?_cons, List.findIdx?_nil, beq_iff_eq, this, Option.map_none, Bool.false_and,
          Bool.false_eq_true, List.length_cons, List.length_nil, Nat.zero_add, List.drop_succ_cons, List.drop_zero] at hr
        obtain ⟨g1, g2, g3⟩ := key0 _ _ _ _ _ _ rfl hr
        exact ⟨g1, g2, .inr g3⟩
      · rw [h1] at hr
        simp only [if_true, Prod.mk.injEq, Except.ok.injEq] at hr
        obtain ⟨rfl, rfl⟩ := hr
        exact ⟨rfl, rfl, .inl hd⟩
      · rw [h1] at hr; simp at hr
  rcases crlf_split hd with ⟨h0, rfl⟩ | ⟨h0, rfl⟩ | ⟨d', h0, rfl⟩
  · unfold readHeader readHeaderLoop at hr
    generalize hq : readLineOpt cfg false (true && true) s = q at hr
    obtain ⟨q, s1⟩ := q
    cases q with
    | error e => simp at hr
    | ok x =>
      obtain ⟨rfl, h2, h3⟩ := key0 _ _ _ _ _ _ h0 hq
      simp only [Prod.mk.injEq, Except.ok.injEq] at hr
      obtain ⟨rfl, rfl⟩ := hr
      exact ⟨rfl, h2, crlf, .inr (.inr rfl), by rw [h3]; rfl⟩
  · unfold readHeader readHeaderLoop at hr
    generalize hq : readLineOpt cfg false (true && true) s = q at hr
    obtain ⟨q, s1⟩ := q
    cases q with
    | error e => simp at hr
    | ok x =>
      obtain ⟨rfl, h2, h3⟩ := key1 _ _ _ _ _ h0 hq
      simp only [Prod.mk.injEq, Except.ok.injEq] at hr
      obtain ⟨rfl, rfl⟩ := hr
      refine ⟨rfl, h2, ?_⟩
      rcases h3 with h3 | h3
      · exact ⟨crlf, .inr (.inr rfl), by rw [h3]; rfl⟩
      · exact ⟨[10], .inr (.inl rfl), by rw [h3]; rfl⟩
  · obtain ⟨g1, g2, pre, g3, g4⟩ := trailer_whole cfg h h' s s' d' h0 hr
    exact ⟨g1, g2, pre, g3, by rw [g4, List.append_assoc]⟩

theorem readChunkedLoop_own (cfg : Cfg) (rest lost : Bytes) : ∀ (ps : List Bytes) (f : Nat) (h h' : HttpHeader.Fields) (s s' : Conn),
    s.data ++ lost = chunked ps ++ rest → (∀ p ∈ ps, p ≠ [] ∧ p.length < 2 ^ 63) → readChunkedLoop cfg f h s = (.ok h', s') →
    h' = h ∧ s'.out.flatten = s.out.flatten ++ ps.flatten ∧ ∃ pre, Tail pre ∧ s'.data ++ lost = pre ++ rest := by
  intro ps
  induction ps with
  | nil =>
    intro f h h' s s' hd _ hr
    cases f with
    | zero => simp [readChunkedLoop] at hr
    | succ f =>
      unfold readChunkedLoop readChunkSize readLine at hr
      generalize hq : readLineOpt cfg false false s = q at hr
      obtain ⟨q, s1⟩ := q
      cases q with
      | error e => simp at hr
      | ok x =>
        obtain ⟨rfl, h2, h3⟩ := readLineOpt_own hq (l := [48]) (rest := crlf ++ rest) (by rw [hd]; simp [chunked]) (by decide) (by decide)
        have : readLong 16 [48] = some 0 := by decide +kernel
        simp only [this] at hr
        obtain ⟨g1, g2, g3⟩ := trailer_own cfg h h' s1 s' rest lost h2 (by simpa using hr)
        exact ⟨g1, by rw [g2, h3]; simp, g3⟩
  | cons p ps ih =>
    intro f h h' s s' hd hp hr
    obtain ⟨hpne, hpl⟩ := hp p (by simp)
    have hp0 : 0 < p.length := List.length_pos_iff.2 hpne
    cases f with
    | zero => simp [readChunkedLoop] at hr
    | succ f =>
      unfold readChunkedLoop readChunkSize readLine at hr
      generalize hq : readLineOpt cfg false false s = q at hr
      obtain ⟨q, s1⟩ := q
      cases q with
      | error e => simp at hr
      | ok x =>
        obtain ⟨rfl, h2, h3⟩ := readLineOpt_own hq (l := hex p.length) (rest := p ++ crlf ++ chunked ps ++ rest)
          (by rw [hd]; simp [chunked]) (hex_line _).1 (hex_line _).2
        simp only [readLong_hex hpl] at hr
        rw [if_neg (by omega)] at hr
        obtain ⟨m, hm⟩ : ∃ m, ((p.length : Int)).toNat = m + 1 := ⟨p.length - 1, by omega⟩
        have hm' : m + 1 = p.length := by omega
        rw [hm] at hr
        simp only at hr
        rw [hm'] at hr
        split at hr
        · simp at hr
        · generalize hb : readBlock cfg p.length s1 = b at hr
          obtain ⟨b, s2⟩ := b
          cases b with
          | error e => simp at hr
          | ok u =>
            obtain ⟨p', e1, e2, e3⟩ := readBlock_sound hb
            rw [e1, List.append_assoc, List.append_assoc, List.append_assoc] at h2
            obtain ⟨rfl, e4⟩ := List.append_inj h2 e2
            simp only at hr
            generalize hl : readLineOpt cfg false false s2 = q2 at hr
            obtain ⟨q2, s3⟩ := q2
            cases q2 with
            | error e => simp at hr
            | ok y =>
              obtain ⟨rfl, h5, h6⟩ := readLineOpt_own hl (l := []) (rest := chunked ps ++ rest) (by rw [e4]; simp) (by simp) (by simp)
              simp only at hr
              obtain ⟨g1, g2, g3⟩ := ih f h h' s3 s' h5 (fun q hq => hp q (by simp [hq])) hr
              refine ⟨g1, ?_, g3⟩
              rw [g2, h6, e3, h3]
              simp

theorem readContent_own (cfg : Cfg) (request : Bool) (fs : List (Bytes × Bytes)) (data body rest lost : Bytes) (hbody : Framed fs data body)
    (hlen : data.length < 2 ^ 63) (h' : HttpHeader.Fields) (s s' : Conn) (hd : s.data ++ lost = body ++ rest) (hr : readContent cfg request (stored fs) s = (.ok h', s')) :
    h' = stored fs ∧ s'.out.flatten = s.out.flatten ++ data ∧ ∃ pre, Tail pre ∧ s'.data ++ lost = pre ++ rest := by
  unfold readContent at hr
  simp only [get_stored] at hr
  rcases hbody with ⟨h1, rfl⟩ | ⟨h1, ⟨v, h2, hv⟩, ps, rfl, h3, h4⟩
  · rw [field] at h1
    simp only [h1, readLong_dec hlen] at hr
    rw [if_neg (by omega)] at hr
    have ht : ((body.length : Int)).toNat = body.length := by omega
    rw [ht] at hr
    split at hr
    · simp at hr
    · generalize hb : readBlock cfg body.length s = b at hr
      obtain ⟨b, s2⟩ := b
      cases b with
      | error e => simp at hr
      | ok u =>
        obtain ⟨p', e1, e2, e3⟩ := readBlock_sound hb
        rw [e1, List.append_assoc] at hd
        obtain ⟨rfl, e4⟩ := List.append_inj hd e2
        simp only [Prod.mk.injEq, Except.ok.injEq] at hr
        obtain ⟨rfl, rfl⟩ := hr
        exact ⟨rfl, e3, [], .inl rfl, e4⟩
  · rw [field] at h1 h2
    simp only [h1, h2] at hr
    have hv' : v.map toUpper = asc "CHUNKED" := by
      have : v.map toUpper = (lower v).map toUpper := by simp [lower, toUpper_toLower]
      rw [this, hv]; decide +kernel
    rw [if_pos hv'] at hr
    have hl : ∀ p ∈ ps, p ≠ [] ∧ p.length < 2 ^ 63 := by
      intro p hp
      refine ⟨h3 p hp, ?_⟩
      have : p.length ≤ ps.flatten.length := by
        obtain ⟨a, b, rfl⟩ := List.append_of_mem hp
        simp only [List.flatten_append, List.flatten_cons, List.length_append]; omega
      rw [h4] at this
      omega
    have := readChunkedLoop_own cfg rest lost ps _ _ _ s s' hd hl hr
    rwa [h4] at this

/-- The status line, after empty lines. -/
theorem statusLine_own (cfg : Cfg) (http11 : Bool) (n : Nat) (hn : n < 2 ^ 31) (reason : Bytes) (hr : reason ≠ []) (h10 : (10 : UInt8) ∉ reason)
    (h13 : reason.getLast? ≠ some 13) (after lost : Bytes) : ∀ (blank f : Nat) (pre : Bytes) (s s' : Conn) (v : Bool), Tail pre →
    s.data ++ lost = pre ++ ((List.replicate blank crlf).flatten ++ (versionText http11 ++ asc " " ++ dec n ++ asc " " ++ reason ++ crlf ++ after)) →
    statusLine cfg f s = (.ok v, s') → n = 200 ∧ v = http11 ∧ s'.data ++ lost = after ∧ s'.out = s.out := by
  have hsp : asc " " = [32] := by decide +kernel
  have h32 : isSpace 32 = true := by decide
  have hv := version_word http11
  -- no empty lines
  have base : ∀ (f : Nat) (s s' : Conn) (v : Bool), s.data ++ lost = versionText http11 ++ asc " " ++ dec n ++ asc " " ++ reason ++ crlf ++ after →
      statusLine cfg f s = (.ok v, s') → n = 200 ∧ v = http11 ∧ s'.data ++ lost = after ∧ s'.out = s.out := by
    intro f s s' v hd h
    cases f with
    | zero => simp [statusLine] at h
    | succ f =>
      rw [statusLine] at h
      unfold readLine at h
      generalize hq : readLineOpt cfg true false s = q at h
      obtain ⟨q, s1⟩ := q
      cases q with
      | error e => simp at h
      | ok x =>
        obtain ⟨hx, h2, h3⟩ := readLineOpt_own hq (l := versionText http11 ++ 32 :: (dec n ++ 32 :: reason)) (rest := after)
          (by rw [hd, hsp]; simp)
          (by have := word_lf hv; have := word_lf (dec_word n); simp_all)
          (by
            have e : versionText http11 ++ 32 :: (dec n ++ 32 :: reason) = (versionText http11 ++ 32 :: (dec n ++ [32])) ++ reason := by simp
            rw [e, List.getLast?_append]
            cases hl : reason.getLast? with
            | none => exact absurd (List.getLast?_eq_none_iff.1 hl) hr
            | some x => rw [hl] at h13; simpa using h13)
        split at h
        · next heq => simp at heq
        · next heq => simp only [Prod.mk.injEq, Except.ok.injEq] at heq; rw [hx] at heq; simp at heq
        · next line s2 heq =>
          simp only [Prod.mk.injEq, Except.ok.injEq] at heq
          obtain ⟨rfl, rfl⟩ := heq
          rw [hx, splitBySpace_eq _ 2 (by omega), words_word hv.1 hv.2 h32, words_word (dec_word n).1 (dec_word n).2 h32] at h
          have : words 0 reason = [reason] := by simp [words, hr]
          rw [this] at h
          simp only [readInt_dec hn] at h
          have hd' : ¬ asc "HTTP/1.0" = asc "HTTP/1.1" := by decide +kernel
          by_cases h2' : n = 200
          · subst h2'
            refine ⟨rfl, ?_⟩
            cases http11 <;> simp [versionText, hd'] at h <;> (obtain ⟨rfl, rfl⟩ := h; exact ⟨rfl, h2, h3⟩)
          · have : (n : Int) ≠ 200 := by omega
            cases http11 <;> simp [versionText, this] at h
  -- empty lines
  have lines : ∀ (blank f : Nat) (s s' : Conn) (v : Bool),
      s.data ++ lost = (List.replicate blank crlf).flatten ++ (versionText http11 ++ asc " " ++ dec n ++ asc " " ++ reason ++ crlf ++ after) →
      statusLine cfg f s = (.ok v, s') → n = 200 ∧ v = http11 ∧ s'.data ++ lost = after ∧ s'.out = s.out := by
    intro blank
    induction blank with
    | zero => intro f s s' v hd h; exact base f s s' v (by simpa using hd) h
    | succ b ih =>
      intro f s s' v hd h
      cases f with
      | zero => simp [statusLine] at h
      | succ f =>
        rw [statusLine] at h
        unfold readLine at h
        generalize hq : readLineOpt cfg true false s = q at h
        obtain ⟨q, s1⟩ := q
        cases q with
        | error e => simp at h
        | ok x =>
          obtain ⟨rfl, h2, h3⟩ := readLineOpt_own hq (l := []) (rest := _) (by rw [hd, List.replicate_succ, List.flatten_cons, List.append_assoc]; rfl) (by simp) (by simp)
          simp only at h
          rw [← h3]
          exact ih f s1 s' v h2 h
  intro blank f pre s s' v hpre hd h
  rcases hpre with rfl | rfl | rfl
  · exact lines blank f s s' v (by simpa using hd) h
  · cases f with
    | zero => simp [statusLine] at h
    | succ f =>
      rw [statusLine] at h
      unfold readLine at h
      generalize hq : readLineOpt cfg true false s = q at h
      obtain ⟨q, s1⟩ := q
      cases q with
      | error e => simp at h
      | ok x =>
        obtain ⟨hx, h2, h3⟩ := readLineOpt_own_lf hq (l := []) (rest := _) hd (by simp)
        have : stripCR [] = [] := rfl
        rw [this] at hx
        subst hx
        simp only at h
        rw [← h3]
        exact lines blank f s1 s' v h2 h
  · exact lines (blank + 1) f s s' v (by rw [hd, List.replicate_succ, List.flatten_cons, ← List.append_assoc, ← List.append_assoc]) h

/-- A response read with success, whatever the schedule and wherever the connection ends (`lost` is what never comes), is the one that was sent; at most the end of its last
line is left. -/
theorem readResponse_cut (limits : Int × Int) (feed finish : HttpServer.Kind → List Bytes → Option Err) (keepAlive : Bool) (blank : Nat) (http11 : Bool)
    (n : Nat) (hn : n < 2 ^ 31)
    (reason : Bytes) (hr : reason ≠ []) (h10 : (10 : UInt8) ∉ reason) (h13 : reason.getLast? ≠ some 13) (ls : List HLine) (hls : ∀ l ∈ ls, l.Ok)
    (fs : List (Bytes × Bytes)) (hfs : collectFields [] ls = some fs) (data body rest lost : Bytes) (hbody : Framed fs data body) (hlen : data.length < 2 ^ 63)
    (pre : Bytes) (hpre : Tail pre) (s s' : Conn) (hd : s.data ++ lost = pre ++ (responseText blank http11 (dec n) reason ls ++ (body ++ rest))) (r : Response)
    (h : readResponse limits feed finish keepAlive s = (.ok r, s')) :
    n = 200 ∧ ResponseIn ((field (asc "Content-Type") fs).getD []) r.kind ∧ r.body.flatten = data ∧ (∃ pre', Tail pre' ∧ s'.data ++ lost = pre' ++ rest) ∧
      (r.close = false ↔ keepAlive = true ∧ Persists http11 (field (asc "Connection") fs)) ∧
      r.accepts = (field (asc "Accept") fs).map (fun a => (hasSub (asc "text/xml") a, hasSub (asc "application/x-frpc") a)) := by
  unfold readResponse at h
  simp only at h
  generalize hq : statusLine ⟨limits.1, limits.2, fun _ => none⟩ (s.data.length + 1) { s with out := [] } = q at h
  obtain ⟨q, s1⟩ := q
  cases q with
  | error e => simp at h
  | ok v =>
    obtain ⟨rfl, rfl, h2, h3⟩ := statusLine_own _ http11 n hn reason hr h10 h13 (blockText ls ++ (body ++ rest)) lost blank _ pre _ s1 v hpre
      (by simp only; rw [hd]; unfold responseText; simp) hq
    simp only at h
    generalize hq2 : readHeader ⟨limits.1, limits.2, fun _ => none⟩ false [] s1 = q2 at h
    obtain ⟨q2, s2⟩ := q2
    cases q2 with
    | error e => simp at h
    | ok hh =>
      obtain ⟨rfl, h4, h5⟩ := readHeaderLoop_own _ ls _ true [] fs hh s1 s2 (body ++ rest) lost h2 hls hfs hq2
      simp only [readAnswer, getOr_stored, get_stored] at h
      split at h
      · simp at h
      · next kind hkind =>
        generalize hq3 : readContent ⟨limits.1, limits.2, feed kind⟩ false (stored fs) s2 = q3 at h
        obtain ⟨q3, s3⟩ := q3
        cases q3 with
        | error e => simp at h
        | ok h' =>
          obtain ⟨rfl, h6, h7⟩ := readContent_own _ false fs data body rest lost hbody hlen h' s2 s3 h4 hq3
          simp only at h
          split at h
          · simp at h
          · simp only [Prod.mk.injEq, Except.ok.injEq] at h
            obtain ⟨rfl, rfl⟩ := h
            refine ⟨rfl, ?_, ?_, h7, ?_, rfl⟩
            · split at hkind
              · next hx => cases hkind; exact (hasSub_iff _ _).1 hx
              · next hx =>
                split at hkind
                · next hy =>
                  cases hkind
                  exact ⟨(hasSub_iff _ _).1 hy, fun hc => hx ((hasSub_iff _ _).2 hc)⟩
                · cases hkind
            · rw [h6, h5, h3]; simp
            · simp only [Bool.or_eq_false_iff, mustClose_iff, getOr_stored]; simp

/-- The same with nothing lost. -/
theorem readResponse_own (limits : Int × Int) (feed finish : HttpServer.Kind → List Bytes → Option Err) (keepAlive : Bool) (blank : Nat) (http11 : Bool)
    (n : Nat) (hn : n < 2 ^ 31)
    (reason : Bytes) (hr : reason ≠ []) (h10 : (10 : UInt8) ∉ reason) (h13 : reason.getLast? ≠ some 13) (ls : List HLine) (hls : ∀ l ∈ ls, l.Ok)
    (fs : List (Bytes × Bytes)) (hfs : collectFields [] ls = some fs) (data body rest : Bytes) (hbody : Framed fs data body) (hlen : data.length < 2 ^ 63)
    (pre : Bytes) (hpre : Tail pre) (s s' : Conn) (hd : s.data = pre ++ (responseText blank http11 (dec n) reason ls ++ (body ++ rest))) (r : Response)
    (h : readResponse limits feed finish keepAlive s = (.ok r, s')) :
    n = 200 ∧ ResponseIn ((field (asc "Content-Type") fs).getD []) r.kind ∧ r.body.flatten = data ∧ (∃ pre', Tail pre' ∧ s'.data = pre' ++ rest) ∧
      (r.close = false ↔ keepAlive = true ∧ Persists http11 (field (asc "Connection") fs)) ∧
      r.accepts = (field (asc "Accept") fs).map (fun a => (hasSub (asc "text/xml") a, hasSub (asc "application/x-frpc") a)) := by
  have := readResponse_cut limits feed finish keepAlive blank http11 n hn reason hr h10 h13 ls hls fs hfs data body rest [] hbody hlen pre hpre s s'
    (by rw [List.append_nil]; exact hd) r h
  simpa only [List.append_nil] using this

end HttpServer
end Frpc
