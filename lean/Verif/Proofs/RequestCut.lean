import Verif.Props.HttpMessages
import Verif.Proofs.HttpReply
/-!
# Requests and responses over any network

What is read of a message when the schedule of the socket is arbitrary and the connection may end anywhere (`lost` is what never comes).
-/
namespace Frpc
namespace HttpServer
open HttpIO HttpOut Spec Spec.Http

/-! ## What never changes -/

/-- An exception that the sink did not throw. -/
def NotSink (e : HErr) : Prop := ∀ x, e ≠ .sink x

theorem readLineLoop_plain (cfg : Cfg) (check optional : Bool) : ∀ (f : Nat) (nb : Bool) (line : Bytes) (s : Conn),
    (readLineLoop cfg check optional f nb line s).2.out = s.out ∧ ∀ e, (readLineLoop cfg check optional f nb line s).1 = .error e → NotSink e := by
  intro f
  induction f with
  | zero => intro nb line s; exact ⟨rfl, fun e h => by cases h; intro x hx; cases hx⟩
  | succ f ih =>
    intro nb line s
    unfold readLineLoop
    rcases poll_cases s with ⟨a, sc, h1, -, -⟩ | ⟨sc, h1, -⟩ | ⟨sc, h1, -⟩
    · rw [h1]
      simp only
      split
      · split
        · exact ⟨rfl, fun e h => by cases h⟩
        · exact ⟨rfl, fun e h => by cases h; intro x hx; cases hx⟩
      · split
        · split
          · exact ⟨rfl, fun e h => by cases h; intro x hx; cases hx⟩
          · exact ⟨rfl, fun e h => by cases h⟩
        · split
          · exact ⟨rfl, fun e h => by cases h; intro x hx; cases hx⟩
          · exact ih _ _ _
    · rw [h1]
      simp only
      split
      · exact ⟨rfl, fun e h => by cases h⟩
      · exact ⟨rfl, fun e h => by cases h; intro x hx; cases hx⟩
    · rw [h1]
      exact ⟨rfl, fun e h => by cases h; intro x hx; cases hx⟩

theorem readLineOpt_plain (cfg : Cfg) (check optional : Bool) (s : Conn) :
    (readLineOpt cfg check optional s).2.out = s.out ∧ ∀ e, (readLineOpt cfg check optional s).1 = .error e → NotSink e := readLineLoop_plain cfg check optional _ _ _ s

theorem readHeaderLoop_plain (cfg : Cfg) (optional : Bool) : ∀ (f : Nat) (nl : Bool) (h : HttpHeader.Fields) (s : Conn),
    (readHeaderLoop cfg optional f nl h s).2.out = s.out ∧ ∀ e, (readHeaderLoop cfg optional f nl h s).1 = .error e → NotSink e := by
  intro f
  induction f with
  | zero => intro nl h s; exact ⟨rfl, fun e h => by cases h; intro x hx; cases hx⟩
  | succ f ih =>
    intro nl h s
    unfold readHeaderLoop
    obtain ⟨h1, h2⟩ := readLineOpt_plain cfg false (nl && optional) s
    generalize readLineOpt cfg false (nl && optional) s = q at h1 h2
    obtain ⟨q, s1⟩ := q
    simp only at h1 h2
    cases q with
    | error e => exact ⟨h1, fun e' h => by cases h; exact h2 e rfl⟩
    | ok line =>
      cases line with
      | nil => exact ⟨h1, fun e h => by cases h⟩
      | cons a line =>
        simp only
        split
        · exact ⟨h1, fun e h => by cases h; intro x hx; cases hx⟩
        · split
          · split
            · exact ⟨h1, fun e h => by cases h; intro x hx; cases hx⟩
            · obtain ⟨g1, g2⟩ := ih false _ s1
              exact ⟨by rw [g1, h1], g2⟩
          · obtain ⟨g1, g2⟩ := ih false (HttpHeader.add h _ _) s1
            exact ⟨by rw [g1, h1], g2⟩

/-! ## The pieces given to the sink are not empty -/

/-- The sink got no empty piece. -/
def NoEmpty (l : List Bytes) : Prop := ∀ p ∈ l, p ≠ []

theorem NoEmpty.snoc {l : List Bytes} {p : Bytes} (h : NoEmpty l) (hp : p ≠ []) : NoEmpty (l ++ [p]) := by
  intro q hq
  rcases List.mem_append.1 hq with hq | hq
  · exact h q hq
  · rw [List.mem_singleton.1 hq]; exact hp

theorem readBlockLoop_ne (cfg : Cfg) : ∀ (f : Nat) (len : Option Nat) (s : Conn), NoEmpty s.out → NoEmpty (readBlockLoop cfg f len s).2.out := by
  intro f
  induction f with
  | zero => intro len s h; exact h
  | succ f ih =>
    intro len s h
    unfold readBlockLoop
    rcases poll_cases s with ⟨a, sc, h1, -, -⟩ | ⟨sc, h1, -⟩ | ⟨sc, h1, -⟩
    · rw [h1]
      have rest : ∀ (toRead : Nat) (len' : Option Nat), ¬ List.take (min a toRead) s.data = [] →
          NoEmpty (if over cfg.bodyLimit ({ data := s.data.drop (List.take (min a toRead) s.data).length, sched := sc, out := s.out } : Conn).written = true then
              ((.error .bodyTooLong, { data := s.data.drop (List.take (min a toRead) s.data).length, sched := sc, out := s.out }) : Except HErr Unit × Conn)
            else match sinkWrite cfg (List.take (min a toRead) s.data) { data := s.data.drop (List.take (min a toRead) s.data).length, sched := sc, out := s.out } with
              | (.error e, s) => (.error e, s)
              | (.ok _, s) => if len' = some 0 then (.ok (), s) else readBlockLoop cfg f len' s).2.out := by
        intro toRead len' hb
        split
        · exact h
        · unfold sinkWrite
          cases cfg.sink (s.out ++ [List.take (min a toRead) s.data]) with
          | some e => exact h.snoc hb
          | none =>
            simp only
            split
            · exact h.snoc hb
            · exact ih _ _ (h.snoc hb)
      cases len with
      | none =>
        simp only
        by_cases hb : List.take (min a BUFF) s.data = []
        · rw [if_pos hb]; exact h
        · rw [if_neg hb]; exact rest BUFF none hb
      | some n =>
        simp only
        by_cases hb : List.take (min a (if n > BUFF then BUFF else n)) s.data = []
        · rw [if_pos hb]; exact h
        · rw [if_neg hb]; exact rest _ _ hb
    · rw [h1]; exact h
    · rw [h1]; exact h

theorem readBlock_ne (cfg : Cfg) (n : Nat) (s : Conn) (h : NoEmpty s.out) : NoEmpty (readBlock cfg n s).2.out := by
  unfold readBlock
  split
  · exact h
  · split
    · exact h
    · exact readBlockLoop_ne cfg _ _ s h

theorem readChunkedLoop_ne (cfg : Cfg) : ∀ (f : Nat) (h : HttpHeader.Fields) (s : Conn), NoEmpty s.out → NoEmpty (readChunkedLoop cfg f h s).2.out := by
  intro f
  induction f with
  | zero => intro h s hn; exact hn
  | succ f ih =>
    intro h s hn
    unfold readChunkedLoop
    have hsize : (readChunkSize cfg s).2.out = s.out := by
      unfold readChunkSize readLine
      have := (readLineOpt_plain cfg false false s).1
      generalize readLineOpt cfg false false s = q at this
      obtain ⟨q, s1⟩ := q
      cases q with
      | error e => exact this
      | ok line =>
        simp only
        split
        · exact this
        · split <;> exact this
    generalize readChunkSize cfg s = q at hsize
    obtain ⟨q, s1⟩ := q
    simp only at hsize
    rw [← hsize] at hn
    cases q with
    | error e => exact hn
    | ok n =>
      cases n with
      | zero =>
        show NoEmpty (readHeader cfg true h s1).2.out
        unfold readHeader
        rw [(readHeaderLoop_plain cfg true _ _ _ s1).1]
        exact hn
      | succ n =>
        simp only
        split
        · exact hn
        · have hb := readBlock_ne cfg (n + 1) s1 hn
          generalize readBlock cfg (n + 1) s1 = q at hb
          obtain ⟨q, s2⟩ := q
          cases q with
          | error e => exact hb
          | ok u =>
            simp only
            unfold readLine
            have hl := (readLineOpt_plain cfg false false s2).1
            generalize readLineOpt cfg false false s2 = q at hl
            obtain ⟨q, s3⟩ := q
            simp only at hl hb
            rw [← hl] at hb
            cases q with
            | error e => exact hb
            | ok line =>
              cases line with
              | nil => exact ih h s3 hb
              | cons => exact hb

theorem readContent_ne (cfg : Cfg) (request : Bool) (h : HttpHeader.Fields) (s : Conn) (hn : NoEmpty s.out) : NoEmpty (readContent cfg request h s).2.out := by
  unfold readContent
  simp only
  have keep : ∀ q : Except HErr Unit × Conn, NoEmpty q.2.out →
      NoEmpty ((match q with | (.error e, s) => ((.error e, s) : Except HErr HttpHeader.Fields × Conn) | (.ok _, s) => (.ok h, s))).2.out := by
    intro q hq
    obtain ⟨q, s1⟩ := q
    cases q <;> exact hq
  split
  · split
    · exact hn
    · split
      · exact hn
      · split
        · exact hn
        · exact keep _ (readBlock_ne cfg _ s hn)
  · split
    · split
      · exact readChunkedLoop_ne cfg _ h s hn
      · exact hn
    · split
      · exact hn
      · exact keep _ (readBlockLoop_ne cfg _ _ s hn)

/-! ## The body of a request with its length -/

theorem readBlockLoop_prefix (cfg : Cfg) (D lost : Bytes) (hsink : ∀ l : List Bytes, NoEmpty l → l.flatten <+: D → cfg.sink l = none) :
    ∀ (f n : Nat) (s : Conn) (e : HErr), NoEmpty s.out → s.out.flatten ++ (s.data ++ lost) = D → (readBlockLoop cfg f (some n) s).1 = .error e → NotSink e := by
  intro f
  induction f with
  | zero => intro n s e _ _ h; cases h; intro x hx; cases hx
  | succ f ih =>
    intro n s e hn hd h
    unfold readBlockLoop at h
    rcases poll_cases s with ⟨a, sc, h1, -, -⟩ | ⟨sc, h1, -⟩ | ⟨sc, h1, -⟩
    · rw [h1] at h
      simp only at h
      generalize (if n > BUFF then BUFF else n) = toRead at h
      split at h
      · cases h; intro x hx; cases hx
      · next hb =>
        split at h
        · cases h; intro x hx; cases hx
        · have ht : List.take (min a toRead) s.data ++ List.drop (List.take (min a toRead) s.data).length s.data = s.data := by
            rw [take_length_take]; exact List.take_append_drop _ _
          have hs : cfg.sink (s.out ++ [List.take (min a toRead) s.data]) = none := by
            apply hsink _ (hn.snoc hb)
            refine ⟨List.drop (List.take (min a toRead) s.data).length s.data ++ lost, ?_⟩
            rw [← hd]
            conv => rhs; rw [← ht]
            simp
          unfold sinkWrite at h
          simp only [hs] at h
          split at h
          · cases h
          · refine ih _ _ e ?_ ?_ h
            · exact hn.snoc hb
            · rw [← hd]
              conv => rhs; rw [← ht]
              simp
    · rw [h1] at h; cases h; intro x hx; cases hx
    · rw [h1] at h; cases h; intro x hx; cases hx

/-- Reading a body whose length is announced, cut anywhere: the exceptions are not of the sink. -/
theorem readContent_prefix (cfg : Cfg) (request : Bool) (fs : List (Bytes × Bytes)) (body lost : Bytes) (hl : field (asc "Content-Length") fs = some (dec body.length))
    (hlen : body.length < 2 ^ 63) (hsink : ∀ l : List Bytes, NoEmpty l → l.flatten <+: body → cfg.sink l = none) (s : Conn) (hn : s.out = []) (hd : s.data ++ lost = body)
    (e : HErr) (s' : Conn) (h : readContent cfg request (stored fs) s = (.error e, s')) : NotSink e := by
  unfold readContent at h
  simp only [get_stored] at h
  rw [field] at hl
  simp only [hl, readLong_dec hlen] at h
  rw [if_neg (by omega)] at h
  have ht : ((body.length : Int)).toNat = body.length := by omega
  rw [ht] at h
  split at h
  · cases h; intro x hx; cases hx
  · have key : ∀ e', (readBlock cfg body.length s).1 = .error e' → NotSink e' := by
      intro e' h'
      unfold readBlock at h'
      by_cases h0 : body.length = 0
      · rw [if_pos h0] at h'; cases h'
      · rw [if_neg h0] at h'
        by_cases h1 : over cfg.bodyLimit body.length = true
        · rw [if_pos h1] at h'; cases h'; intro x hx; cases hx
        · rw [if_neg h1] at h'
          exact readBlockLoop_prefix cfg body lost hsink _ _ s e' (by rw [hn]; intro p hp; cases hp) (by rw [hn]; exact hd) h'
    generalize readBlock cfg body.length s = q at h key
    obtain ⟨q, s1⟩ := q
    cases q with
    | error e' => cases h; exact key _ rfl
    | ok u => cases h

/-- Reading a block that is part of a longer text: the sink is given beginnings only. -/
theorem readBlockLoop_within (cfg : Cfg) (D lost : Bytes) (hsink : ∀ l : List Bytes, NoEmpty l → l.flatten <+: D → cfg.sink l = none) :
    ∀ (f n : Nat) (s : Conn) (e : HErr), NoEmpty s.out → s.out.flatten ++ (s.data ++ lost).take n <+: D → (readBlockLoop cfg f (some n) s).1 = .error e → NotSink e := by
  intro f
  induction f with
  | zero => intro n s e _ _ h; cases h; intro x hx; cases hx
  | succ f ih =>
    intro n s e hn hd h
    unfold readBlockLoop at h
    rcases poll_cases s with ⟨a, sc, h1, -, -⟩ | ⟨sc, h1, -⟩ | ⟨sc, h1, -⟩
    · rw [h1] at h
      simp only at h
      generalize hto : (if n > BUFF then BUFF else n) = toRead at h
      have hto : toRead ≤ n := by rw [← hto]; split <;> omega
      split at h
      · cases h; intro x hx; cases hx
      · next hb =>
        split at h
        · cases h; intro x hx; cases hx
        · have ht : List.take (min a toRead) s.data ++ List.drop (List.take (min a toRead) s.data).length s.data = s.data := by
            rw [take_length_take]; exact List.take_append_drop _ _
          have hbl : (List.take (min a toRead) s.data).length ≤ n := by rw [List.length_take]; omega
          generalize List.take (min a toRead) s.data = b at *
          have hall : s.out.flatten ++ (s.data ++ lost).take n = (s.out ++ [b]).flatten ++ (List.drop b.length s.data ++ lost).take (n - b.length) := by
            conv => lhs; rw [← ht]
            rw [List.append_assoc b, List.take_append, List.take_of_length_le hbl]
            simp
          rw [hall] at hd
          have hs : cfg.sink (s.out ++ [b]) = none := hsink _ (hn.snoc hb) (List.IsPrefix.trans (List.prefix_append _ _) hd)
          unfold sinkWrite at h
          simp only [hs] at h
          split at h
          · cases h
          · exact ih _ _ e (hn.snoc hb) hd h
    · rw [h1] at h; cases h; intro x hx; cases hx
    · rw [h1] at h; cases h; intro x hx; cases hx

theorem readBlock_within (cfg : Cfg) (D lost : Bytes) (hsink : ∀ l : List Bytes, NoEmpty l → l.flatten <+: D → cfg.sink l = none) (n : Nat) (s : Conn) (e : HErr) (hn : NoEmpty s.out)
    (hd : s.out.flatten ++ (s.data ++ lost).take n <+: D) (h : (readBlock cfg n s).1 = .error e) : NotSink e := by
  unfold readBlock at h
  by_cases h0 : n = 0
  · rw [if_pos h0] at h; cases h
  · rw [if_neg h0] at h
    by_cases h1 : over cfg.bodyLimit n = true
    · rw [if_pos h1] at h; cases h; intro x hx; cases hx
    · rw [if_neg h1] at h
      exact readBlockLoop_within cfg D lost hsink _ _ s e hn hd h

/-- Reading chunks, cut anywhere: the exceptions are not of the sink. -/
theorem readChunkedLoop_prefix (cfg : Cfg) (D lost : Bytes) (hsink : ∀ l : List Bytes, NoEmpty l → l.flatten <+: D → cfg.sink l = none) :
    ∀ (ps : List Bytes) (f : Nat) (h : HttpHeader.Fields) (s : Conn) (e : HErr), (∀ p ∈ ps, p ≠ [] ∧ p.length < 2 ^ 63) → NoEmpty s.out → s.out.flatten ++ ps.flatten <+: D →
      s.data ++ lost = chunked ps → (readChunkedLoop cfg f h s).1 = .error e → NotSink e := by
  intro ps
  induction ps with
  | nil =>
    intro f h s e _ hn hD hd hr
    cases f with
    | zero => cases hr; intro x hx; cases hx
    | succ f =>
      unfold readChunkedLoop readChunkSize readLine at hr
      have hplain := (readLineOpt_plain cfg false false s).2
      generalize hq : readLineOpt cfg false false s = q at hr hplain
      obtain ⟨q, s1⟩ := q
      cases q with
      | error e' => cases hr; exact hplain _ rfl
      | ok x =>
        obtain ⟨rfl, h2, h3⟩ := readLineOpt_own hq (l := [48]) (rest := crlf) (by rw [hd]; simp [chunked]) (by decide) (by decide)
        have : readLong 16 [48] = some 0 := by decide +kernel
        simp only [this] at hr
        have := (readHeaderLoop_plain cfg true (s1.data.length + 1) true h s1).2
        exact this e (by simpa [readHeader] using hr)
  | cons p ps ih =>
    intro f h s e hp hn hD hd hr
    obtain ⟨hpne, hpl⟩ := hp p (by simp)
    have hp0 : 0 < p.length := List.length_pos_iff.2 hpne
    cases f with
    | zero => cases hr; intro x hx; cases hx
    | succ f =>
      unfold readChunkedLoop readChunkSize readLine at hr
      have hplain := (readLineOpt_plain cfg false false s).2
      generalize hq : readLineOpt cfg false false s = q at hr hplain
      obtain ⟨q, s1⟩ := q
      cases q with
      | error e' => cases hr; exact hplain _ rfl
      | ok x =>
        obtain ⟨rfl, h2, h3⟩ := readLineOpt_own hq (l := hex p.length) (rest := p ++ crlf ++ chunked ps)
          (by rw [hd]; simp [chunked]) (hex_line _).1 (hex_line _).2
        simp only [readLong_hex hpl] at hr
        rw [if_neg (by omega)] at hr
        obtain ⟨m, hm⟩ : ∃ m, ((p.length : Int)).toNat = m + 1 := ⟨p.length - 1, by omega⟩
        have hm' : m + 1 = p.length := by omega
        rw [hm] at hr
        simp only at hr
        rw [hm'] at hr
        split at hr
        · cases hr; intro x hx; cases hx
        · have hblock := readBlock_within cfg D lost hsink p.length s1 (hn := by rw [h3]; exact hn)
          have hne := readBlock_ne cfg p.length s1 (by rw [h3]; exact hn)
          generalize hb : readBlock cfg p.length s1 = b at hr hblock hne
          obtain ⟨b, s2⟩ := b
          cases b with
          | error e' =>
            cases hr
            refine hblock e ?_ rfl
            rw [h3, h2, List.append_assoc, List.take_left]
            refine List.IsPrefix.trans ⟨ps.flatten, ?_⟩ hD
            simp
          | ok u =>
            obtain ⟨p', e1, e2, e3⟩ := readBlock_sound hb
            rw [e1, List.append_assoc, List.append_assoc] at h2
            obtain ⟨rfl, e4⟩ := List.append_inj h2 e2
            simp only at hr
            have hplain := (readLineOpt_plain cfg false false s2).2
            generalize hl : readLineOpt cfg false false s2 = q2 at hr hplain
            obtain ⟨q2, s3⟩ := q2
            cases q2 with
            | error e' => cases hr; exact hplain _ rfl
            | ok y =>
              obtain ⟨rfl, h5, h6⟩ := readLineOpt_own hl (l := []) (rest := chunked ps) (by rw [e4]; simp) (by simp) (by simp)
              simp only at hr
              refine ih f h s3 e (fun q hq => hp q (by simp [hq])) (by rw [h6]; exact hne) ?_ h5 hr
              rw [h6, e3, h3]
              simpa using hD

/-- Reading a body, cut anywhere. -/
theorem readContent_framed (cfg : Cfg) (request : Bool) (fs : List (Bytes × Bytes)) (data body lost : Bytes) (hf : Framed fs data body)
    (hlen : data.length < 2 ^ 63) (hsink : ∀ l : List Bytes, NoEmpty l → l.flatten <+: data → cfg.sink l = none) (s : Conn) (hn : s.out = []) (hd : s.data ++ lost = body)
    (e : HErr) (s' : Conn) (h : readContent cfg request (stored fs) s = (.error e, s')) : NotSink e := by
  rcases hf with ⟨h1, rfl⟩ | ⟨h1, ⟨v, h2, hv⟩, ps, rfl, h3, rfl⟩
  · exact readContent_prefix cfg request fs body lost h1 hlen hsink s hn hd e s' h
  · unfold readContent at h
    simp only [get_stored] at h
    rw [field] at h1 h2
    simp only [h1, h2] at h
    have hv' : v.map toUpper = asc "CHUNKED" := by
      have : v.map toUpper = (lower v).map toUpper := by simp [lower, toUpper_toLower]
      rw [this, hv]; decide +kernel
    rw [if_pos hv'] at h
    have hl : ∀ p ∈ ps, p ≠ [] ∧ p.length < 2 ^ 63 := by
      intro p hp
      refine ⟨h3 p hp, ?_⟩
      have : p.length ≤ ps.flatten.length := by
        obtain ⟨a, b, rfl⟩ := List.append_of_mem hp
        simp only [List.flatten_append, List.flatten_cons, List.length_append]; omega
      omega
    exact readChunkedLoop_prefix cfg _ lost hsink ps _ _ s e hl (by rw [hn]; intro p hp; cases hp) (by rw [hn]; exact List.prefix_refl _) hd (by
      show (readChunkedContent cfg _ s).1 = _
      rw [h])

/-! ## The request -/

theorem readLineLoop_optional (cfg : Cfg) (check : Bool) : ∀ (f : Nat) (nb : Bool) (line : Bytes) (s : Conn) (x : Bytes) (s' : Conn),
    readLineLoop cfg check true f nb line s = (.ok x, s') → x = [] ∨ readLineLoop cfg check false f nb line s = (.ok x, s') := by
  intro f
  induction f with
  | zero => intro nb line s x s' h; cases h
  | succ f ih =>
    intro nb line s x s' h
    unfold readLineLoop at h ⊢
    rcases poll_cases s with ⟨a, sc, h1, -, -⟩ | ⟨sc, h1, -⟩ | ⟨sc, h1, -⟩
    · rw [h1] at h ⊢
      simp only [Bool.and_true, Bool.and_false, Bool.false_eq_true, if_false] at h ⊢
      split at h
      · split at h
        · left; cases h; rfl
        · cases h
      · next hb =>
        rw [if_neg hb]
        split at h
        · right; exact h
        · split at h
          · cases h
          · next hc => rw [if_neg hc]; exact ih _ _ _ _ _ h
    · rw [h1] at h
      simp only [if_true] at h
      left; cases h; rfl
    · rw [h1] at h; cases h

/-- What the server makes of a request that was cut anywhere, whatever the schedule: the request, or an exception for which it sends nothing. -/
def Heard (env : Env) (c : ClientCfg) (body : Bytes) (r : Except ReqErr (Option Request) × Srv × Conn) : Prop :=
  (∃ qs srv s, r = (.ok (some ⟨if c.binary then .binary else .xml, c.path, qs⟩), srv, s) ∧ qs.flatten = body ∧ NoEmpty qs ∧
      srv.outType = (if env.useBinary then .binary else .xml) ∧ srv.close = !c.keepAlive ∧ srv.chunks = (env.useBinary && !c.http10)) ∨
  (∃ e srv s, r = (.error e, srv, s) ∧ e ≠ .stream ∧ ∀ code, e ≠ .http code)

theorem ofHErr_plain {e : HErr} (h : NotSink e) : ofHErr e ≠ .stream ∧ ∀ code, ofHErr e ≠ .http code := by
  cases e with
  | sink x => exact absurd rfl (h x)
  | _ => exact ⟨by simp [ofHErr], by simp [ofHErr]⟩

theorem readRequest_framed (env : Env) (srv : Srv) (c : ClientCfg) (hok : ClientOk c) (total : Nat) (body text lost : Bytes)
    (hplain : c.chunks = false → total = body.length ∧ text = body)
    (hchunks : c.chunks = true → ∃ ps, text = chunked ps ∧ (∀ p ∈ ps, p ≠ []) ∧ ps.flatten = body) (s : Conn)
    (hd : s.data ++ lost = clientHead c total ++ text) (hlen : body.length < 2 ^ 63)
    (hfeed : ∀ l : List Bytes, NoEmpty l → l.flatten <+: body → env.feed (if c.binary then .binary else .xml) c.path l = none)
    (hfinish : ∀ l : List Bytes, NoEmpty l → l.flatten = body → env.finish (if c.binary then .binary else .xml) c.path l = none) :
    Heard env c body (readRequest env srv s) := by
  have hpost : asc "POST " = asc "POST" ++ [32] := by decide +kernel
  have hsp : asc " " = [32] := by decide +kernel
  have hcr : asc "\r\n" = crlf := by decide +kernel
  have hpw : asc "POST" ≠ [] ∧ ∀ x ∈ asc "POST", isSpace x = false := by decide +kernel
  have hvw : (if c.http10 then asc "HTTP/1.0" else asc "HTTP/1.1") ≠ [] ∧ ∀ x ∈ (if c.http10 then asc "HTTP/1.0" else asc "HTTP/1.1"), isSpace x = false := by
    cases c.http10 <;> decide +kernel
  generalize hver : (if c.http10 then asc "HTTP/1.0" else asc "HTTP/1.1") = ver at hvw
  have h32 : isSpace 32 = true := by decide
  have hnl : ∀ l : Bytes, (∀ x ∈ l, isSpace x = false) → (10 : UInt8) ∉ l := by
    intro l h hm; have := h _ hm; revert this; decide
  have hlast : ∀ l : Bytes, (∀ x ∈ l, isSpace x = false) → l.getLast? ≠ some 13 := by
    intro l h hm; have := h _ (List.mem_of_getLast? hm); revert this; decide
  have hline : requestLine (asc "POST" ++ 32 :: (c.path ++ 32 :: ver)) = .ok (asc "POST", c.path, !c.http10) := by
    unfold requestLine
    rw [splitBySpace_eq _ 2 (by omega), words_word hpw.1 hpw.2 h32, words_word hok.path.1 hok.path.2 h32]
    have : words 0 ver = [ver] := by simp [words, hvw.1]
    rw [this, ← hver]
    cases c.http10
    · simp
    · have : asc "HTTP/1.0" ≠ asc "HTTP/1.1" := by decide +kernel
      simp [this]
  have hd' : s.data ++ lost = (asc "POST" ++ 32 :: (c.path ++ 32 :: ver)) ++ (crlf ++ (blockText ((clientFields c total).map asLine) ++ text)) := by
    rw [hd, ← flatMap_headLine]
    unfold clientHead
    rw [hver, hpost, hsp, hcr]
    simp
  have hend : (asc "POST" ++ 32 :: (c.path ++ 32 :: ver)).getLast? ≠ some 13 := by
    have e : asc "POST" ++ 32 :: (c.path ++ 32 :: ver) = (asc "POST" ++ 32 :: (c.path ++ [32])) ++ ver := by simp
    rw [e, List.getLast?_append]
    cases hv : ver.getLast? with
    | none => exact absurd (List.getLast?_eq_none_iff.1 hv) hvw.1
    | some x =>
      have := hlast ver hvw.2
      rw [hv] at this
      simpa using this
  unfold readRequest
  simp only
  generalize hq : readLineOpt (srvCfg (fun _ => none)) true true { s with out := [] } = q
  obtain ⟨q, s1⟩ := q
  have hp := readLineOpt_plain (srvCfg (fun _ => none)) true true { s with out := [] }
  rw [hq] at hp
  obtain ⟨-, hp⟩ := hp
  cases q with
  | error e => exact .inr ⟨_, _, _, rfl, ofHErr_plain (hp e rfl)⟩
  | ok line =>
    cases hx : line with
    | nil => exact .inr ⟨_, _, _, rfl, by simp, by simp⟩
    | cons a l =>
      rw [← hx]
      have h1 : readLineOpt (srvCfg (fun _ => none)) true false { s with out := [] } = (.ok line, s1) := by
        rcases readLineLoop_optional _ _ _ _ _ _ _ _ hq with h | h
        · rw [hx] at h; cases h
        · exact h
      obtain ⟨g1, g2, g3⟩ := readLineOpt_own h1 (lost := lost) hd' (by simp [hnl _ hok.path.2, hnl _ hpw.2, hnl _ hvw.2]) hend
      rw [hx]
      simp only
      rw [← hx, g1, hline]
      simp only
      generalize hq2 : readHeader (srvCfg (fun _ => none)) false [] s1 = q2
      obtain ⟨q2, s2⟩ := q2
      cases q2 with
      | error e =>
        have := (readHeaderLoop_plain (srvCfg (fun _ => none)) false (s1.data.length + 1) true [] s1).2
        unfold readHeader at hq2
        rw [hq2] at this
        exact .inr ⟨_, _, _, rfl, ofHErr_plain (this e rfl)⟩
      | ok h =>
        unfold readHeader at hq2
        obtain ⟨rfl, h4, h5⟩ := readHeaderLoop_own _ ((clientFields c total).map asLine) _ true [] ((clientFields c total).map (fun f => (f.1, trim f.2))) h s1 s2
          text lost g2 (by
            intro l hl
            obtain ⟨f, hf, rfl⟩ := List.mem_map.1 hl
            exact (clientFields_ok hok _ f hf).line) (by rw [collect_asLine]; rfl) hq2
        obtain ⟨f1, f2, f3⟩ := clientFields_first c total
        obtain ⟨f4, f5⟩ := clientFields_body hok total
        unfold first at f1 f2 f3 f4 f5
        have hframed : Framed ((clientFields c total).map (fun f => (f.1, trim f.2))) body text := by
          cases hch : c.chunks with
          | false => exact .inl ⟨by rw [← (hplain hch).1]; exact f4 hch, (hplain hch).2⟩
          | true => exact .inr ⟨(f5 hch).1, ⟨_, (f5 hch).2, by decide +kernel⟩, hchunks hch⟩
        simp only [readBody]
        rw [if_neg (by simp)]
        have hkind : chooseKind (getOr (stored ((clientFields c total).map (fun f => (f.1, trim f.2)))) (asc "Content-Type")) = some (if c.binary then .binary else .xml) := by
          unfold getOr
          rw [get_stored, f1]
          cases c.binary <;> decide +kernel
        have hout : chooseOut env.useBinary (HttpHeader.get (stored ((clientFields c total).map (fun f => (f.1, trim f.2)))) (asc "Accept") 0) =
            (if env.useBinary then .binary else .xml, env.useBinary) := by
          rw [get_stored, f2]
          cases env.useBinary <;> decide +kernel
        rw [hkind, hout]
        simp only
        have hout2 : s2.out = [] := by rw [h5, g3]
        generalize hq3 : readContent (srvCfg (env.feed (if c.binary then .binary else .xml) c.path)) true (stored ((clientFields c total).map (fun f => (f.1, trim f.2)))) s2 = q3
        obtain ⟨q3, s3⟩ := q3
        cases q3 with
        | error e =>
          exact .inr ⟨_, _, _, rfl, ofHErr_plain (readContent_framed _ true _ body text lost hframed hlen (fun l hl hp => hfeed l hl hp) s2 hout2 h4 e s3 hq3)⟩
        | ok h' =>
          obtain ⟨rfl, h6, -⟩ := readContent_own _ true _ body text [] lost hframed hlen h' s2 s3 (by rw [h4, List.append_nil]) hq3
          have hne := readContent_ne (srvCfg (env.feed (if c.binary then .binary else .xml) c.path)) true (stored ((clientFields c total).map (fun f => (f.1, trim f.2)))) s2
            (by rw [hout2]; intro p hp; cases hp)
          rw [hq3] at hne
          rw [hout2, List.flatten_nil, List.nil_append] at h6
          simp only at hne ⊢
          rw [hfinish _ hne h6]
          refine .inl ⟨_, _, _, rfl, h6, hne, rfl, ?_, rfl⟩
          show mustClose (!c.http10) (getOr _ (asc "Connection")) = _
          unfold getOr
          rw [get_stored, f3]
          cases c.http10 <;> cases c.keepAlive <;> decide +kernel

theorem readRequest_cut (env : Env) (srv : Srv) (c : ClientCfg) (hok : ClientOk c) (hch : c.chunks = false) (body lost : Bytes) (s : Conn)
    (hd : s.data ++ lost = clientHead c body.length ++ body) (hlen : body.length < 2 ^ 63)
    (hfeed : ∀ l : List Bytes, NoEmpty l → l.flatten <+: body → env.feed (if c.binary then .binary else .xml) c.path l = none)
    (hfinish : ∀ l : List Bytes, NoEmpty l → l.flatten = body → env.finish (if c.binary then .binary else .xml) c.path l = none) :
    Heard env c body (readRequest env srv s) :=
  readRequest_framed env srv c hok body.length body body lost (fun _ => ⟨rfl, rfl⟩) (fun h => by rw [hch] at h; cases h) s hd hlen hfeed hfinish

end HttpServer
end Frpc
