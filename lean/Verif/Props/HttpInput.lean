import Verif.Proofs.HttpBlock
/-!
# HTTP input: C43, C44, C45, C58, C61

`Conn` is a peer: the bytes it sends before closing, and how `poll` and `recv` will cut them
(`Calm`: no timeout and no system error among the events).
-/
namespace Frpc
open Spec HttpIO

/-! ## C44 -/

/-- C44: whatever the segmentation and the timeouts, a line that is returned is what precedes the
first LF without trailing CRs, exactly the bytes up to the LF are consumed, and with the limit on
it is not over the limit. -/
theorem C44_line_sound (cfg : Cfg) (check : Bool) (s s' : Conn) (l : Bytes) (h : readLine cfg check s = (.ok l, s')) :
    ∃ before rest, s.data = before ++ 10 :: rest ∧ (10 : UInt8) ∉ before ∧ IsLine before l ∧ s'.data = rest ∧ s'.out = s.out ∧
      (check = true → 0 ≤ cfg.lineLimit → (before.length + 1 : Int) ≤ cfg.lineLimit) := by
  obtain ⟨before, rest, h1, h2, h3, h4, h5, h6⟩ := readLineLoop_sound cfg check _ _ _ _ _ _ h
  refine ⟨before, rest, h1, h2, ?_, h4, h5, ?_⟩
  · rw [h3]; exact stripCR_isLine _
  · intro hc h0
    rw [hc] at h6
    have := over_false h0 (by simpa using h6)
    omega

/-- The specification of a line determines it. -/
theorem C44_line_unique {before l l' : Bytes} (h : IsLine before l) (h' : IsLine before l') : l = l' := isLine_unique h h'

/-- C44: however a stream with a line feed is cut, without timeouts the line is read, unless the
limit is on and the line with its LF is longer: then the line is refused. -/
theorem C44_line_segmentation (cfg : Cfg) (check : Bool) (s : Conn) (before rest : Bytes) (hc : Calm s.sched)
    (hd : s.data = before ++ 10 :: rest) (hb : (10 : UInt8) ∉ before) :
    (¬ (check = true ∧ 0 ≤ cfg.lineLimit ∧ (before.length + 1 : Int) > cfg.lineLimit) →
      ∃ l s', readLine cfg check s = (.ok l, s') ∧ IsLine before l ∧ s'.data = rest) ∧
    ((check = true ∧ 0 ≤ cfg.lineLimit ∧ (before.length + 1 : Int) > cfg.lineLimit) →
      ∃ s', readLine cfg check s = (.error .lineTooLong, s')) := by
  have hov : (check && over cfg.lineLimit (0 + before.length + 1)) = true ↔
      (check = true ∧ 0 ≤ cfg.lineLimit ∧ (before.length + 1 : Int) > cfg.lineLimit) := by
    simp only [over, Bool.and_eq_true, decide_eq_true_eq]
    constructor <;> rintro ⟨a, b, c⟩ <;> exact ⟨a, b, by omega⟩
  rcases readLineLoop_found cfg check false (s.data.length + 1) true [] s before rest hc hd hb (by rw [hd]; simp; omega) with
    ⟨sc, -, h2, h3⟩ | ⟨h1, s', -, h3⟩
  · refine ⟨fun _ => ⟨_, _, h3, by simpa using stripCR_isLine before, rfl⟩, fun h => ?_⟩
    have h4 := hov.2 h
    simp only [List.length_nil] at h2
    rw [h2] at h4; cases h4
  · refine ⟨fun h => absurd (hov.1 h1) h, fun _ => ⟨s', h3⟩⟩

/-- C44: a stream that ends without a line feed is an error, whichever the segmentation: too long
if the limit is on and exceeded, else closed by the peer. -/
theorem C44_line_missing (cfg : Cfg) (check : Bool) (s : Conn) (hc : Calm s.sched) (hd : (10 : UInt8) ∉ s.data) :
    (readLine cfg check s).1 = .error
      (if s.data ≠ [] ∧ check = true ∧ 0 ≤ cfg.lineLimit ∧ (s.data.length : Int) > cfg.lineLimit then .lineTooLong else .closed) := by
  have := readLineLoop_missing cfg check (s.data.length + 1) true [] s hc hd (by omega)
  unfold readLine readLineOpt
  rw [this]
  simp [over]

example : ∃ s', readLine ⟨100, -1, fun _ => none⟩ true ⟨asc "GET / HTTP/1.1\r\r\nrest", [.bytes 2, .bytes 0, .bytes 40], []⟩ =
    (.ok (asc "GET / HTTP/1.1"), s') ∧ s'.data = asc "rest" := ⟨_, rfl, by decide +kernel⟩
example : Calm [.bytes 2, .bytes 0, .bytes 40] := by simp [Calm]

/-! ## C45 -/

/-- C45: whatever the segmentation, the timeouts and the sink, reading a body of `n` bytes consumes
and delivers at most `n`, in order; success means exactly `n`. -/
theorem C45_block_sound (cfg : Cfg) (n : Nat) (s s' : Conn) (r : Except HErr Unit) (h : readBlock cfg n s = (r, s')) :
    ∃ ps k, s'.out = s.out ++ ps ∧ k ≤ n ∧ s'.data = s.data.drop k ∧ ps.flatten <+: s.data.take k ∧
      (r = .ok () → k = n ∧ n ≤ s.data.length ∧ ps.flatten = s.data.take n) := by
  unfold readBlock at h
  split at h
  · next hn =>
    simp only [Prod.mk.injEq] at h
    obtain ⟨rfl, rfl⟩ := h
    subst hn
    exact ⟨[], 0, by simp, by omega, by simp, by simp, fun _ => ⟨rfl, by omega, by simp⟩⟩
  · next hn =>
    split at h
    · simp only [Prod.mk.injEq] at h
      obtain ⟨rfl, rfl⟩ := h
      exact ⟨[], 0, by simp, by omega, by simp, by simp, by simp⟩
    · exact readBlockLoop_bound cfg _ n s r s' (by omega) h

/-- C45: however the stream is cut, without timeouts and with a consumer that takes the data, a body
within the limit that is there is read, and one that is cut short is an error. -/
theorem C45_block_segmentation (cfg : Cfg) (hsink : ∀ l, cfg.sink l = none) (n : Nat) (s : Conn) (hc : Calm s.sched)
    (hfit : cfg.bodyLimit < 0 ∨ ((s.out.flatten.length + n : Nat) : Int) ≤ cfg.bodyLimit ∧ cfg.bodyLimit < 2 ^ 31) :
    (n ≤ s.data.length → ∃ ps s', readBlock cfg n s = (.ok (), s') ∧ s'.out = s.out ++ ps ∧ ps.flatten = s.data.take n ∧ s'.data = s.data.drop n) ∧
    (s.data.length < n → ∃ s', readBlock cfg n s = (.error .closed, s')) := by
  have hf : Fits cfg (s.out.flatten.length + n) := hfit
  unfold readBlock
  by_cases hn : n = 0
  · subst hn
    refine ⟨fun _ => ⟨[], s, by simp⟩, fun h => by omega⟩
  · rw [if_neg hn, if_neg (by rw [hf.not_over (by omega)]; decide)]
    constructor
    · intro h
      obtain ⟨ps, sc, -, h2, -, h3⟩ := readBlockLoop_found cfg _ (fun _ => True) (fun _ _ => trivial) (fun l _ _ => hsink l) (s.data.length + 1) n s (by omega) hc h (by omega) hf (List.prefix_refl _) (fun _ _ => trivial)
      exact ⟨ps, _, h3, rfl, h2, rfl⟩
    · intro h
      obtain ⟨ps, sc, -, h3⟩ := readBlockLoop_closed cfg hsink (s.data.length + 1) n s hc h (by omega) hf
      exact ⟨_, h3⟩

example : ∃ s', readBlock ⟨-1, 5, fun _ => none⟩ 5 ⟨asc "hello world", [.bytes 0, .bytes 1], []⟩ = (.ok (), s') ∧
    s'.out = [asc "h", asc "el", asc "lo"] ∧ s'.data = asc " world" := ⟨_, rfl, by decide +kernel⟩

/-! ## C43 -/

/-- C43 (framing by `Content-Length` or chunked): whatever the peer sends, however it is cut, and
whatever the header says, no more than the limit is given to the unmarshaller. Missing: bodies that
end with the connection, see `C43_body_limit_violated`. -/
theorem C43_body_limit_partial (cfg : Cfg) (request : Bool) (h : HttpHeader.Fields) (s : Conn) (h0 : 0 ≤ cfg.bodyLimit) (h31 : cfg.bodyLimit < 2 ^ 31)
    (hout : s.out = [])
    (hframe : request = true ∨ HttpHeader.get h (asc "Content-Length") 0 ≠ none ∨ HttpHeader.get h (asc "Transfer-Encoding") 0 ≠ none) :
    ((readContent cfg request h s).2.out.flatten.length : Int) ≤ cfg.bodyLimit := by
  have hz : (s.out.flatten.length : Int) ≤ cfg.bodyLimit := by rw [hout]; simpa using h0
  unfold readContent
  simp only
  split
  · split
    · exact hz
    · split
      · exact hz
      · next n _ hn =>
        split
        · exact hz
        · next hov =>
          have hov := over_false h0 (by simpa using hov)
          have hb := readBlock_out cfg n.toNat s
          split
          · next heq => rw [heq] at hb; simp only [hout, List.flatten_nil, List.length_nil] at hb ⊢; omega
          · next heq => rw [heq] at hb; simp only [hout, List.flatten_nil, List.length_nil] at hb ⊢; omega
  · next hcl =>
    split
    · split
      · exact readChunkedLoop_bound cfg h0 h31 _ h s hz
      · exact hz
    · next hte =>
      rw [hcl, hte] at hframe
      simp only [ne_eq, not_true, or_false] at hframe
      rw [if_pos hframe]
      exact hz

/-- C43, every framing: the overshoot is less than one read buffer (64 KiB). -/
theorem C43_body_limit_buffer_partial (cfg : Cfg) (request : Bool) (h : HttpHeader.Fields) (s : Conn) (h0 : 0 ≤ cfg.bodyLimit) (h31 : cfg.bodyLimit < 2 ^ 31)
    (hout : s.out = []) :
    ((readContent cfg request h s).2.out.flatten.length : Int) ≤ cfg.bodyLimit + 65536 := by
  by_cases hf : request = true ∨ HttpHeader.get h (asc "Content-Length") 0 ≠ none ∨ HttpHeader.get h (asc "Transfer-Encoding") 0 ≠ none
  · have := C43_body_limit_partial cfg request h s h0 h31 hout hf
    omega
  · simp only [not_or, ne_eq, Classical.not_not] at hf
    obtain ⟨h1, h2, h3⟩ := hf
    unfold readContent
    simp only [h2, h3, h1]
    have hz : (s.out.flatten.length : Int) ≤ cfg.bodyLimit + BUFF := by rw [hout]; simp [BUFF]; omega
    have hb := readBlockLoop_end_bound cfg h0 h31 (s.data.length + 1) s hz
    have hB : (BUFF : Int) = 65536 := rfl
    rw [hB] at hb
    unfold readToEnd
    simp only [Bool.false_eq_true, if_false]
    split
    · next heq => rw [heq] at hb; exact hb
    · next heq => rw [heq] at hb; exact hb

/-- C43 is false as stated: a response whose body ends with the connection delivers more than the
limit (the limit is compared with what was written before the piece at hand). -/
theorem C43_body_limit_violated : ∃ (cfg : Cfg) (s : Conn), cfg.bodyLimit = 1 ∧ s.out = [] ∧ Calm s.sched ∧
    (readContent cfg false [] s).2.out.flatten.length = 3 := by
  refine ⟨⟨-1, 1, fun _ => none⟩, ⟨[1, 2, 3], [], []⟩, rfl, rfl, by simp [Calm], by decide +kernel⟩

example : (readContent ⟨-1, 4, fun _ => none⟩ false [(asc "Transfer-Encoding", asc "chunked")] ⟨asc "3\r\nabc\r\n2\r\nde\r\n0\r\n\r\n", [], []⟩).1 =
    .error .bodyTooLong := by decide +kernel

/-! ## C41, reading -/

/-- C41, the reader: chunked data, however it is cut, is read back as the concatenation of the
chunks, and nothing after it is consumed. -/
theorem C41_chunked_read (cfg : Cfg) (hsink : ∀ l, cfg.sink l = none) (ps : List Bytes) (h : HttpHeader.Fields) (s : Conn) (rest : Bytes)
    (hc : Calm s.sched) (hd : s.data = chunked ps ++ rest) (hp : ∀ p ∈ ps, p ≠ [] ∧ p.length < 2 ^ 63) (hout : s.out = [])
    (hfit : cfg.bodyLimit < 0 ∨ (ps.flatten.length : Int) ≤ cfg.bodyLimit ∧ cfg.bodyLimit < 2 ^ 31) :
    ∃ s', readChunkedContent cfg h s = (.ok h, s') ∧ s'.out.flatten = ps.flatten ∧ s'.data = rest := by
  obtain ⟨qs, sc, -, h2, -, h3⟩ := readChunked_found cfg _ (fun _ => True) (fun _ _ => trivial) (fun l _ _ => hsink l) ps h s rest hc hd hp (by
    rw [hout]; simpa [Fits] using hfit) (List.prefix_refl _) (fun _ _ => trivial)
  exact ⟨_, h3, by simp [hout, h2], rfl⟩

example : (readChunkedContent ⟨-1, -1, fun _ => none⟩ [] ⟨chunked [asc "abc", asc "de"] ++ [7], [.bytes 0, .bytes 3], []⟩).2.out.flatten = asc "abcde" := by
  decide +kernel

/-! ## C58 -/

/-- C58, for `n` of at least 2 as all callers have it: the maximal runs of non-white characters, of
which the last of `n` is the unsplit rest; nothing outside the line is read. Missing: `n = 1`. -/
theorem C58_split_partial (line : Bytes) (n : Nat) (hn : 2 ≤ n) : splitBySpace line n = .ok (words (n - 1) line) := by
  obtain ⟨m, rfl⟩ : ∃ m, n = m + 1 := ⟨n - 1, by omega⟩
  exact splitBySpace_eq line m (by omega)

/-- C58: without a bound (`upto` 0) all the words are returned. -/
theorem C58_split_all (line : Bytes) (hl : line.length < 2 ^ 64) : splitBySpace line 0 = .ok (words line.length line) := by
  rw [splitBySpace_zero, words_saturate_le (n := line.length) (Nat.le_refl _) (by omega)]

/-- C58: never more than `n` parts. -/
theorem C58_split_count (line : Bytes) (n : Nat) (hn : 2 ≤ n) (ws : List Bytes) (h : splitBySpace line n = .ok ws) : ws.length ≤ n := by
  rw [C58_split_partial line n hn] at h
  cases h
  have key : ∀ (m : Nat) (s : Bytes), (words m s).length ≤ m + 1 := by
    intro m
    induction m with
    | zero => intro s; unfold words; split <;> simp
    | succ m ih =>
      intro s
      rw [words]
      split
      · simp
      · simp only [List.length_cons]
        have := ih ((((s.dropWhile isSpace)).dropWhile (fun c => !isSpace c)).drop 1)
        omega
  have := key (n - 1) line
  omega

/-- C58 is false for `n = 1`: the rest is split nevertheless. -/
theorem C58_split_violated : splitBySpace (asc "a b c") 1 = .ok [asc "a", asc "b", asc "c"] := by decide +kernel

example : splitBySpace (asc "POST /RPC2 HTTP/1.1 x ") 3 = .ok [asc "POST", asc "/RPC2", asc "HTTP/1.1 x "] := by decide +kernel
example : words 2 (asc "POST /RPC2 HTTP/1.1 x ") = [asc "POST", asc "/RPC2", asc "HTTP/1.1 x "] := by decide +kernel

/-! ## C61 -/

/-- C61: a field line gives the name before the first colon and the value trimmed of white space at
both ends and only there. -/
theorem C61_field_line (name value : Bytes) (h0 : ∀ c, name.head? = some c → isSpace c = false) (hn : (58 : UInt8) ∉ name) :
    ∃ v a b, getHeaderValue (name ++ [58] ++ value) = some (name, v) ∧ value = a ++ v ++ b ∧
      (∀ c ∈ a, isSpace c = true) ∧ (∀ c ∈ b, isSpace c = true) ∧
      (∀ c, v.head? = some c → isSpace c = false) ∧ (∀ c, v.getLast? = some c → isSpace c = false) := by
  obtain ⟨a, b, h1, h2, h3, h4, h5⟩ := trim_spec value
  refine ⟨trim value, a, b, ?_, h1, h2, h3, h4, h5⟩
  have := getHeaderValue_field (value := value) h0 hn
  simpa using this

/-- C61: a line that is neither a field nor a continuation is refused. -/
theorem C61_bad_line (line : Bytes) (h : ∀ c, line.head? = some c → isSpace c = false) (hn : (58 : UInt8) ∉ line) :
    getHeaderValue line = none := getHeaderValue_bad h hn

/-- C61: a header block, however it is cut, yields its fields with continuation lines appended to
the previous value; the body after it is not touched. A block that begins with a continuation line
is refused. -/
theorem C61_header_block (cfg : Cfg) (ls : List HLine) (s : Conn) (rest : Bytes) (hc : Calm s.sched)
    (hd : s.data = blockText ls ++ rest) (hok : ∀ l ∈ ls, l.Ok) :
    (∀ fs, collectFields [] ls = some fs → ∃ h s', readHeader cfg false [] s = (.ok h, s') ∧ s'.data = rest ∧
      ∀ name i, HttpHeader.get h name i = (fieldValues name fs)[i]?) ∧
    (collectFields [] ls = none → ∃ s', readHeader cfg false [] s = (.error .value, s')) := by
  obtain ⟨h1, h2⟩ := readHeader_found cfg false ls [] s rest hc hd hok
  refine ⟨fun fs hfs => ?_, h2⟩
  obtain ⟨sc, -, h3⟩ := h1 fs hfs
  exact ⟨_, _, h3, rfl, fun name i => get_stored name fs i⟩

/-- C61: only a block that begins with a continuation line has no fields. -/
theorem C61_block_defined (l : HLine) (ls : List HLine) : collectFields [] (l :: ls) = none ↔ ∃ c t, l = .more c t := by
  have key : ∀ (ls : List HLine) (acc : List (Bytes × Bytes)), acc ≠ [] → collectFields acc ls ≠ none := by
    intro ls
    induction ls with
    | nil => intro acc _; simp [collectFields]
    | cons l ls ih =>
      intro acc hne
      unfold collectFields
      cases l with
      | field n v => exact ih _ (by simp)
      | more c t =>
        simp only [addLine]
        cases hl : acc.getLast? with
        | none => exact absurd (List.getLast?_eq_none_iff.1 hl) hne
        | some f => exact ih _ (by simp)
  cases l with
  | field n v =>
    simp only [collectFields, addLine, reduceCtorEq, exists_false, iff_false]
    exact key ls _ (by simp)
  | more c t => simp [collectFields, addLine]

example : collectFields [] [.field (asc "Host") (asc "  h:80 "), .field (asc "X-a") (asc "1"), .more 9 (asc " 2")] =
    some [(asc "Host", asc "h:80"), (asc "X-a", asc "1 2")] := by decide +kernel
example : (HLine.field (asc "Host") (asc "  h:80 ")).Ok := by
  refine ⟨by decide +kernel, by decide +kernel, by decide +kernel, ?_, by decide +kernel⟩
  intro c hc; simp [asc] at hc; subst hc; decide

end Frpc
