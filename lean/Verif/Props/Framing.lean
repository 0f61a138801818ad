import Verif.Props.HttpMessages
/-!
# How the extent of a body is found: C144
-/
namespace Frpc
open Spec HttpIO HttpOut HttpServer

/-- Text that begins with a decimal number: white space, a sign, digits, and then anything. -/
def BeginsNumber (v : Bytes) : Prop :=
  ∃ ws sign digits rest, v = ws ++ sign ++ digits ++ rest ∧ (∀ c ∈ ws, isSpace c = true) ∧ sign ∈ [[], [43], [45]] ∧
    digits ≠ [] ∧ ∀ c ∈ digits, isDigit c = true

/-- The text does not go on with a decimal digit. -/
def EndsDigits (s : Bytes) : Prop := ∀ c, s.head? = some c → isDigit c = false

namespace HttpIO

theorem isDigit_of_hexDigit {c : UInt8} {d : Nat} (h : hexDigit? c = some d) (hd : d < 10) : isDigit c = true := by
  have := forall_byte (fun c => match hexDigit? c with | none => true | some d => !decide (d < 10) || isDigit c) (by decide +kernel) c
  simp only [h] at this
  simpa [hd] using this

theorem hexDigit_ge {c : UInt8} (h : isDigit c = false) : ∀ d, hexDigit? c = some d → ¬ d < 10 := by
  intro d hd hlt
  rw [isDigit_of_hexDigit hd hlt] at h
  cases h

theorem readDigits_begins : ∀ (s : Bytes) (acc n : Nat), (readDigits 10 acc n s).2 ≠ n →
    ∃ digits rest, s = digits ++ rest ∧ digits ≠ [] ∧ ∀ c ∈ digits, isDigit c = true
  | [], acc, n, h => absurd rfl h
  | c :: s, acc, n, h => by
    unfold readDigits at h
    cases hc : hexDigit? c with
    | none => rw [hc] at h; exact absurd rfl h
    | some d =>
      rw [hc] at h
      by_cases hd : d < 10
      · exact ⟨[c], s, rfl, by simp, by intro x hx; simp at hx; subst hx; exact isDigit_of_hexDigit hc hd⟩
      · simp only [hd, if_false] at h; exact absurd rfl h

theorem skip0x_ten (s : Bytes) : skip0x 10 s = s := by
  unfold skip0x
  split
  · rw [if_neg (by omega)]
  · rfl

theorem takeSign_eq (s : Bytes) : ∃ sign, sign ∈ [[], [43], [(45 : UInt8)]] ∧ s = sign ++ (takeSign s).2 := by
  unfold takeSign
  split
  · exact ⟨[45], by simp, rfl⟩
  · exact ⟨[43], by simp, rfl⟩
  · exact ⟨[], by simp, rfl⟩

theorem readLong_begins {v : Bytes} {n : Int} (h : readLong 10 v = some n) : BeginsNumber v := by
  unfold readLong at h
  simp only [skip0x_ten] at h
  by_cases h0 : (readDigits 10 0 0 (takeSign (v.dropWhile isSpace)).2).2 = 0
  · rw [if_pos h0] at h; cases h
  · obtain ⟨digits, rest, h1, h2, h3⟩ := readDigits_begins _ _ _ h0
    obtain ⟨sign, h4, h5⟩ := takeSign_eq (v.dropWhile isSpace)
    refine ⟨v.takeWhile isSpace, sign, digits, rest, ?_, fun c hc => ?_, h4, h2, h3⟩
    · rw [List.append_assoc, List.append_assoc, ← h1, ← h5, List.takeWhile_append_dropWhile]
    · have := List.all_takeWhile (p := isSpace) (l := v)
      exact List.all_eq_true.1 this c hc

theorem readDigits_stop (base : Nat) (acc n : Nat) (t : Bytes) (ht : ∀ c d, t.head? = some c → hexDigit? c = some d → ¬ d < base) :
    readDigits base acc n t = (acc, n) := by
  cases t with
  | nil => rfl
  | cons c t =>
    unfold readDigits
    cases hc : hexDigit? c with
    | none => rfl
    | some d => simp [ht c d rfl hc]

theorem readLong_loose {n : Nat} (hn : n < 2 ^ 63) (junk : Bytes) (hj : EndsDigits junk) :
    readLong 10 (43 :: (dec n ++ junk)) = some (n : Int) := by
  have h1 : (43 :: (dec n ++ junk)).dropWhile isSpace = 43 :: (dec n ++ junk) := by
    rw [List.dropWhile_cons_of_neg]; decide
  have h2 : readDigits 10 0 0 (dec n ++ junk) = (n, (dec n).length) := by
    rw [readDigits_append 10 _ _ _ _ (dec_digits' n).1, (dec_digits' n).2, readDigits_stop]
    · simp
    · intro c d hc hd; exact hexDigit_ge (hj c hc) d hd
  unfold readLong
  simp only [h1, takeSign, skip0x_ten, h2]
  have : (dec n).length ≠ 0 := fun hh => dec_ne_nil n (List.length_eq_zero_iff.1 hh)
  simp only [this, if_false, Bool.false_eq_true]
  rw [if_pos (by unfold IsI64; omega)]

end HttpIO

/-- C144 (refusals): a body is only read when the first `Content-Length` begins with a number, or
there is none and `Transfer-Encoding` is `chunked` in any letter case, or there is neither — and then
a request has no body at all. Missing: the first two are not enough to know the extent, see the
`C144_…_violated` theorems. -/
theorem C144_refused_partial (cfg : HttpIO.Cfg) (request : Bool) (h h' : HttpHeader.Fields) (s s' : Conn)
    (hr : readContent cfg request h s = (.ok h', s')) :
    (∃ v, HttpHeader.get h (asc "Content-Length") 0 = some v ∧ BeginsNumber v) ∨
    (HttpHeader.get h (asc "Content-Length") 0 = none ∧ ∃ v, HttpHeader.get h (asc "Transfer-Encoding") 0 = some v ∧ v.map toUpper = asc "CHUNKED") ∨
    (HttpHeader.get h (asc "Content-Length") 0 = none ∧ HttpHeader.get h (asc "Transfer-Encoding") 0 = none ∧ (request = true → s' = s ∧ h' = h)) := by
  unfold readContent at hr
  cases hl : HttpHeader.get h (asc "Content-Length") 0 with
  | some v =>
    rw [hl] at hr
    simp only at hr
    cases hn : readLong 10 v with
    | none => rw [hn] at hr; simp at hr
    | some n => exact .inl ⟨v, rfl, readLong_begins hn⟩
  | none =>
    rw [hl] at hr
    simp only at hr
    cases ht : HttpHeader.get h (asc "Transfer-Encoding") 0 with
    | some v =>
      rw [ht] at hr
      simp only at hr
      by_cases hv : v.map toUpper = asc "CHUNKED"
      · exact .inr (.inl ⟨rfl, v, rfl, hv⟩)
      · rw [if_neg hv] at hr; simp at hr
    | none =>
      rw [ht] at hr
      refine .inr (.inr ⟨rfl, rfl, fun hq => ?_⟩)
      subst hq
      simp only [if_true, Prod.mk.injEq, Except.ok.injEq] at hr
      exact ⟨hr.2.symm, hr.1.symm⟩

example : (readContent ⟨-1, -1, fun _ => none⟩ true [(asc "Content-Length", asc " five")] ⟨asc "abcde", [], []⟩).1 = .error .value := by decide +kernel
example : (readContent ⟨-1, -1, fun _ => none⟩ true [(asc "Transfer-Encoding", asc "gzip, chunked")] ⟨asc "0", [], []⟩).1 = .error .value := by decide +kernel
example : (readContent ⟨-1, -1, fun _ => none⟩ true [(asc "Content-Length", asc "5")] ⟨asc "abcdef", [], []⟩).1 = .ok [(asc "Content-Length", asc "5")] := by decide +kernel

namespace HttpIO

theorem get_first (name v : Bytes) (h : HttpHeader.Fields) (hp : HttpHeader.polishName name = name) : HttpHeader.get ((name, v) :: h) name 0 = some v := by
  unfold HttpHeader.get
  rw [hp]
  simp [HttpHeader.getLoop]

theorem get_skip (name other v : Bytes) (h : HttpHeader.Fields) (hp : HttpHeader.polishName name = name) (hne : name ≠ other) :
    HttpHeader.get ((other, v) :: h) name 0 = HttpHeader.get h name 0 := by
  unfold HttpHeader.get
  rw [hp]
  simp [HttpHeader.getLoop, hne]

theorem readContent_counted (cfg : HttpIO.Cfg) (request : Bool) (h : HttpHeader.Fields) (n : Nat) (v : Bytes) (s s' : Conn)
    (hfit : over cfg.bodyLimit n = false)
    (hv : HttpHeader.get h (asc "Content-Length") 0 = some v) (hn : readLong 10 v = some (n : Int)) :
    readContent cfg request h s = (.ok h, s') ↔ readBlock cfg n s = (.ok (), s') := by
  unfold readContent
  simp only [hv, hn]
  rw [if_neg (by omega)]
  simp only [Int.toNat_natCast, hfit, Bool.false_eq_true, if_false]
  generalize readBlock cfg n s = q
  obtain ⟨q, s1⟩ := q
  cases q with
  | error e => simp
  | ok u => simp

end HttpIO

/-- Reading a body whose length is understood, however it is written. -/
theorem readContent_number (cfg : HttpIO.Cfg) (request : Bool) (h : HttpHeader.Fields) (data rest : Bytes) (v : Bytes) (s : Conn)
    (hsink : ∀ l, cfg.sink l = none) (hc : Calm s.sched) (hout : s.out = []) (hd : s.data = data ++ rest)
    (hfit : cfg.bodyLimit < 0 ∨ (data.length : Int) ≤ cfg.bodyLimit ∧ cfg.bodyLimit < 2 ^ 31)
    (hv : HttpHeader.get h (asc "Content-Length") 0 = some v) (hn : readLong 10 v = some (data.length : Int)) (hlen : data.length < 2 ^ 63) :
    ∃ s', readContent cfg request h s = (.ok h, s') ∧ s'.out.flatten = data ∧ s'.data = rest := by
  have hp : HttpHeader.polishName (asc "Content-Length") = asc "Content-Length" := by decide +kernel
  have ho : over cfg.bodyLimit data.length = false := by
    unfold over
    simp only [Bool.and_eq_false_iff, decide_eq_false_iff_not]
    omega
  obtain ⟨s', h1, h2, h3⟩ := C41_body_framing cfg request [(asc "Content-Length", dec data.length)] s data hsink data rest hc hout hd hfit hlen
    (.inl ⟨get_first _ _ _ hp, rfl⟩)
  rw [readContent_counted cfg request _ data.length _ s s' ho (get_first _ _ _ hp) (readLong_dec hlen)] at h1
  exact ⟨s', (readContent_counted cfg request h data.length v s s' ho hv hn).2 h1, h2, h3⟩

/-- C144 is false for a message with a length and chunks: the length counts. For any bytes `next`
after an empty chunked body, a message that says it is chunked and gives the length of all of it has
them in its body; HTTP says that the chunks count and the next message is `next`. -/
theorem C144_both_violated (cfg : HttpIO.Cfg) (hsink : ∀ l, cfg.sink l = none) (hlim : cfg.bodyLimit < 0) (next rest : Bytes)
    (hlen : (chunked [] ++ next).length < 2 ^ 63) (sched : List Ev) (hc : Calm sched) :
    ∃ s', readContent cfg true [(asc "Transfer-Encoding", asc "chunked"), (asc "Content-Length", dec (chunked [] ++ next).length)]
        ⟨chunked [] ++ next ++ rest, sched, []⟩ =
      (.ok [(asc "Transfer-Encoding", asc "chunked"), (asc "Content-Length", dec (chunked [] ++ next).length)], s') ∧
      s'.out.flatten = chunked [] ++ next ∧ s'.data = rest := by
  have hp : HttpHeader.polishName (asc "Content-Length") = asc "Content-Length" := by decide +kernel
  exact readContent_number cfg true _ (chunked [] ++ next) rest _ _ hsink hc rfl rfl (.inl hlim)
    (by rw [get_skip _ _ _ _ hp (by decide +kernel)]; exact get_first _ _ _ hp) (readLong_dec hlen) hlen

/-- C144 is false for a message with two lengths: the first one counts, whatever the others say. -/
theorem C144_twice_violated (cfg : HttpIO.Cfg) (hsink : ∀ l, cfg.sink l = none) (hlim : cfg.bodyLimit < 0) (request : Bool) (data rest other : Bytes)
    (hlen : data.length < 2 ^ 63) (sched : List Ev) (hc : Calm sched) :
    ∃ s', readContent cfg request [(asc "Content-Length", dec data.length), (asc "Content-Length", other)] ⟨data ++ rest, sched, []⟩ =
      (.ok [(asc "Content-Length", dec data.length), (asc "Content-Length", other)], s') ∧ s'.out.flatten = data ∧ s'.data = rest :=
  readContent_number cfg request _ data rest _ _ hsink hc rfl rfl (.inl hlim) (get_first _ _ _ (by decide +kernel)) (readLong_dec hlen) hlen

/-- C144 is false for a length that is no number: a plus sign before it and any text after it, if it
does not begin with a digit, is ignored. -/
theorem C144_length_violated (cfg : HttpIO.Cfg) (hsink : ∀ l, cfg.sink l = none) (hlim : cfg.bodyLimit < 0) (request : Bool) (data rest junk : Bytes)
    (hj : EndsDigits junk) (hlen : data.length < 2 ^ 63) (sched : List Ev) (hc : Calm sched) :
    ∃ s', readContent cfg request [(asc "Content-Length", 43 :: (dec data.length ++ junk))] ⟨data ++ rest, sched, []⟩ =
      (.ok [(asc "Content-Length", 43 :: (dec data.length ++ junk))], s') ∧ s'.out.flatten = data ∧ s'.data = rest :=
  readContent_number cfg request _ data rest _ _ hsink hc rfl rfl (.inl hlim) (get_first _ _ _ (by decide +kernel)) (readLong_loose hlen junk hj) hlen

example : EndsDigits (asc ", 7") ∧ EndsDigits (asc "abc") ∧ EndsDigits [] := by
  refine ⟨?_, ?_, ?_⟩ <;> intro c hc <;> simp [asc] at hc <;> (subst hc; decide)

/-- C144 is false for the size of a chunk: a minus sign before a zero and any text after it on the
line, if it begins with a space, ends the body as a zero does. -/
theorem C144_chunk_violated (cfg : HttpIO.Cfg) (request : Bool) (junk rest : Bytes) (hj : ∀ c, junk.head? = some c → c = 32)
    (hnl : (10 : UInt8) ∉ junk) (hcr : junk.getLast? ≠ some 13) (sched : List Ev) (hc : Calm sched) :
    ∃ sc, readContent cfg request [(asc "Transfer-Encoding", asc "chunked")] ⟨45 :: 48 :: junk ++ crlf ++ crlf ++ rest, sched, []⟩ =
      (.ok [(asc "Transfer-Encoding", asc "chunked")], ⟨rest, sc, []⟩) := by
  have h0 : readContent cfg request [(asc "Transfer-Encoding", asc "chunked")] ⟨45 :: 48 :: junk ++ crlf ++ crlf ++ rest, sched, []⟩ =
      readChunkedContent cfg [(asc "Transfer-Encoding", asc "chunked")] ⟨45 :: 48 :: junk ++ crlf ++ crlf ++ rest, sched, []⟩ := by
    unfold readContent
    have g1 : HttpHeader.get [(asc "Transfer-Encoding", asc "chunked")] (asc "Content-Length") 0 = none := by decide +kernel
    have g2 : HttpHeader.get [(asc "Transfer-Encoding", asc "chunked")] (asc "Transfer-Encoding") 0 = some (asc "chunked") := by decide +kernel
    have g3 : (asc "chunked").map toUpper = asc "CHUNKED" := by decide +kernel
    simp only [g1, g2, g3, if_true]
  rw [h0]
  obtain ⟨sc, c1, e1⟩ := readLineOpt_crlf cfg false ⟨45 :: 48 :: junk ++ crlf ++ crlf ++ rest, sched, []⟩ (45 :: 48 :: junk) (crlf ++ rest) hc
    (by simp [crlf]) (by simp [hnl]) (by
      cases junk with
      | nil => decide
      | cons c j => simpa using hcr)
  obtain ⟨sc', c2, e2⟩ := readHeader_empty cfg [(asc "Transfer-Encoding", asc "chunked")] ⟨crlf ++ rest, sc, []⟩ rest c1 rfl true
  refine ⟨sc', ?_⟩
  have hl : readLong 16 (45 :: 48 :: junk) = some 0 := by
    have h2 : readDigits 16 0 0 (48 :: junk) = (0, 1) := by
      have := readDigits_append 16 [48] junk 0 0 (by intro c hc; simp at hc; subst hc; exact ⟨0, by decide, by decide⟩)
      rw [List.singleton_append] at this
      rw [this, readDigits_stop]
      · decide
      · intro c d h1 h2; rw [hj c h1] at h2; revert h2; revert d; decide
    have h3 : skip0x 16 (48 :: junk) = 48 :: junk := by
      unfold skip0x
      split
      · next c t heq =>
        simp only [List.cons.injEq, true_and] at heq
        have := hj c (by rw [heq]; rfl)
        subst this
        rw [if_neg (by decide)]
        rw [heq]
      · rfl
    have h1 : (45 :: 48 :: junk).dropWhile isSpace = 45 :: 48 :: junk := by
      rw [List.dropWhile_cons_of_neg]; decide
    unfold readLong
    simp only [h1, takeSign, h3, h2]
    decide
  unfold readChunkedContent readChunkedLoop readChunkSize readLine
  rw [e1]
  simp only [hl]
  exact e2

example : (∀ c, (asc " bytes of what?").head? = some c → c = 32) ∧ (10 : UInt8) ∉ asc " bytes of what?" ∧ (asc " bytes of what?").getLast? ≠ some 13 := by
  decide +kernel

end Frpc
