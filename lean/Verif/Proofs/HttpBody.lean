import Verif.Proofs.HttpLine
import Verif.Spec.Http
/-! # Chunked bodies, numbers, limits -/
namespace Frpc
namespace HttpIO
open Spec

/-! ## Numbers -/

theorem hexDigit?_hexChar {d : Nat} (h : d < 16) : hexDigit? (hexChar d) = some d := by
  have : ∀ d, d < 16 → hexDigit? (hexChar d) = some d := by decide
  exact this d h

theorem hexDigit?_digit {d : Nat} (h : d < 10) : hexDigit? (digit d) = some d := by
  have : ∀ d, d < 10 → hexDigit? (digit d) = some d := by decide
  exact this d h

theorem readDigits_append (base : Nat) : ∀ (s t : Bytes) (acc n : Nat),
    (∀ c ∈ s, ∃ d, hexDigit? c = some d ∧ d < base) →
    readDigits base acc n (s ++ t) = readDigits base (s.foldl (fun a c => base * a + (hexDigit? c).getD 0) acc) (n + s.length) t
  | [], t, acc, n, _ => by simp
  | c :: s, t, acc, n, h => by
    obtain ⟨d, h1, h2⟩ := h c (by simp)
    simp only [List.cons_append, readDigits, h1, if_pos h2]
    rw [readDigits_append base s t _ _ (fun c hc => h c (by simp [hc]))]
    simp [h1]; congr 1; omega

theorem hex_digits (n : Nat) : (∀ c ∈ hex n, ∃ d, hexDigit? c = some d ∧ d < 16) ∧
    (hex n).foldl (fun a c => 16 * a + (hexDigit? c).getD 0) 0 = n := by
  induction n using Nat.strongRecOn with
  | _ n ih =>
    unfold hex
    split
    · next h =>
      refine ⟨?_, by simp [hexDigit?_hexChar h]⟩
      intro c hc; simp at hc; subst hc; exact ⟨n, hexDigit?_hexChar h, h⟩
    · next h =>
      obtain ⟨i1, i2⟩ := ih (n / 16) (by omega)
      have hm : n % 16 < 16 := by omega
      refine ⟨?_, ?_⟩
      · intro c hc
        rcases List.mem_append.1 hc with hc | hc
        · exact i1 c hc
        · simp at hc; subst hc; exact ⟨_, hexDigit?_hexChar hm, hm⟩
      · rw [List.foldl_append, i2]; simp [hexDigit?_hexChar hm]; omega

theorem dec_digits' (n : Nat) : (∀ c ∈ dec n, ∃ d, hexDigit? c = some d ∧ d < 10) ∧
    (dec n).foldl (fun a c => 10 * a + (hexDigit? c).getD 0) 0 = n := by
  induction n using Nat.strongRecOn with
  | _ n ih =>
    unfold dec
    split
    · next h =>
      refine ⟨?_, by simp [hexDigit?_digit h]⟩
      intro c hc; simp at hc; subst hc; exact ⟨n, hexDigit?_digit h, h⟩
    · next h =>
      obtain ⟨i1, i2⟩ := ih (n / 10) (by omega)
      have hm : n % 10 < 10 := by omega
      refine ⟨?_, ?_⟩
      · intro c hc
        rcases List.mem_append.1 hc with hc | hc
        · exact i1 c hc
        · simp at hc; subst hc; exact ⟨_, hexDigit?_digit hm, hm⟩
      · rw [List.foldl_append, i2]; simp [hexDigit?_digit hm]; omega

theorem readDigits_exact (base : Nat) (s : Bytes) (h : ∀ c ∈ s, ∃ d, hexDigit? c = some d ∧ d < base) :
    readDigits base 0 0 s = (s.foldl (fun a c => base * a + (hexDigit? c).getD 0) 0, s.length) := by
  have := readDigits_append base s [] 0 0 h
  simpa [readDigits] using this

theorem hexDigit_plain {c : UInt8} {d : Nat} (h : hexDigit? c = some d) :
    isSpace c = false ∧ c ≠ 45 ∧ c ≠ 43 ∧ c ≠ 120 ∧ c ≠ 88 := by
  have := forall_byte (fun c => (hexDigit? c).isNone || (!isSpace c && decide (c ≠ 45) && decide (c ≠ 43) && decide (c ≠ 120) && decide (c ≠ 88))) (by decide +kernel) c
  rw [h] at this
  simp at this
  obtain ⟨⟨⟨⟨a, b⟩, c⟩, d⟩, e⟩ := this
  exact ⟨a, b, c, d, e⟩

theorem readLong_exact {base : Nat} {s : Bytes} (hne : s ≠ []) (h : ∀ c ∈ s, ∃ d, hexDigit? c = some d ∧ d < base)
    (n : Nat) (hv : s.foldl (fun a c => base * a + (hexDigit? c).getD 0) 0 = n) (hn : n < 2 ^ 63) : readLong base s = some (n : Int) := by
  have plain : ∀ c ∈ s, isSpace c = false ∧ c ≠ 45 ∧ c ≠ 43 ∧ c ≠ 120 ∧ c ≠ 88 := by
    intro c hc; obtain ⟨d, h1, -⟩ := h c hc; exact hexDigit_plain h1
  have hdw : s.dropWhile isSpace = s := by
    cases s with
    | nil => rfl
    | cons c s => simp [(plain c (by simp)).1]
  have hsg : takeSign s = (false, s) := by
    unfold takeSign
    split
    · exact absurd rfl (plain 45 (by simp)).2.1
    · exact absurd rfl (plain 43 (by simp)).2.2.1
    · rfl
  have hx : skip0x base s = s := by
    unfold skip0x
    split
    · next c t =>
      have := plain c (by simp)
      rw [if_neg]
      rintro ⟨-, h | h⟩
      · exact this.2.2.2.1 h
      · exact this.2.2.2.2 h
    · rfl
  unfold readLong
  simp only [hdw, hsg, hx, readDigits_exact base _ h, hv]
  have : s.length ≠ 0 := fun hh => hne (List.length_eq_zero_iff.1 hh)
  simp only [this, if_false, Bool.false_eq_true]
  rw [if_pos (by unfold IsI64; omega)]

theorem readLong_hex {n : Nat} (h : n < 2 ^ 63) : readLong 16 (hex n) = some (n : Int) :=
  readLong_exact (hex_ne_nil n) (hex_digits n).1 n (hex_digits n).2 h

theorem readLong_dec {n : Nat} (h : n < 2 ^ 63) : readLong 10 (dec n) = some (n : Int) :=
  readLong_exact (dec_ne_nil n) (dec_digits' n).1 n (dec_digits' n).2 h

/-! ## Chunks -/

theorem hex_line (n : Nat) : (10 : UInt8) ∉ hex n ∧ (hex n).getLast? ≠ some 13 := by
  constructor
  · intro h; have := hex_lower n _ h; revert this; decide
  · intro h; have := hex_lower n _ (List.mem_of_getLast? h); revert this; decide

theorem readHeader_empty (cfg : Cfg) (h : HttpHeader.Fields) (s : Conn) (rest : Bytes) (hc : Calm s.sched) (hd : s.data = crlf ++ rest) (opt : Bool) :
    ∃ sc, Calm sc ∧ readHeader cfg opt h s = (.ok h, ⟨rest, sc, s.out⟩) := by
  obtain ⟨sc, h1, h2⟩ := readLineOpt_crlf cfg (true && opt) s [] rest hc (by rw [hd]; rfl) (by simp) (by simp)
  refine ⟨sc, h1, ?_⟩
  unfold readHeader readHeaderLoop
  rw [h2]

theorem readChunkedLoop_found (cfg : Cfg) (T : Bytes) (good : Bytes → Prop) (hgood : ∀ p, p ≠ [] → good p) (hsink : ∀ l : List Bytes, (∀ p ∈ l, good p) → l.flatten <+: T → cfg.sink l = none) : ∀ (ps : List Bytes) (f : Nat) (h : HttpHeader.Fields) (s : Conn) (rest : Bytes),
    Calm s.sched → s.data = chunked ps ++ rest → (∀ p ∈ ps, p ≠ [] ∧ p.length < 2 ^ 63) → ps.length < f →
    Fits cfg (s.out.flatten.length + ps.flatten.length) → s.out.flatten ++ ps.flatten <+: T → (∀ p ∈ s.out, good p) →
    ∃ qs sc, Calm sc ∧ qs.flatten = ps.flatten ∧ (∀ q ∈ qs, q ≠ []) ∧ readChunkedLoop cfg f h s = (.ok h, ⟨rest, sc, s.out ++ qs⟩) := by
  intro ps
  induction ps with
  | nil =>
    intro f h s rest hc hd _ hf _ _ _
    obtain ⟨f, rfl⟩ : ∃ g, f = g + 1 := ⟨f - 1, by simp at hf; omega⟩
    obtain ⟨sc, g1, g2⟩ := readLineOpt_crlf cfg false s [48] (crlf ++ rest) hc (by rw [hd]; simp [chunked, crlf]) (by decide) (by decide)
    obtain ⟨sc', g3, g4⟩ := readHeader_empty cfg h ⟨crlf ++ rest, sc, s.out⟩ rest g1 rfl true
    refine ⟨[], sc', g3, rfl, by simp, ?_⟩
    unfold readChunkedLoop readChunkSize readLine
    rw [g2]
    have : readLong 16 [48] = some 0 := by decide +kernel
    simp only [this]
    simpa using g4
  | cons p ps ih =>
    intro f h s rest hc hd hp hf hfit hT hout
    obtain ⟨f, rfl⟩ : ∃ g, f = g + 1 := ⟨f - 1, by simp at hf; omega⟩
    obtain ⟨hpne, hpl⟩ := hp p (by simp)
    have hp0 : 0 < p.length := List.length_pos_iff.2 hpne
    obtain ⟨sc1, c1, e1⟩ := readLineOpt_crlf cfg false s (hex p.length) (p ++ crlf ++ chunked ps ++ rest) hc
      (by rw [hd]; simp [chunked, crlf]) (hex_line _).1 (hex_line _).2
    simp only [List.flatten_cons, List.length_append] at hfit
    obtain ⟨qs1, sc2, c2, f2, n2, e2⟩ := readBlockLoop_found cfg T good hgood hsink ((p ++ crlf ++ chunked ps ++ rest).length + 1) p.length
      ⟨p ++ crlf ++ chunked ps ++ rest, sc1, s.out⟩ hp0 c1 (by simp) (by simp) (by
        rcases hfit with h | ⟨h1, h2⟩
        · exact .inl h
        · exact .inr ⟨by simp only; omega, h2⟩) (by
        have e : (p ++ crlf ++ chunked ps ++ rest).take p.length = p := by simp
        simp only [e]
        refine List.IsPrefix.trans ?_ hT
        exact ⟨ps.flatten, by simp⟩) hout
    simp only at f2 e2
    have hdrop : (p ++ crlf ++ chunked ps ++ rest).drop p.length = crlf ++ (chunked ps ++ rest) := by simp
    have htake : (p ++ crlf ++ chunked ps ++ rest).take p.length = p := by simp
    rw [hdrop] at e2
    rw [htake] at f2
    obtain ⟨sc3, c3, e3⟩ := readLineOpt_crlf cfg false ⟨crlf ++ (chunked ps ++ rest), sc2, s.out ++ qs1⟩ [] (chunked ps ++ rest) c2 rfl (by simp) (by simp)
    obtain ⟨qs, sc4, c4, f4, n4, e4⟩ := ih f h ⟨chunked ps ++ rest, sc3, s.out ++ qs1⟩ rest c3 rfl (fun q hq => hp q (by simp [hq])) (by simp at hf; omega)
      (by
        simp only [List.flatten_append, List.length_append, f2]
        have : s.out.flatten.length + p.length + ps.flatten.length = s.out.flatten.length + (p.length + ps.flatten.length) := by omega
        rw [this]; exact hfit)
      (by simp only [List.flatten_append, f2]; simpa using hT)
      (fun q hq => (List.mem_append.1 hq).elim (hout q) (fun h => hgood q (n2 q h)))
    refine ⟨qs1 ++ qs, sc4, c4, by simp [f2, f4], fun q hq => (List.mem_append.1 hq).elim (n2 q) (n4 q), ?_⟩
    unfold readChunkedLoop readChunkSize readLine
    rw [e1]
    simp only [readLong_hex hpl]
    rw [if_neg (by omega)]
    have hw : (⟨p ++ crlf ++ chunked ps ++ rest, sc1, s.out⟩ : Conn).written ≤ s.out.flatten.length := Nat.mod_le _ _
    obtain ⟨m, hm⟩ : ∃ m, ((p.length : Int)).toNat = m + 1 := ⟨p.length - 1, by omega⟩
    have hm' : m + 1 = p.length := by omega
    rw [hm]
    simp only
    rw [hm']
    rw [if_neg (by rw [hfit.not_over (by omega)]; decide)]
    unfold readBlock
    rw [if_neg (by omega), if_neg (by rw [hfit.not_over (by omega)]; decide)]
    simp only
    rw [e2]
    simp only
    rw [e3]
    simp only
    rw [e4]
    simp

theorem chunked_length (ps : List Bytes) : ps.length < (chunked ps).length := by
  induction ps with
  | nil => simp [chunked, crlf]
  | cons p ps ih => simp only [chunked, List.length_append, List.length_cons, crlf, List.length_nil]; omega

theorem readChunked_found (cfg : Cfg) (T : Bytes) (good : Bytes → Prop) (hgood : ∀ p, p ≠ [] → good p) (hsink : ∀ l : List Bytes, (∀ p ∈ l, good p) → l.flatten <+: T → cfg.sink l = none) (ps : List Bytes) (h : HttpHeader.Fields) (s : Conn) (rest : Bytes)
    (hc : Calm s.sched) (hd : s.data = chunked ps ++ rest) (hp : ∀ p ∈ ps, p ≠ [] ∧ p.length < 2 ^ 63)
    (hfit : Fits cfg (s.out.flatten.length + ps.flatten.length)) (hT : s.out.flatten ++ ps.flatten <+: T) (hout : ∀ p ∈ s.out, good p) :
    ∃ qs sc, Calm sc ∧ qs.flatten = ps.flatten ∧ (∀ q ∈ qs, q ≠ []) ∧ readChunkedContent cfg h s = (.ok h, ⟨rest, sc, s.out ++ qs⟩) := by
  unfold readChunkedContent
  refine readChunkedLoop_found cfg T good hgood hsink ps _ h s rest hc hd hp ?_ hfit hT hout
  have := chunked_length ps
  rw [hd, List.length_append]; omega

/-! ## Limits -/

theorem readLineLoop_out (cfg : Cfg) (check opt : Bool) : ∀ (f : Nat) (nb : Bool) (line : Bytes) (s : Conn),
    (readLineLoop cfg check opt f nb line s).2.out = s.out := by
  intro f
  induction f with
  | zero => intro nb line s; rfl
  | succ f ih =>
    intro nb line s
    unfold readLineLoop
    rcases poll_cases s with ⟨a, sc, h1, -, -⟩ | ⟨sc, h1, -⟩ | ⟨sc, h1, -⟩ <;> rw [h1] <;> simp only
    · split
      · split <;> rfl
      · split
        · split <;> rfl
        · split
          · rfl
          · rw [ih]
    · split <;> rfl

theorem readLineOpt_out (cfg : Cfg) (check opt : Bool) (s : Conn) : (readLineOpt cfg check opt s).2.out = s.out := readLineLoop_out ..

theorem readBlock_out (cfg : Cfg) (n : Nat) (s : Conn) : (readBlock cfg n s).2.out.flatten.length ≤ s.out.flatten.length + n := by
  unfold readBlock
  split
  · simp
  · next hn =>
    split
    · simp
    · generalize hr : readBlockLoop cfg (s.data.length + 1) (some n) s = r
      obtain ⟨r, s'⟩ := r
      obtain ⟨ps, k, h1, h2, -, h4, -⟩ := readBlockLoop_bound cfg (s.data.length + 1) n s _ _ (by omega) hr
      simp only
      rw [h1]
      have := h4.length_le
      simp only [List.flatten_append, List.length_append, List.length_take] at this ⊢
      omega

theorem readHeaderLoop_out (cfg : Cfg) (opt : Bool) : ∀ (f : Nat) (nl : Bool) (h : HttpHeader.Fields) (s : Conn),
    (readHeaderLoop cfg opt f nl h s).2.out = s.out := by
  intro f
  induction f with
  | zero => intro nl h s; rfl
  | succ f ih =>
    intro nl h s
    unfold readHeaderLoop
    have ho := readLineOpt_out cfg false (nl && opt) s
    split
    · next heq => rw [heq] at ho; exact ho
    · next heq => rw [heq] at ho; exact ho
    · next heq =>
      rw [heq] at ho
      split
      · exact ho
      · split
        · split
          · exact ho
          · rw [ih]; exact ho
        · rw [ih]; exact ho

theorem over_false {limit : Int} {n : Nat} (h0 : 0 ≤ limit) (h : over limit n = false) : (n : Int) ≤ limit := by
  unfold over at h
  simp [h0] at h
  exact h

theorem readChunkedLoop_bound (cfg : Cfg) (h0 : 0 ≤ cfg.bodyLimit) (h31 : cfg.bodyLimit < 2 ^ 31) : ∀ (f : Nat) (h : HttpHeader.Fields) (s : Conn),
    (s.out.flatten.length : Int) ≤ cfg.bodyLimit → ((readChunkedLoop cfg f h s).2.out.flatten.length : Int) ≤ cfg.bodyLimit := by
  intro f
  induction f with
  | zero => intro h s hs; exact hs
  | succ f ih =>
    intro h s hs
    unfold readChunkedLoop
    have ho : (readChunkSize cfg s).2.out = s.out := by
      unfold readChunkSize readLine
      have := readLineOpt_out cfg false false s
      split
      · next heq => rw [heq] at this; exact this
      · next heq =>
        rw [heq] at this
        split
        · exact this
        · split <;> exact this
    split
    · next heq => rw [heq] at ho; rw [ho]; exact hs
    · next heq =>
      rw [heq] at ho
      unfold readHeader
      rw [readHeaderLoop_out, ho]; exact hs
    · next n s1 _ heq =>
      rw [heq] at ho
      simp only at ho
      split
      · rw [ho]; exact hs
      · next hov =>
        have hov := over_false h0 (by simpa using hov)
        have hw : s1.written = s.out.flatten.length := by
          unfold Conn.written
          rw [ho, Nat.mod_eq_of_lt (by omega)]
        have hb := readBlock_out cfg n s1
        rw [ho] at hb
        rw [hw] at hov
        split
        · next heq2 => rw [heq2] at hb; simp only at hb ⊢; omega
        · next s2 heq2 =>
          rw [heq2] at hb
          simp only at hb
          have ho2 := readLineOpt_out cfg false false s2
          split
          · next heq3 => unfold readLine at heq3; rw [heq3] at ho2; rw [ho2]; omega
          · next s3 heq3 =>
            unfold readLine at heq3; rw [heq3] at ho2
            refine ih h s3 ?_
            rw [ho2]; omega
          · next heq3 => unfold readLine at heq3; rw [heq3] at ho2; rw [ho2]; omega

theorem readBlockLoop_end_bound (cfg : Cfg) (h0 : 0 ≤ cfg.bodyLimit) (h31 : cfg.bodyLimit < 2 ^ 31) : ∀ (f : Nat) (s : Conn),
    (s.out.flatten.length : Int) ≤ cfg.bodyLimit + BUFF → ((readBlockLoop cfg f none s).2.out.flatten.length : Int) ≤ cfg.bodyLimit + BUFF := by
  intro f
  induction f with
  | zero => intro s hs; exact hs
  | succ f ih =>
    intro s hs
    unfold readBlockLoop
    rcases poll_cases s with ⟨a, sc, h1, -, -⟩ | ⟨sc, h1, -⟩ | ⟨sc, h1, -⟩ <;> rw [h1] <;> simp only
    · split
      · exact hs
      · split
        · exact hs
        · next hov =>
          have hov := over_false h0 (by simpa using hov)
          have hw : s.out.flatten.length % 2 ^ 32 = s.out.flatten.length := Nat.mod_eq_of_lt (by unfold BUFF at hs; omega)
          unfold Conn.written at hov
          simp only [hw] at hov
          have hlen : ((s.out ++ [s.data.take (min a BUFF)]).flatten.length : Int) ≤ cfg.bodyLimit + BUFF := by
            simp only [List.flatten_append, List.length_append, List.flatten_cons, List.flatten_nil, List.append_nil, List.length_take]
            omega
          unfold sinkWrite
          simp only
          split
          · next heq =>
            split at heq <;> simp only [Prod.mk.injEq, reduceCtorEq, false_and] at heq
            rw [← heq.2]; exact hlen
          · next heq =>
            split at heq <;> simp only [Prod.mk.injEq, reduceCtorEq, false_and, true_and] at heq
            rw [← heq]
            simp only [Option.map_none, reduceCtorEq, if_false]
            exact ih _ hlen
    · exact hs
    · exact hs

end HttpIO
end Frpc
