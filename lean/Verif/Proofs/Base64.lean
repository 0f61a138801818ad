import Verif.Model.Base64
import Verif.Spec.Base64
import Verif.Proofs.Codec
/-! # Base64 lemmas -/
namespace Frpc
namespace Base64
open Spec (b64char b64pad base64 IsSpace)

theorem chr_eq {n : Nat} (h : n < 64) : chr n = b64char n := by
  have : ∀ n < 64, chr n = b64char n := by decide +kernel
  exact this n h

theorem or_shift4 {a b : Nat} (hb : b < 16) : (a <<< 4) ||| b = a * 16 + b := by
  rw [← Nat.shiftLeft_add_eq_or_of_lt (by simpa using hb)]; simp [Nat.shiftLeft_eq]

theorem or_shift2 {a b : Nat} (hb : b < 4) : (a <<< 2) ||| b = a * 4 + b := by
  rw [← Nat.shiftLeft_add_eq_or_of_lt (by simpa using hb)]; simp [Nat.shiftLeft_eq]

theorem and3 (a : Nat) : a &&& 3 = a % 4 := Nat.and_two_pow_sub_one_eq_mod a 2
theorem and15 (a : Nat) : a &&& 0x0f = a % 16 := Nat.and_two_pow_sub_one_eq_mod a 4
theorem and63 (a : Nat) : a &&& 0x3f = a % 64 := Nat.and_two_pow_sub_one_eq_mod a 6

theorem hi4 (a : UInt8) : (a.toNat &&& 0xf0) >>> 4 = a.toNat / 16 := by
  have : ∀ n < 256, (n &&& 0xf0) >>> 4 = n / 16 := by decide +kernel
  exact this _ a.toNat_lt

theorem hi2 (a : UInt8) : (a.toNat &&& 0xc0) >>> 6 = a.toNat / 64 := by
  have : ∀ n < 256, (n &&& 0xc0) >>> 6 = n / 64 := by decide +kernel
  exact this _ a.toNat_lt

theorem s1 (a : UInt8) : chr (a.toNat >>> 2) = b64char (a.toNat / 4) := by
  have := a.toNat_lt
  rw [Nat.shiftRight_eq_div_pow, chr_eq (by omega)]

theorem s2 (a b : UInt8) : chr (((a.toNat &&& 3) <<< 4) ||| (b.toNat / 16)) = b64char (a.toNat % 4 * 16 + b.toNat / 16) := by
  have := b.toNat_lt
  rw [and3, or_shift4 (by omega), chr_eq (by omega)]

theorem s3 (b c : UInt8) : chr (((b.toNat &&& 0x0f) <<< 2) ||| (c.toNat / 64)) = b64char (b.toNat % 16 * 4 + c.toNat / 64) := by
  have := c.toNat_lt
  rw [and15, or_shift2 (by omega), chr_eq (by omega)]

theorem s4 (c : UInt8) : chr (c.toNat &&& 0x3f) = b64char (c.toNat % 64) := by
  rw [and63, chr_eq (by omega)]

theorem s2' (a : UInt8) : chr ((a.toNat &&& 3) <<< 4) = b64char (a.toNat % 4 * 16) := by
  rw [and3, Nat.shiftLeft_eq, chr_eq (by omega)]

theorem s3' (b : UInt8) : chr ((b.toNat &&& 0x0f) <<< 2) = b64char (b.toNat % 16 * 4) := by
  rw [and15, Nat.shiftLeft_eq, chr_eq (by omega)]

/-! ### Writer -/

theorem write_append (w : W) (a b : Bytes) :
    w.write (a ++ b) = ((w.write a).1 ++ ((w.write a).2.write b).1, ((w.write a).2.write b).2) := by
  induction a generalizing w with
  | nil => simp [W.write]
  | cons c a ih => simp [W.write, ih]

theorem writes_eq (w : W) (ps : List Bytes) :
    (w.writes ps).1.flatten = (w.write ps.flatten).1.flatten ∧ (w.writes ps).2 = (w.write ps.flatten).2 := by
  induction ps generalizing w with
  | nil => simp [W.writes, W.write]
  | cons p ps ih =>
    have := ih (w.write p).2
    simp [W.writes, write_append, this]

theorem write_flush : ∀ d : Bytes, ((W.init.write d).1 ++ (W.init.write d).2.flush.1).flatten = base64 d
  | [] => rfl
  | [a] => by
    simp only [W.write, W.byte, W.init, W.flush, base64, s1, s2']; rfl
  | [a, b] => by
    simp only [W.write, W.byte, W.init, W.flush, base64, s1, hi4, s2, s3']; rfl
  | a :: b :: c :: r => by
    have ih := write_flush r
    have e : W.init.write (a :: b :: c :: r) =
        ([[chr (a.toNat >>> 2)], [chr (((a.toNat &&& 3) <<< 4) ||| ((b.toNat &&& 0xf0) >>> 4))],
          [chr (((b.toNat &&& 0x0f) <<< 2) ||| ((c.toNat &&& 0xc0) >>> 6))], [chr (c.toNat &&& 0x3f)]] ++ (W.init.write r).1,
         (W.init.write r).2) := rfl
    rw [e]
    simp only [hi4, hi2, s1, s2, s3, s4, base64]
    rw [← ih]
    simp

/-! ### Decoder -/

theorem table_chr {n : Nat} (h : n < 64) : table (b64char n) = n ∧ b64char n ≠ 61 ∧ isspace (b64char n) = false := by
  have : ∀ n < 64, table (b64char n) = n ∧ b64char n ≠ 61 ∧ isspace (b64char n) = false := by decide +kernel
  exact this n h

theorem table_pad : table b64pad = 0x80 ∧ isspace b64pad = false := by decide

theorem quad3 (a b c : UInt8) : quad (b64char (a.toNat / 4)) (b64char (a.toNat % 4 * 16 + b.toNat / 16))
    (b64char (b.toNat % 16 * 4 + c.toNat / 64)) (b64char (c.toNat % 64)) = [a, b, c] := by
  have ha := a.toNat_lt
  have hb := b.toNat_lt
  have hc := c.toNat_lt
  obtain ⟨t0, _, _⟩ := table_chr (n := a.toNat / 4) (by omega)
  obtain ⟨t1, _, _⟩ := table_chr (n := a.toNat % 4 * 16 + b.toNat / 16) (by omega)
  obtain ⟨t2, p2, _⟩ := table_chr (n := b.toNat % 16 * 4 + c.toNat / 64) (by omega)
  obtain ⟨t3, p3, _⟩ := table_chr (n := c.toNat % 64) (by omega)
  unfold quad
  simp only [t0, t1, t2, t3]
  rw [if_neg p2, if_neg p3]
  have e0 : (a.toNat / 4) <<< 2 ||| (a.toNat % 4 * 16 + b.toNat / 16) >>> 4 = a.toNat := by
    rw [Nat.shiftRight_eq_div_pow, or_shift2 (by omega)]; omega
  have e1 : (a.toNat % 4 * 16 + b.toNat / 16) <<< 4 ||| (b.toNat % 16 * 4 + c.toNat / 64) >>> 2 = a.toNat % 4 * 256 + b.toNat := by
    rw [Nat.shiftRight_eq_div_pow, or_shift4 (by omega)]; omega
  have e2 : (b.toNat % 16 * 4 + c.toNat / 64) <<< 6 ||| c.toNat % 64 = b.toNat % 16 * 256 + c.toNat := by
    rw [← Nat.shiftLeft_add_eq_or_of_lt (by omega)]; rw [Nat.shiftLeft_eq]; omega
  rw [e0, e1, e2]
  have f0 : UInt8.ofNat a.toNat = a := by simp
  have f1 : UInt8.ofNat (a.toNat % 4 * 256 + b.toNat) = b := by
    apply UInt8.toNat_inj.1; rw [UInt8.toNat_ofNat']; omega
  have f2 : UInt8.ofNat (b.toNat % 16 * 256 + c.toNat) = c := by
    apply UInt8.toNat_inj.1; rw [UInt8.toNat_ofNat']; omega
  rw [f0, f1, f2]; rfl

theorem quad2 (a b : UInt8) : quad (b64char (a.toNat / 4)) (b64char (a.toNat % 4 * 16 + b.toNat / 16))
    (b64char (b.toNat % 16 * 4)) b64pad = [a, b] := by
  have ha := a.toNat_lt
  have hb := b.toNat_lt
  obtain ⟨t0, _, _⟩ := table_chr (n := a.toNat / 4) (by omega)
  obtain ⟨t1, _, _⟩ := table_chr (n := a.toNat % 4 * 16 + b.toNat / 16) (by omega)
  obtain ⟨t2, p2, _⟩ := table_chr (n := b.toNat % 16 * 4) (by omega)
  unfold quad
  simp only [t0, t1, t2]
  rw [if_neg p2, if_pos (show b64pad = 61 from rfl)]
  have e0 : (a.toNat / 4) <<< 2 ||| (a.toNat % 4 * 16 + b.toNat / 16) >>> 4 = a.toNat := by
    rw [Nat.shiftRight_eq_div_pow, or_shift2 (by omega)]; omega
  have e1 : (a.toNat % 4 * 16 + b.toNat / 16) <<< 4 ||| (b.toNat % 16 * 4) >>> 2 = a.toNat % 4 * 256 + b.toNat := by
    rw [Nat.shiftRight_eq_div_pow, or_shift4 (by omega)]; omega
  rw [e0, e1]
  have f0 : UInt8.ofNat a.toNat = a := by simp
  have f1 : UInt8.ofNat (a.toNat % 4 * 256 + b.toNat) = b := by
    apply UInt8.toNat_inj.1; rw [UInt8.toNat_ofNat']; omega
  rw [f0, f1]; rfl

theorem quad1 (a : UInt8) : quad (b64char (a.toNat / 4)) (b64char (a.toNat % 4 * 16)) b64pad b64pad = [a] := by
  have ha := a.toNat_lt
  obtain ⟨t0, _, _⟩ := table_chr (n := a.toNat / 4) (by omega)
  obtain ⟨t1, _, _⟩ := table_chr (n := a.toNat % 4 * 16) (by omega)
  unfold quad
  simp only [t0, t1]
  rw [if_pos (show b64pad = 61 from rfl)]
  have e0 : (a.toNat / 4) <<< 2 ||| (a.toNat % 4 * 16) >>> 4 = a.toNat := by
    rw [Nat.shiftRight_eq_div_pow, or_shift2 (by omega)]; omega
  rw [e0]
  have f0 : UInt8.ofNat a.toNat = a := by simp
  rw [f0]; rfl

/-- What is left to decode: `Ok q a d` says that the characters `q` (no white space) after the pending characters `a` are
exactly what remains of an encoding of `d`. -/
def Rem (a q d : Bytes) : Prop := a.length ≤ 3 ∧ a ++ q = base64 d

theorem isspace_iff (c : UInt8) : isspace c = true ↔ IsSpace c := by
  unfold isspace IsSpace; simp

theorem nospace_base64 : ∀ d : Bytes, ∀ c ∈ base64 d, isspace c = false
  | [] => by simp [base64]
  | [a] => by
    have ha := a.toNat_lt
    have h0 := (table_chr (n := a.toNat / 4) (by omega)).2.2
    have h1 := (table_chr (n := a.toNat % 4 * 16) (by omega)).2.2
    intro c hc
    simp only [base64, List.mem_cons, List.not_mem_nil, or_false] at hc
    rcases hc with rfl | rfl | rfl | rfl
    · exact h0
    · exact h1
    · exact table_pad.2
    · exact table_pad.2
  | [a, b] => by
    have ha := a.toNat_lt
    have hb := b.toNat_lt
    have h0 := (table_chr (n := a.toNat / 4) (by omega)).2.2
    have h1 := (table_chr (n := a.toNat % 4 * 16 + b.toNat / 16) (by omega)).2.2
    have h2 := (table_chr (n := b.toNat % 16 * 4) (by omega)).2.2
    intro c hc
    simp only [base64, List.mem_cons, List.not_mem_nil, or_false] at hc
    rcases hc with rfl | rfl | rfl | rfl
    · exact h0
    · exact h1
    · exact h2
    · exact table_pad.2
  | a :: b :: c :: r => by
    have ha := a.toNat_lt
    have hb := b.toNat_lt
    have hc := c.toNat_lt
    have h0 := (table_chr (n := a.toNat / 4) (by omega)).2.2
    have h1 := (table_chr (n := a.toNat % 4 * 16 + b.toNat / 16) (by omega)).2.2
    have h2 := (table_chr (n := b.toNat % 16 * 4 + c.toNat / 64) (by omega)).2.2
    have h3 := (table_chr (n := c.toNat % 64) (by omega)).2.2
    intro x hx
    simp only [base64, List.mem_cons] at hx
    rcases hx with rfl | rfl | rfl | rfl | hx
    · exact h0
    · exact h1
    · exact h2
    · exact h3
    · exact nospace_base64 r x hx

/-- Decoding a text that is, white space aside, the rest of an encoding; `tail` comes in later pieces. -/
theorem process_rem (d : Bytes) (a p tail : Bytes) (h : Rem a ((p ++ tail).filter (fun c => !isspace c)) d) :
    ∃ d1 d2, (process a p).1 = d1 ∧ d = d1 ++ d2 ∧ Rem (process a p).2 (tail.filter (fun c => !isspace c)) d2 := by
  induction p generalizing a d with
  | nil => exact ⟨[], d, by simp [process], rfl, by simpa [process] using h⟩
  | cons c p ih =>
    unfold process
    by_cases hs : isspace c = true
    · rw [if_pos hs]
      refine ih d a ?_
      simpa [hs] using h
    · rw [if_neg hs]
      have hs' : isspace c = false := by simpa using hs
      have h' : Rem a (c :: (p ++ tail).filter (fun c => !isspace c)) d := by simpa [hs'] using h
      match a, h' with
      | [], h' =>
        exact ih d [c] ⟨by simp, by simpa using h'.2⟩
      | [x], h' =>
        exact ih d [x, c] ⟨by simp, by simpa using h'.2⟩
      | [x, y], h' =>
        exact ih d [x, y, c] ⟨by simp, by simpa using h'.2⟩
      | _ :: _ :: _ :: _ :: _, h' => exact absurd h'.1 (by simp)
      | [x, y, z], h' =>
        have he := h'.2
        simp only [List.cons_append, List.nil_append] at he ⊢
        match d, he with
        | [], he => simp [base64] at he
        | [u], he =>
          simp only [base64, List.cons.injEq] at he
          obtain ⟨rfl, rfl, rfl, rfl, he2⟩ := he
          rw [quad1]
          have ht : tail.filter (fun c => !isspace c) = [] := by
            rw [List.filter_append, List.append_eq_nil_iff] at he2; exact he2.2
          exact ⟨[u], [], rfl, rfl, by simp [Rem, ht, base64]⟩
        | [u, v], he =>
          simp only [base64, List.cons.injEq] at he
          obtain ⟨rfl, rfl, rfl, rfl, he2⟩ := he
          rw [quad2]
          have ht : tail.filter (fun c => !isspace c) = [] := by
            rw [List.filter_append, List.append_eq_nil_iff] at he2; exact he2.2
          exact ⟨[u, v], [], rfl, rfl, by simp [Rem, ht, base64]⟩
        | u :: v :: w :: d, he =>
          simp only [base64, List.cons.injEq] at he
          obtain ⟨rfl, rfl, rfl, rfl, he2⟩ := he
          rw [quad3]
          obtain ⟨d1, d2, h1, h2, h3⟩ := ih d [] ⟨by simp, by simpa using he2⟩
          refine ⟨u :: v :: w :: d1, d2, ?_, by rw [h2]; rfl, ?_⟩
          · simp [h1]
          · simpa using h3

theorem processAll_rem (d : Bytes) (a : Bytes) (ps : List Bytes) (h : Rem a (ps.flatten.filter (fun c => !isspace c)) d) :
    processAll a ps = (d, []) := by
  induction ps generalizing a d with
  | nil =>
    obtain ⟨h1, h2⟩ := h
    simp only [List.flatten_nil, List.filter_nil, List.append_nil] at h2
    subst h2
    match d, h1 with
    | [], _ => rfl
    | [_], h1 => simp [base64] at h1
    | [_, _], h1 => simp [base64] at h1
    | _ :: _ :: _ :: _, h1 => simp [base64] at h1
  | cons p ps ih =>
    rw [List.flatten_cons] at h
    obtain ⟨d1, d2, h1, h2, h3⟩ := process_rem d a p ps.flatten h
    unfold processAll
    simp only [h1, ih d2 _ h3, h2]

/-! ### Body encoder -/

theorem full_eq (a b c : UInt8) : full a b c = [b64char (a.toNat / 4), b64char (a.toNat % 4 * 16 + b.toNat / 16),
    b64char (b.toNat % 16 * 4 + c.toNat / 64), b64char (c.toNat % 64)] := by
  unfold full
  simp only [Nat.shiftRight_eq_div_pow b.toNat 4, Nat.shiftRight_eq_div_pow c.toNat 6]
  have h4 : (2 : Nat) ^ 4 = 16 := rfl
  have h6 : (2 : Nat) ^ 6 = 64 := rfl
  simp only [h4, h6, s1, s2, s3, s4]

theorem encChunk_append (rn : Bool) (e : E) (a b : Bytes) :
    encChunk rn e (a ++ b) = ((encChunk rn e a).1 ++ (encChunk rn (encChunk rn e a).2 b).1, (encChunk rn (encChunk rn e a).2 b).2) := by
  induction a generalizing e with
  | nil => simp [encChunk]
  | cons c a ih =>
    obtain ⟨inp, line⟩ := e
    match inp with
    | [] => simp only [List.cons_append, encChunk, ih]
    | [x] => simp only [List.cons_append, encChunk, ih]
    | [x, y] => simp only [List.cons_append, encChunk, ih, List.append_assoc]
    | x :: y :: z :: r => simp only [List.cons_append, encChunk, ih]

theorem encChunks_eq (rn : Bool) (e : E) (cs : List Bytes) : encChunks rn e cs = encChunk rn e cs.flatten := by
  induction cs generalizing e with
  | nil => simp [encChunks, encChunk]
  | cons c cs ih => simp only [encChunks, List.flatten_cons, encChunk_append, ih]

/-- Lines separated by CR LF. -/
def joinLines : List Bytes → Bytes
  | [] => []
  | [l] => l
  | l :: ls => l ++ [13, 10] ++ joinLines ls

theorem joinLines_cons (l m : Bytes) (ls : List Bytes) : joinLines (l :: m :: ls) = l ++ [13, 10] ++ joinLines (m :: ls) := rfl

theorem joinLines_prepend (a l : Bytes) (ls : List Bytes) : joinLines ((a ++ l) :: ls) = a ++ joinLines (l :: ls) := by
  cases ls with
  | nil => simp [joinLines]
  | cons m ls => simp [joinLines_cons]

theorem sh4 (b : UInt8) : b.toNat >>> 4 = b.toNat / 16 := Nat.shiftRight_eq_div_pow _ 4

theorem enc_plain (line : Nat) : ∀ d : Bytes,
    (encChunk false ⟨[], line⟩ d).1 ++ encTail false (encChunk false ⟨[], line⟩ d).2 = base64 d
  | [] => by simp [encChunk, encTail, base64]
  | [a] => by
    simp only [encChunk, encTail, base64, s1, Nat.zero_shiftRight, Nat.or_zero, List.nil_append, s2']; simp; rfl
  | [a, b] => by
    simp only [encChunk, encTail, base64, s1, sh4, s2, Nat.zero_shiftRight, Nat.or_zero, List.nil_append, s3', List.cons_append]; simp; rfl
  | a :: b :: c :: r => by
    have ih := enc_plain line r
    have e : encChunk false ⟨[], line⟩ (a :: b :: c :: r) =
      (full a b c ++ [] ++ (encChunk false ⟨[], line⟩ r).1, (encChunk false ⟨[], line⟩ r).2) := rfl
    rw [e, full_eq]
    simp only [base64, List.append_nil, List.cons_append, List.nil_append, ih]

theorem enc_lines : ∀ (d : Bytes) (line : Nat), line ≤ 72 → ∃ l ls,
    (encChunk true ⟨[], line⟩ d).1 ++ encTail true (encChunk true ⟨[], line⟩ d).2 = joinLines (l :: ls) ∧
    l ++ ls.flatten = base64 d ∧ l.length + line ≤ 76 ∧ ∀ x ∈ ls, x.length ≤ 76
  | [], line, h => by
    by_cases h0 : line = 0
    · exact ⟨[], [], by simp [encChunk, encTail, joinLines, h0], rfl, by simp; omega, by simp⟩
    · exact ⟨[], [[]], by simp [encChunk, encTail, joinLines, h0], rfl, by simp; omega, by simp⟩
  | [a], line, h => by
    have e : (encChunk true ⟨[], line⟩ [a]).1 ++ encTail true (encChunk true ⟨[], line⟩ [a]).2 =
        base64 [a] ++ (if line ≠ 0 && true then [13, 10] else []) := by
      simp only [encChunk, encTail, base64, s1, Nat.zero_shiftRight, Nat.or_zero, List.nil_append, s2']; rfl
    rw [e]
    by_cases h0 : line = 0
    · exact ⟨base64 [a], [], by simp [joinLines, h0], by simp, by simp [base64]; omega, by simp⟩
    · exact ⟨base64 [a], [[]], by simp [joinLines, h0], by simp, by simp [base64]; omega, by simp⟩
  | [a, b], line, h => by
    have e : (encChunk true ⟨[], line⟩ [a, b]).1 ++ encTail true (encChunk true ⟨[], line⟩ [a, b]).2 =
        base64 [a, b] ++ (if line ≠ 0 && true then [13, 10] else []) := by
      simp only [encChunk, encTail, base64, s1, sh4, s2, Nat.zero_shiftRight, Nat.or_zero, List.nil_append, s3', List.cons_append]; rfl
    rw [e]
    by_cases h0 : line = 0
    · exact ⟨base64 [a, b], [], by simp [joinLines, h0], by simp, by simp [base64]; omega, by simp⟩
    · exact ⟨base64 [a, b], [[]], by simp [joinLines, h0], by simp, by simp [base64]; omega, by simp⟩
  | a :: b :: c :: r, line, h => by
    have e : encChunk true ⟨[], line⟩ (a :: b :: c :: r) =
      (full a b c ++ (if (true && decide (line + 4 > 72)) = true then [13, 10] else []) ++
        (encChunk true ⟨[], if (true && decide (line + 4 > 72)) = true then 0 else line + 4⟩ r).1,
       (encChunk true ⟨[], if (true && decide (line + 4 > 72)) = true then 0 else line + 4⟩ r).2) := rfl
    rw [e]
    have hf : (full a b c).length = 4 := rfl
    have hb : ∀ x, full a b c ++ x = base64 (a :: b :: c :: r) ↔ x = base64 r := by
      intro x; rw [full_eq]; simp [base64]
    by_cases hn : line + 4 > 72
    · have hd : (true && decide (line + 4 > 72)) = true := by simp [hn]
      simp only [hd, if_true]
      obtain ⟨l, ls, h1, h2, h3, h4⟩ := enc_lines r 0 (by omega)
      refine ⟨full a b c, l :: ls, ?_, ?_, by omega, ?_⟩
      · rw [joinLines_cons, ← h1]; simp
      · rw [List.flatten_cons, h2, hb]
      · intro x hx
        rcases List.mem_cons.1 hx with rfl | hx
        · omega
        · exact h4 x hx
    · have hd : ¬ (true && decide (line + 4 > 72)) = true := by simp; omega
      rw [if_neg hd, if_neg hd]
      obtain ⟨l, ls, h1, h2, h3, h4⟩ := enc_lines r (line + 4) (by omega)
      refine ⟨full a b c ++ l, ls, ?_, ?_, by simp [hf]; omega, h4⟩
      · rw [joinLines_prepend, ← h1]; simp
      · rw [List.append_assoc, h2, hb]

theorem joinLines_filter (ls : List Bytes) (h : ∀ c ∈ ls.flatten, isspace c = false) :
    (joinLines ls).filter (fun c => !isspace c) = ls.flatten := by
  have hcr : isspace 13 = true ∧ isspace 10 = true := by decide
  induction ls with
  | nil => rfl
  | cons l ls ih =>
    have hl : l.filter (fun c => !isspace c) = l := by
      rw [List.filter_eq_self]; intro c hc; simp [h c (by simp [hc])]
    cases ls with
    | nil => simpa [joinLines] using hl
    | cons m ls =>
      rw [joinLines_cons]
      have := ih (fun c hc => h c (by rw [List.flatten_cons, List.mem_append]; exact .inr hc))
      simp only [List.filter_append, this, hl, List.flatten_cons]
      simp [hcr]

/-! ### Base64 message transport -/

open BinUnMarshaller in
/-- The base64 unmarshaller is the binary one fed with the decoded pieces. -/
theorem unMarshallAll_eq {β} (B : Builder β) (req : Req) (ps : List Bytes) : ∀ (a : Bytes) (o : Obj) (b : β), ∃ qs : List Bytes,
    (unMarshallAll B req a o b ps).2 = BinUnMarshaller.unMarshallAll B req o b qs ∧ qs.flatten = (processAll a ps).1 := by
  induction ps with
  | nil => intro a o b; exact ⟨[], rfl, rfl⟩
  | cons p ps ih =>
    intro a o b
    by_cases he : (process a p).1 = []
    · obtain ⟨qs, h1, h2⟩ := ih (process a p).2 o b
      refine ⟨qs, ?_, ?_⟩
      · simp only [unMarshallAll, he, if_true]; exact h1
      · simp only [processAll, he, List.nil_append]; exact h2
    · cases hu : BinUnMarshaller.unMarshall B req o b (process a p).1 with
      | mk o' r =>
        obtain ⟨b', x⟩ := r
        cases x with
        | none =>
          obtain ⟨qs, h1, h2⟩ := ih (process a p).2 o' b'
          refine ⟨(process a p).1 :: qs, ?_, ?_⟩
          · simp only [unMarshallAll, if_neg he, hu, BinUnMarshaller.unMarshallAll]; exact h1
          · simp only [processAll, List.flatten_cons, h2]
        | some e =>
          refine ⟨[(process a p).1, (processAll (process a p).2 ps).1], ?_, ?_⟩
          · simp only [unMarshallAll, if_neg he, hu, BinUnMarshaller.unMarshallAll]
          · simp [processAll]

end Base64
end Frpc
