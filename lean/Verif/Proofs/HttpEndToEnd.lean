import Verif.Proofs.HttpBlock
import Verif.Proofs.HttpSend
import Verif.Model.HttpServer
/-! # From a client's writes to a server's reads, and back -/
namespace Frpc
namespace HttpServer
open Spec HttpIO HttpOut

theorem readLineOpt_crlf_any (cfg : Cfg) (check opt : Bool) (s : Conn) (l rest : Bytes) (hc : Calm s.sched)
    (hd : s.data = l ++ (crlf ++ rest)) (h10 : (10 : UInt8) ∉ l) (h13 : l.getLast? ≠ some 13)
    (hl : cfg.lineLimit < 0 ∨ (l.length : Int) + 2 ≤ cfg.lineLimit) :
    ∃ sc, Calm sc ∧ readLineOpt cfg check opt s = (.ok l, ⟨rest, sc, s.out⟩) := by
  have hov : ∀ n, n ≤ l.length + 2 → (check && over cfg.lineLimit n) = false := by
    intro n hn
    rcases hl with hl | hl
    · have : ¬ (0 ≤ cfg.lineLimit) := by omega
      simp [over, this]
    · have : ¬ ((n : Int) > cfg.lineLimit) := by omega
      simp [over, this]
  obtain ⟨sc, h1, h2⟩ := readLineOpt_found cfg check opt s (l ++ [13]) rest hc (by rw [hd]; simp [crlf]) (by simp [h10]) (hov _ (by simp))
  refine ⟨sc, h1, ?_⟩
  rw [h2]
  have h3 := stripCR_isLine (l ++ [13])
  have h4 : IsLine (l ++ [13]) l := ⟨1, rfl, h13⟩
  rw [isLine_unique h3 h4]

/-! ## Header fields -/

/-- A written field as a header line. -/
def asLine (f : Bytes × Bytes) : HLine := .field f.1 (32 :: f.2)

theorem trim_space (v : Bytes) : trim (32 :: v) = trim v := by
  have : isSpace 32 = true := by decide
  simp [trim, this]

theorem flatMap_headLine (fs : List (Bytes × Bytes)) : fs.flatMap headLine ++ asc "\r\n" = blockText (fs.map asLine) := by
  have h1 : asc "\r\n" = crlf := by decide
  have h2 : asc ": " = [58, 32] := by decide
  unfold blockText
  rw [h1]
  congr 1
  induction fs with
  | nil => rfl
  | cons f fs ih =>
    simp only [List.flatMap_cons, List.map_cons, ih]
    simp [headLine, asLine, HLine.text, h1, h2]

theorem collect_asLine (fs acc : List (Bytes × Bytes)) :
    collectFields acc (fs.map asLine) = some (acc ++ fs.map (fun f => (f.1, trim f.2))) := by
  induction fs generalizing acc with
  | nil => simp [collectFields]
  | cons f fs ih => simp [collectFields, asLine, addLine, ih, trim_space]

/-- A field that can be written: see `HLine.Ok`. -/
def FieldOk (f : Bytes × Bytes) : Prop :=
  f.1 ≠ [] ∧ (∀ c ∈ f.1, isSpace c = false ∧ c ≠ 58) ∧ (10 : UInt8) ∉ f.2 ∧ f.2.getLast? ≠ some 13

theorem FieldOk.line {f : Bytes × Bytes} (h : FieldOk f) : (asLine f).Ok := by
  obtain ⟨h1, h2, h3, h4⟩ := h
  refine ⟨?_, ?_, h1, ?_, ?_⟩
  · simp only [asLine, HLine.text, List.mem_append, not_or, List.mem_cons]
    refine ⟨⟨fun hm => ?_, by decide⟩, by decide, h3⟩
    have := (h2 _ hm).1; revert this; decide
  · simp only [asLine, HLine.text]
    cases hv : f.2 with
    | nil => simp
    | cons c v =>
      rw [hv] at h4
      rw [List.getLast?_append, List.getLast?_cons_cons]
      cases hl : (c :: v).getLast? with
      | none => simp at hl
      | some x => rw [hl] at h4; simpa using h4
  · intro c hc; exact (h2 c (List.mem_of_head? hc)).1
  · intro hm; exact (h2 _ hm).2 rfl

theorem fieldValues_cons (name : Bytes) (f : Bytes × Bytes) (fs : List (Bytes × Bytes)) :
    fieldValues name (f :: fs) = if f.1.map toLower = name.map toLower then f.2 :: fieldValues name fs else fieldValues name fs := by
  unfold fieldValues
  rw [List.filter_cons]
  by_cases h : f.1.map toLower = name.map toLower <;> simp [h]

theorem fieldValues_none {name : Bytes} {fs : List (Bytes × Bytes)} (h : ∀ f ∈ fs, f.1.map toLower ≠ name.map toLower) : fieldValues name fs = [] := by
  unfold fieldValues
  rw [List.filter_eq_nil_iff.2]
  · rfl
  · intro f hf; simpa using h f hf

theorem readHeader_fields (cfg : Cfg) (fs : List (Bytes × Bytes)) (hok : ∀ f ∈ fs, FieldOk f) (s : Conn) (rest : Bytes) (hc : Calm s.sched)
    (hd : s.data = blockText (fs.map asLine) ++ rest) :
    ∃ h sc, Calm sc ∧ readHeader cfg false [] s = (.ok h, ⟨rest, sc, s.out⟩) ∧
      ∀ name i, HttpHeader.get h name i = (fieldValues name (fs.map (fun f => (f.1, trim f.2))))[i]? := by
  obtain ⟨h1, -⟩ := readHeader_found cfg false (fs.map asLine) [] s rest hc hd (by
    intro l hl
    obtain ⟨f, hf, rfl⟩ := List.mem_map.1 hl
    exact (hok f hf).line)
  obtain ⟨sc, h2, h3⟩ := h1 _ (by rw [collect_asLine])
  exact ⟨_, sc, h2, h3, fun name i => get_stored name _ i⟩

theorem trim_id {v : Bytes} (h : ∀ c ∈ v, isSpace c = false) : trim v = v := by
  have key : ∀ l : Bytes, (∀ c ∈ l, isSpace c = false) → l.dropWhile isSpace = l := by
    intro l hl
    cases l with
    | nil => rfl
    | cons a l => simp [hl a (by simp)]
  unfold trim
  rw [key v h, key v.reverse (by simpa using h), List.reverse_reverse]

theorem dec_plain (n : Nat) : ∀ c ∈ dec n, isSpace c = false ∧ c ≠ 58 := by
  intro c hc
  obtain ⟨d, h1, -⟩ := (dec_digits' n).1 c hc
  refine ⟨(hexDigit_plain h1).1, ?_⟩
  rintro rfl
  revert h1
  have : hexDigit? 58 = none := by decide
  rw [this]; simp

theorem dec_line (n : Nat) : (10 : UInt8) ∉ dec n ∧ (dec n).getLast? ≠ some 13 := by
  refine ⟨fun h => ?_, fun h => ?_⟩
  · have := (dec_plain n _ h).1; revert this; decide
  · have := (dec_plain n _ (List.mem_of_getLast? h)).1; revert this; decide

/-! ## Bodies -/

/-- The header announces the body that follows. -/
theorem readContent_sent (cfg : Cfg) (request : Bool) (h : HttpHeader.Fields) (s : Conn) (ds : List Bytes)
    (hsink : ∀ l : List Bytes, (∀ p ∈ l, p ≠ []) → l.flatten <+: ds.flatten → cfg.sink l = none)
    (body rest : Bytes) (hc : Calm s.sched) (hout : s.out = []) (hd : s.data = body ++ rest)
    (hfit : cfg.bodyLimit < 0 ∨ (ds.flatten.length : Int) ≤ cfg.bodyLimit ∧ cfg.bodyLimit < 2 ^ 31)
    (hlen : ds.flatten.length < 2 ^ 63)
    (hbody : (HttpHeader.get h (asc "Content-Length") 0 = some (dec ds.flatten.length) ∧ body = ds.flatten) ∨
      (HttpHeader.get h (asc "Content-Length") 0 = none ∧ (∃ v, HttpHeader.get h (asc "Transfer-Encoding") 0 = some v ∧ v.map toUpper = asc "CHUNKED") ∧
        ∃ ps, body = chunked ps ∧ (∀ p ∈ ps, p ≠ []) ∧ ps.flatten = ds.flatten)) :
    ∃ qs sc, Calm sc ∧ qs.flatten = ds.flatten ∧ (∀ q ∈ qs, q ≠ []) ∧ readContent cfg request h s = (.ok h, ⟨rest, sc, qs⟩) := by
  have hf : Fits cfg (s.out.flatten.length + ds.flatten.length) := by rw [hout]; simpa [Fits] using hfit
  unfold readContent
  rcases hbody with ⟨h1, rfl⟩ | ⟨h1, ⟨v, h2, hv⟩, ps, rfl, h3, h4⟩
  · simp only [h1, readLong_dec hlen]
    rw [if_neg (by omega)]
    have ht : ((ds.flatten.length : Int)).toNat = ds.flatten.length := by omega
    rw [ht, if_neg (by rw [hf.not_over (by omega)]; decide)]
    unfold readBlock
    by_cases hz : ds.flatten.length = 0
    · have hz' : ds.flatten = [] := List.length_eq_zero_iff.1 hz
      rw [if_pos hz]
      refine ⟨[], s.sched, hc, by simp [hz'], by simp, ?_⟩
      rw [hz'] at hd
      simp only [List.nil_append] at hd
      obtain ⟨d, sc, o⟩ := s
      simp only at hd hout ⊢
      rw [hd, hout]
    · rw [if_neg hz, if_neg (by rw [hf.not_over (by omega)]; decide)]
      obtain ⟨qs, sc, g1, g2, gne, g3⟩ := readBlockLoop_found cfg ds.flatten (· ≠ []) (fun _ h => h) hsink (s.data.length + 1) ds.flatten.length s (by omega) hc (by rw [hd]; simp) (by omega) hf
        (by rw [hout, hd, List.take_left' rfl]; simp) (by simp [hout])
      rw [hd, List.take_left'] at g2
      · refine ⟨qs, sc, g1, g2, gne, ?_⟩
        rw [g3]
        simp [hd, hout]
      · rfl
  · simp only [h1, h2]
    rw [if_pos hv]
    obtain ⟨qs, sc, g1, g2, gne, g3⟩ := readChunked_found cfg ds.flatten (· ≠ []) (fun _ h => h) hsink ps h s rest hc hd (by
      intro p hp
      refine ⟨h3 p hp, ?_⟩
      have : p.length ≤ ps.flatten.length := by
        obtain ⟨a, b, rfl⟩ := List.append_of_mem hp
        simp; omega
      rw [h4] at this; omega) (by rw [h4]; exact hf) (by rw [hout, h4]; simp) (by simp [hout])
    refine ⟨qs, sc, g1, by rw [g2, h4], gne, ?_⟩
    rw [g3, hout]; simp

end HttpServer
end Frpc
