import Verif.Props.Base64
import Verif.Props.XmlRefuse
/-!
# Texts that are not base64: C132
-/
namespace Frpc
open Base64 BinUnMarshaller
open Spec (base64 IsSpace b64char b64pad)

/-- A character that has no place in a base64 text: none of the 64, no padding, no white space. NUL is left out: the decoder takes it for `A`. -/
def Foreign (c : UInt8) : Prop := ¬ IsSpace c ∧ c ≠ 0 ∧ c ≠ b64pad ∧ ∀ n < 64, c ≠ b64char n

instance : DecidablePred Foreign := fun _ => inferInstanceAs (Decidable (_ ∧ _ ∧ _ ∧ _))

/-- A text over the 64 characters, four at a time, is the encoding of something. -/
theorem base64_onto : ∀ (n : Nat) (t : Bytes), t.length = 4 * n → (∀ c ∈ t, ∃ k < 64, c = b64char k) → ∃ d, base64 d = t ∧ d.length = 3 * n
  | 0, t, h, _ => ⟨[], by rw [List.length_eq_zero_iff.1 h]; rfl, rfl⟩
  | n + 1, t, h, hc => by
    match t, h, hc with
    | c0 :: c1 :: c2 :: c3 :: t, h, hc =>
      obtain ⟨d, hd, hl⟩ := base64_onto n t (by simp only [List.length_cons] at h; omega) (fun c hm => hc c (by simp [hm]))
      obtain ⟨k0, h0, e0⟩ := hc c0 (by simp)
      obtain ⟨k1, h1, e1⟩ := hc c1 (by simp)
      obtain ⟨k2, h2, e2⟩ := hc c2 (by simp)
      obtain ⟨k3, h3, e3⟩ := hc c3 (by simp)
      refine ⟨UInt8.ofNat (k0 * 4 + k1 / 16) :: UInt8.ofNat (k1 % 16 * 16 + k2 / 4) :: UInt8.ofNat (k2 % 4 * 64 + k3) :: d, ?_, by simp only [List.length_cons]; omega⟩
      unfold base64
      rw [hd, e0, e1, e2, e3]
      simp only [UInt8.toNat_ofNat']
      congr 1
      · congr 1; omega
      congr 1
      · congr 1; omega
      congr 1
      · congr 1; omega
      congr 1
      congr 1; omega

/-- **C132 (what is base64).** A text over the 64 characters, with white space anywhere and its length without it a multiple of four, cut into any pieces: it is decoded to the
data that it is the encoding of, and nothing remains. -/
theorem C132_alphabet_partial (ps : List Bytes) (hc : ∀ c ∈ squeeze ps.flatten, ∃ k < 64, c = b64char k) (h4 : (squeeze ps.flatten).length % 4 = 0) :
    base64 (processAll [] ps).1 = squeeze ps.flatten ∧ (processAll [] ps).2 = [] := by
  obtain ⟨d, hd, -⟩ := base64_onto ((squeeze ps.flatten).length / 4) (squeeze ps.flatten) (by omega) hc
  rw [C23_decode d ps hd.symm]
  exact ⟨hd, rfl⟩

example : (∀ c ∈ squeeze [asc "TW\nFu", asc " eQ09"].flatten, ∃ k < 64, c = b64char k) ∧ (squeeze [asc "TW\nFu", asc " eQ09"].flatten).length % 4 = 0 := by decide +kernel

namespace Base64

theorem table_foreign (c : UInt8) (h : Foreign c) : table c = 0x80 ∧ isspace c = false ∧ c ≠ 61 := by
  have key : ∀ n < 256, Foreign (UInt8.ofNat n) → table (UInt8.ofNat n) = 0x80 ∧ isspace (UInt8.ofNat n) = false ∧ UInt8.ofNat n ≠ 61 := by decide +kernel
  have := key c.toNat c.toNat_lt
  rw [UInt8.ofNat_toNat] at this
  exact this h

theorem quad_foreign (f : UInt8 → UInt8) (hf : ∀ c, f c = c ∨ (Foreign c ∧ Foreign (f c))) (a b c d : UInt8) : quad (f a) (f b) (f c) (f d) = quad a b c d := by
  have key : ∀ c, table (f c) = table c ∧ (f c = 61 ↔ c = 61) := by
    intro c
    rcases hf c with h | ⟨h1, h2⟩
    · rw [h]; exact ⟨rfl, .rfl⟩
    · obtain ⟨a1, -, a3⟩ := table_foreign _ h1
      obtain ⟨b1, -, b3⟩ := table_foreign _ h2
      exact ⟨by rw [a1, b1], ⟨fun h => absurd h b3, fun h => absurd h a3⟩⟩
  unfold quad
  simp only [(key a).1, (key b).1, (key c).1, (key d).1, (key c).2, (key d).2]

theorem process_foreign (f : UInt8 → UInt8) (hf : ∀ c, f c = c ∨ (Foreign c ∧ Foreign (f c))) : ∀ (t a : Bytes),
    process (a.map f) (t.map f) = ((process a t).1, (process a t).2.map f)
  | [], a => rfl
  | c :: t, a => by
    have hs : isspace (f c) = isspace c := by
      rcases hf c with h | ⟨h1, h2⟩
      · rw [h]
      · rw [(table_foreign _ h1).2.1, (table_foreign _ h2).2.1]
    rw [List.map_cons]
    unfold process
    rw [hs]
    by_cases h : isspace c = true
    · rw [if_pos h, if_pos h]; exact process_foreign f hf t a
    · rw [if_neg h, if_neg h]
      match a with
      | [a0, a1, a2] =>
        simp only [List.map_cons, List.map_nil, quad_foreign f hf]
        by_cases hl : (quad a0 a1 a2 c).length < 3
        · rw [if_pos hl, if_pos hl]; rfl
        · have := process_foreign f hf t []
          simp only [List.map_nil] at this
          rw [if_neg hl, if_neg hl, this]
      | [] => exact process_foreign f hf t [c]
      | [a0] => exact process_foreign f hf t [a0, c]
      | [a0, a1] => exact process_foreign f hf t [a0, a1, c]
      | a0 :: a1 :: a2 :: a3 :: a =>
        have := process_foreign f hf t ((a0 :: a1 :: a2 :: a3 :: a) ++ [c])
        simp only [List.map_append, List.map_cons, List.map_nil] at this ⊢
        exact this

theorem processAll_foreign (f : UInt8 → UInt8) (hf : ∀ c, f c = c ∨ (Foreign c ∧ Foreign (f c))) : ∀ (ps : List Bytes) (a : Bytes),
    processAll (a.map f) (ps.map (List.map f)) = ((processAll a ps).1, (processAll a ps).2.map f)
  | [], a => rfl
  | p :: ps, a => by
    rw [List.map_cons]
    unfold processAll
    simp only [process_foreign f hf, processAll_foreign f hf ps]

end Base64

/-- **C132 (all foreign characters are the same).** No foreign character has a meaning of its own: if foreign characters of a text are replaced by other ones, the same data are
decoded. -/
theorem C132_foreign (f : UInt8 → UInt8) (hf : ∀ c, f c = c ∨ (Foreign c ∧ Foreign (f c))) (ps : List Bytes) :
    (processAll [] (ps.map (List.map f))).1 = (processAll [] ps).1 := by
  have := processAll_foreign f hf ps []
  simp only [List.map_nil] at this
  rw [this]

/-- The characters of the URL-safe alphabet are as any other foreign ones. -/
def noUrl (c : UInt8) : UInt8 := if c = 45 ∨ c = 95 then 33 else c

example : ∀ c, noUrl c = c ∨ (Foreign c ∧ Foreign (noUrl c)) := by
  intro c
  unfold noUrl
  split
  · rename_i h
    rcases h with rfl | rfl <;> right <;> decide +kernel
  · exact .inl rfl

namespace Base64

theorem quad_length (a b c d : UInt8) : (quad a b c d).length ≤ 3 := by unfold quad; simp only [List.length_take, List.length_cons, List.length_nil]; omega

theorem process_size : ∀ (t a : Bytes), a.length ≤ 3 →
    4 * (process a t).1.length + 3 * (process a t).2.length ≤ 3 * (a.length + (t.filter (fun c => !isspace c)).length) ∧ (process a t).2.length ≤ 3
  | [], a, h => by simp [process, h]
  | c :: t, a, h => by
    unfold process
    by_cases hs : isspace c = true
    · rw [if_pos hs]
      have := process_size t a h
      simpa [List.filter_cons, hs] using this
    · rw [if_neg hs]
      have hf : (List.filter (fun c => !isspace c) (c :: t)).length = (List.filter (fun c => !isspace c) t).length + 1 := by simp [List.filter_cons, hs]
      rw [hf]
      match a, h with
      | [a0, a1, a2], _ =>
        have hq := quad_length a0 a1 a2 c
        simp only
        by_cases hl : (quad a0 a1 a2 c).length < 3
        · rw [if_pos hl]
          simp only [List.length_nil, List.length_cons]
          omega
        · rw [if_neg hl]
          have := process_size t [] (by simp)
          simp only [List.length_append, List.length_cons, List.length_nil] at this ⊢
          omega
      | [], _ => have := process_size t [c] (by simp); simp only [List.nil_append, List.length_cons, List.length_nil] at this ⊢; omega
      | [a0], _ => have := process_size t [a0, c] (by simp); simp only [List.cons_append, List.nil_append, List.length_cons, List.length_nil] at this ⊢; omega
      | [a0, a1], _ => have := process_size t [a0, a1, c] (by simp); simp only [List.cons_append, List.nil_append, List.length_cons, List.length_nil] at this ⊢; omega
      | a0 :: a1 :: a2 :: a3 :: a, h => simp only [List.length_cons] at h; omega

theorem processAll_size : ∀ (ps : List Bytes) (a : Bytes), a.length ≤ 3 →
    4 * (processAll a ps).1.length + 3 * (processAll a ps).2.length ≤ 3 * (a.length + (ps.flatten.filter (fun c => !isspace c)).length)
  | [], a, h => by simp [processAll]
  | p :: ps, a, h => by
    unfold processAll
    obtain ⟨h1, h2⟩ := process_size p a h
    have h3 := processAll_size ps _ h2
    simp only [List.length_append, List.flatten_cons, List.filter_append]
    omega

end Base64

/-- **C132 (size).** Whatever the text, the data are at most three bytes for four characters of it, white space not counted. -/
theorem C132_size (ps : List Bytes) : 4 * (processAll [] ps).1.length ≤ 3 * (squeeze ps.flatten).length := by
  have := processAll_size ps [] (by simp)
  rw [← squeeze_eq] at this
  simp only [List.length_nil] at this
  omega

/-- No data have an encoding with a foreign character. -/
theorem base64_noForeign (d : Bytes) (c : UInt8) (hc : c ∈ base64 d) : ¬ Foreign c := by
  have h := C22_alphabet [d]
  rw [(C22_writer [d]).1] at h
  intro hf
  rcases h c (by simpa using hc) with h | ⟨n, hn, h⟩
  · exact hf.2.2.1 h
  · exact hf.2.2.2 n hn h

/-- The binary value of a response, for the witness. -/
def binaryOf (req : Req) (ds : List Bytes) : Option Bytes :=
  match TreeBuilder.getData (XmlUnMarshaller.run xmlExampleEnv XmlParser.eager (TreeBuilder.builder ⟨fun _ => true, none⟩) req TreeBuilder.init ds).2.1 with
  | .ok (.binary b) => some b
  | _ => none

/-- **C132 is false.** A text that is not the encoding of anything is not refused: it is decoded to data, by the decoder and inside an XML response. -/
theorem C132_violated : ¬ (∀ t d r, processAll [] [t] = (d, r) → d ≠ [] → ∃ d', squeeze t = base64 d') ∧
    ¬ (∀ inner : String, readOne .response [responseDoc ("<base64>" ++ inner ++ "</base64>")] = none → ∃ d', squeeze (asc inner) = base64 d') := by
  have hno : ¬ ∃ d', squeeze (asc "T!Fu") = base64 d' := by
    rintro ⟨d', h⟩
    exact base64_noForeign d' 33 (by rw [← h]; decide +kernel) (by decide +kernel)
  constructor
  · intro h
    exact hno (h (asc "T!Fu") _ _ rfl (by decide +kernel))
  · intro h
    exact hno (h "T!Fu" (by decide +kernel))

example : binaryOf .response [responseDoc "<base64>T!Fu</base64>"] = some [76, 1, 110] := by decide +kernel

/-- NUL is taken for `A`. -/
theorem C132_nul_violated : (processAll [] [[0, 0, 0, 0]]).1 = [0, 0, 0] ∧ (processAll [] [asc "AAAA"]).1 = [0, 0, 0] := by decide +kernel

/-- Characters after the padding, within four, are ignored. -/
theorem C132_padding_violated : (processAll [] [asc "TQ=x"]).1 = asc "M" ∧ ¬ ∃ d', squeeze (asc "TQ=x") = base64 d' := by
  refine ⟨by decide +kernel, ?_⟩
  rintro ⟨d', h⟩
  have hsq : squeeze (asc "TQ=x") = asc "TQ=x" := by decide +kernel
  rw [hsq] at h
  match d', h with
  | [], h => exact absurd h (by decide +kernel)
  | [a], h =>
    unfold base64 at h
    have : (asc "TQ=x").getD 3 0 = b64pad := congrArg (fun l => l.getD 3 0) h
    exact absurd this (by decide +kernel)
  | [a, b], h =>
    unfold base64 at h
    have : (asc "TQ=x").getD 3 0 = b64pad := congrArg (fun l => l.getD 3 0) h
    exact absurd this (by decide +kernel)
  | a :: b :: c :: r, h =>
    unfold base64 at h
    have := congrArg (fun l => l.getD 2 0) h
    simp only [List.getD_cons_succ, List.getD_cons_zero] at this
    have hk := (table_chr (n := b.toNat % 16 * 4 + c.toNat / 64) (by have := c.toNat_lt; omega)).2.1
    exact hk (this.symm.trans (by decide +kernel))

end Frpc
