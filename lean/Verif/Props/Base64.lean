import Verif.Proofs.Base64
import Verif.Props.RoundTrip
/-!
# Base64 (C22–C25)

`Spec.base64` is RFC 4648 base64; `Spec.IsSpace` is C-locale white space.
-/
namespace Frpc
open Base64 BinUnMarshaller
open Spec (base64 IsSpace)

/-- The text without its white space. -/
def squeeze (t : Bytes) : Bytes := t.filter (fun c => decide (¬ IsSpace c))

theorem squeeze_eq (t : Bytes) : squeeze t = t.filter (fun c => !isspace c) := by
  unfold squeeze
  congr 1; funext c
  have := isspace_iff c
  by_cases h : isspace c = true
  · simp [h, this.1 h]
  · have h' : ¬ IsSpace c := fun x => h (this.2 x)
    simp [h, h']

/-- **C22.** Whatever the division into `write` calls, what the underlying writer got after `flush` is the RFC 4648
encoding of everything written; and the writer is then as new. -/
theorem C22_writer (ps : List Bytes) :
    ((W.init.writes ps).1 ++ (W.init.writes ps).2.flush.1).flatten = base64 ps.flatten ∧
    (W.init.writes ps).2.flush.2 = W.init := by
  obtain ⟨h1, h2⟩ := writes_eq W.init ps
  refine ⟨?_, rfl⟩
  rw [List.flatten_append, h1, h2, ← List.flatten_append]
  exact write_flush _

example : ((W.init.writes [asc "M", [], asc "an", asc "y"]).1 ++ (W.init.writes [asc "M", [], asc "an", asc "y"]).2.flush.1).flatten
    = asc "TWFueQ==" := by decide +kernel

/-- **C22 (no table overrun).** Every character written is one of the 64 of the alphabet or `=`. -/
theorem C22_alphabet (ps : List Bytes) :
    ∀ c ∈ ((W.init.writes ps).1 ++ (W.init.writes ps).2.flush.1).flatten, c = 61 ∨ ∃ n < 64, c = Spec.b64char n := by
  rw [(C22_writer ps).1]
  generalize ps.flatten = d
  have key : ∀ (n : Nat) (d : Bytes), d.length ≤ n → ∀ c ∈ base64 d, c = 61 ∨ ∃ n < 64, c = Spec.b64char n := by
    intro n
    induction n with
    | zero => intro d h c hc; cases d with
      | nil => simp [base64] at hc
      | cons => simp at h
    | succ n ih =>
      intro d h c hc
      match d, h, hc with
      | [], _, hc => simp [base64] at hc
      | [a], _, hc =>
        have := a.toNat_lt
        simp only [base64, List.mem_cons, List.not_mem_nil, or_false] at hc
        rcases hc with rfl | rfl | rfl | rfl
        · exact .inr ⟨_, by omega, rfl⟩
        · exact .inr ⟨_, by omega, rfl⟩
        · exact .inl rfl
        · exact .inl rfl
      | [a, b], _, hc =>
        have := a.toNat_lt
        have := b.toNat_lt
        simp only [base64, List.mem_cons, List.not_mem_nil, or_false] at hc
        rcases hc with rfl | rfl | rfl | rfl
        · exact .inr ⟨_, by omega, rfl⟩
        · exact .inr ⟨_, by omega, rfl⟩
        · exact .inr ⟨_, by omega, rfl⟩
        · exact .inl rfl
      | a :: b :: e :: r, h, hc =>
        have := a.toNat_lt
        have := b.toNat_lt
        have := e.toNat_lt
        simp only [base64, List.mem_cons] at hc
        rcases hc with rfl | rfl | rfl | rfl | hc
        · exact .inr ⟨_, by omega, rfl⟩
        · exact .inr ⟨_, by omega, rfl⟩
        · exact .inr ⟨_, by omega, rfl⟩
        · exact .inr ⟨_, by omega, rfl⟩
        · exact ih r (by simp only [List.length_cons] at h; omega) c hc
  exact key d.length d (Nat.le_refl _)

/-- **C23.** A text that is the encoding of `d` with white space inserted anywhere, cut into any pieces, is decoded to `d`, nothing remaining. -/
theorem C23_decode (d : Bytes) (ps : List Bytes) (h : squeeze ps.flatten = base64 d) : processAll [] ps = (d, []) := by
  rw [squeeze_eq] at h
  exact processAll_rem d [] ps ⟨by simp, by simpa using h⟩

example : squeeze [asc "TW\nFu", asc " eQ=", asc "=\r\n"].flatten = base64 (asc "Many") := by decide +kernel

/-- The one-shot `Base64::decode` (`src/frpcbase64.cc:79-82`). -/
theorem C23_decode_once (d t : Bytes) (h : squeeze t = base64 d) : (process [] t).1 = d := by
  have := C23_decode d [t] (by simpa using h)
  simp only [processAll, Prod.mk.injEq, List.append_nil] at this
  exact this.1

/-- Remark: beyond C23 the decoder is not chunking independent: after a padded quad it forgets the rest of the piece it is in, but not the following pieces. -/
theorem C23_after_padding_depends_on_pieces :
    processAll [] [asc "TQ==TWFu"] ≠ processAll [] [asc "TQ==", asc "TWFu"] := by decide +kernel

/-- **C24.** Without line breaks the body is the base64 of the concatenated chunks; with line breaks it is that text cut into lines of at most 76
characters separated by CR LF. The result does not depend on chunk boundaries. -/
theorem C24_body (chunks : List Bytes) :
    writeEncodeBase64 false chunks = base64 chunks.flatten ∧
    (∃ lines : List Bytes, writeEncodeBase64 true chunks = joinLines lines ∧ lines.flatten = base64 chunks.flatten ∧ ∀ l ∈ lines, l.length ≤ 76) ∧
    (∀ rn chunks', chunks'.flatten = chunks.flatten → writeEncodeBase64 rn chunks' = writeEncodeBase64 rn chunks) := by
  refine ⟨?_, ?_, ?_⟩
  · unfold writeEncodeBase64
    simp only [encChunks_eq, enc_plain]
  · obtain ⟨l, ls, h1, h2, h3, h4⟩ := enc_lines chunks.flatten 0 (by omega)
    refine ⟨l :: ls, ?_, by simpa using h2, ?_⟩
    · unfold writeEncodeBase64
      simp only [encChunks_eq]; exact h1
    · intro x hx
      rcases List.mem_cons.1 hx with rfl | hx
      · omega
      · exact h4 x hx
  · intro rn c' h
    unfold writeEncodeBase64
    simp only [encChunks_eq, h]

/-- **C24 (decoding).** Either form decodes, in any pieces, to the concatenated chunks. -/
theorem C24_decodes (rn : Bool) (chunks ps : List Bytes) (h : ps.flatten = writeEncodeBase64 rn chunks) :
    processAll [] ps = (chunks.flatten, []) := by
  apply C23_decode
  rw [h]
  obtain ⟨h1, ⟨ls, h2, h3, _⟩, _⟩ := C24_body chunks
  rw [squeeze_eq]
  cases rn with
  | false =>
    rw [h1, List.filter_eq_self]
    intro c hc; simp [nospace_base64 _ c hc]
  | true =>
    rw [h2, joinLines_filter, h3]
    intro c hc; rw [h3] at hc; exact nospace_base64 _ c hc

example : writeEncodeBase64 true [List.replicate 40 0, List.replicate 20 255] =
    joinLines [(base64 (List.replicate 40 0 ++ List.replicate 20 255)).take 76, (base64 (List.replicate 40 0 ++ List.replicate 20 255)).drop 76, []] := by
  decide +kernel

/-- **C25.** A message written by the base64 marshaller arrives, in any pieces and with any white space added, exactly as the
plain binary message does in any pieces `qs`: same effect on every builder, same outcome, same outcome of `finish`. -/
theorem C25_transport {β} (B : Builder β) (req : Req) (b : β) (strOk : Bytes → Bool) (ver : Version) (ops : List PackOp)
    (ps qs : List Bytes) (hps : squeeze ps.flatten = (Base64.marshal strOk ver ops).1)
    (hqs : qs.flatten = (BinMarshaller.run strOk ver ops).1.flatten) :
    let x := (Base64.unMarshallAll B req [] BinUnMarshaller.init b ps).2
    let y := BinUnMarshaller.unMarshallAll B req BinUnMarshaller.init b qs
    x.2.1 = y.2.1 ∧ x.2.2 = y.2.2 ∧ (x.2.2 = none → finish x.1 = finish y.1) := by
  obtain ⟨rs, h1, h2⟩ := unMarshallAll_eq B req ps [] BinUnMarshaller.init b
  have hd := C23_decode (BinMarshaller.run strOk ver ops).1.flatten ps (by
    rw [hps]; unfold Base64.marshal; exact (C22_writer _).1)
  rw [hd] at h2
  simp only [h1]
  exact C04_chunking_finish B req b rs qs (by rw [h2, hqs])

/-- **C25 (round trip).** A response within the limits sent over base64 is received as the sent tree (as C01). -/
theorem C25_response (cfg : TreeBuilder.Cfg) (ver : Version) (hv : ver.Known) (v : Value) (hw : WireOk cfg.strOk ver v) :
    ∃ text, Base64.marshal cfg.strOk ver (.packMethodResponse :: feed v) = (text, none) ∧
      ∀ ps, squeeze ps.flatten = text → ∃ o tb,
        (Base64.unMarshallAll (TreeBuilder.builder cfg) .response [] BinUnMarshaller.init TreeBuilder.init ps).2 = (o, tb, none) ∧
        finish o = .ok () ∧ TreeBuilder.getData tb = .ok (received cfg ver v) := by
  obtain ⟨ws, h1, h2⟩ := response_received cfg ver hv .response (.inl rfl) v hw
  refine ⟨_, Prod.ext rfl ?_, fun ps hps => ?_⟩
  · unfold Base64.marshal
    unfold sendResponse at h1
    simp only [h1]
  · obtain ⟨tb, h3, h4⟩ := h2 [ws.flatten] (by simp)
    have ht := C25_transport (TreeBuilder.builder cfg) .response TreeBuilder.init cfg.strOk ver (.packMethodResponse :: feed v) ps [ws.flatten] hps
      (by unfold sendResponse at h1; rw [h1]; simp)
    simp only at ht
    unfold receive at h3
    cases hy : BinUnMarshaller.unMarshallAll (TreeBuilder.builder cfg) .response BinUnMarshaller.init TreeBuilder.init [ws.flatten] with
    | mk o r =>
      obtain ⟨t, x⟩ := r
      rw [hy] at h3 ht
      cases x with
      | some e => simp at h3
      | none =>
        cases hf : finish o with
        | error e => simp [hf, bind, Except.bind] at h3
        | ok u =>
          simp only [hf, bind, Except.bind, pure, Except.pure, Except.ok.injEq] at h3
          subst h3
          cases hx : (Base64.unMarshallAll (TreeBuilder.builder cfg) .response [] BinUnMarshaller.init TreeBuilder.init ps).2 with
          | mk o' r' =>
            obtain ⟨t', x'⟩ := r'
            rw [hx] at ht
            simp only at ht
            obtain ⟨rfl, rfl, h5⟩ := ht
            exact ⟨o', t', rfl, by rw [h5 rfl, hf], h4⟩

example : WireOk plainCfg.strOk ⟨2, 1⟩ sampleTree := by
  simp only [sampleTree, WireOk, WireOkItems, WireOkMembers, asc]; decide

end Frpc
