import Verif.Spec.PyServer
import Verif.Proofs.StructMap
/-!
# The registry of the Python server: C109 - C113
-/
namespace Frpc
open PyServer Spec.PyServer
open Python (Py Key Exn decodes)
variable {σ : Type}

namespace PyServer

/-! ## C109: signatures -/

theorem letter_iff (c : UInt8) (t : Bytes) : letter c = some t ↔ (c, t) ∈ letters := by
  constructor
  · intro h
    unfold letter at h
    unfold letters
    repeat' split at h
    all_goals cases h
    all_goals simp [*]
  · intro h
    simp only [letters, List.mem_cons, Prod.mk.injEq, List.not_mem_nil, or_false] at h
    rcases h with ⟨rfl, rfl⟩ | ⟨rfl, rfl⟩ | ⟨rfl, rfl⟩ | ⟨rfl, rfl⟩ | ⟨rfl, rfl⟩ | ⟨rfl, rfl⟩ | ⟨rfl, rfl⟩ | ⟨rfl, rfl⟩ <;> rfl

theorem letter_not {c : UInt8} {t : Bytes} (h : (c, t) ∈ letters) : c ≠ 58 ∧ c ≠ 44 := by
  simp only [letters, List.mem_cons, Prod.mk.injEq, List.not_mem_nil, or_false] at h
  rcases h with ⟨rfl, rfl⟩ | ⟨rfl, rfl⟩ | ⟨rfl, rfl⟩ | ⟨rfl, rfl⟩ | ⟨rfl, rfl⟩ | ⟨rfl, rfl⟩ | ⟨rfl, rfl⟩ | ⟨rfl, rfl⟩ <;> decide

theorem loop_letter {c : UInt8} {t : Bytes} (h : (c, t) ∈ letters) (done : List (List Bytes)) (cur : List Bytes) (i : Nat) (hi : i ≠ 1) (s : Bytes) :
    PyServer.signatureLoop done cur i (c :: s) = PyServer.signatureLoop done (cur ++ [t]) (i + 1) s := by
  rw [PyServer.signatureLoop]
  rw [if_neg (letter_not h).1, if_neg (letter_not h).2, (letter_iff c t).2 h]
  simp only [if_neg hi]

theorem loop_types {s : Bytes} {ts : List Bytes} (h : Types s ts) : ∀ (done : List (List Bytes)) (cur : List Bytes) (i : Nat), 2 ≤ i → ∀ rest : Bytes,
    PyServer.signatureLoop done cur i (s ++ rest) = PyServer.signatureLoop done (cur ++ ts) (i + s.length) rest := by
  induction h with
  | nil => intro done cur i _ rest; simp
  | cons c t s ts hm _ ih =>
    intro done cur i hi rest
    rw [List.cons_append, loop_letter hm done cur i (by omega), ih done (cur ++ [t]) (i + 1) (by omega) rest]
    simp only [List.append_assoc, List.cons_append, List.nil_append, List.length_cons]
    congr 1
    omega

theorem loop_part {s : Bytes} {ts : List Bytes} (h : Part s ts) (done : List (List Bytes)) : ∃ i, 2 ≤ i ∧ ∀ rest : Bytes,
    PyServer.signatureLoop done [] 0 (s ++ rest) = PyServer.signatureLoop done ts i rest := by
  obtain ⟨c, t, s, ts, hm, ht⟩ := h
  refine ⟨2 + s.length, by omega, fun rest => ?_⟩
  rw [List.cons_append, loop_letter hm done [] 0 (by omega), List.cons_append]
  have h1 : PyServer.signatureLoop done ([] ++ [t]) (0 + 1) (58 :: (s ++ rest)) = PyServer.signatureLoop done [t] 2 (s ++ rest) := by
    rw [PyServer.signatureLoop]; simp
  rw [h1, loop_types ht done [t] 2 (by omega)]
  rfl

theorem loop_signatures {s : Bytes} {ps : List (List Bytes)} (h : Signatures s ps) : ∀ done, PyServer.signatureLoop done [] 0 s = some (done ++ ps) := by
  induction h with
  | one s ts hp =>
    intro done
    obtain ⟨i, _, hi⟩ := loop_part hp done
    have := hi []
    rw [List.append_nil] at this
    rw [this, PyServer.signatureLoop]
  | more s ts rest ps hp _ ih =>
    intro done
    obtain ⟨i, h2, hi⟩ := loop_part hp done
    rw [hi (44 :: rest), PyServer.signatureLoop, if_neg (by decide), if_pos rfl, if_neg (by omega), ih (done ++ [ts])]
    simp

/-- What the loop accepts. -/
theorem loop_accepts (s : Bytes) : ∀ (done : List (List Bytes)) (cur : List Bytes) (i : Nat) (r : List (List Bytes)), PyServer.signatureLoop done cur i s = some r →
    (i = 0 → cur = [] → ∃ ps, r = done ++ ps ∧ (Signatures s ps ∨ Unfinished s ps)) ∧
    (i = 1 → ∀ c t, cur = [t] → (c, t) ∈ letters → ∃ ps, r = done ++ ps ∧ (Signatures (c :: s) ps ∨ Unfinished (c :: s) ps)) ∧
    (2 ≤ i → ∀ p, Part p cur → ∃ ps, r = done ++ ps ∧ (Signatures (p ++ s) ps ∨ Unfinished (p ++ s) ps)) := by
  induction s with
  | nil =>
    intro done cur i r h
    rw [PyServer.signatureLoop] at h
    cases h
    refine ⟨fun _ hc => ?_, fun _ c t hc hm => ?_, fun _ p hp => ?_⟩
    · subst hc; exact ⟨[[]], rfl, .inr .nothing⟩
    · subst hc; exact ⟨[[t]], rfl, .inr (.result c t hm)⟩
    · exact ⟨[cur], rfl, .inl (by rw [List.append_nil]; exact .one p cur hp)⟩
  | cons d s ih =>
    intro done cur i r h
    rw [PyServer.signatureLoop] at h
    by_cases h58 : d = 58
    · rw [if_pos h58] at h
      by_cases hi : i ≠ 1
      · rw [if_pos hi] at h; cases h
      · rw [if_neg hi] at h
        have hi : i = 1 := by omega
        subst hi
        refine ⟨fun h => by omega, fun _ c t hc hm => ?_, fun h => by omega⟩
        obtain ⟨ps, h1, h2⟩ := (ih done cur 2 r h).2.2 (by omega) [c, 58] (hc ▸ .mk c t [] [] hm .nil)
        exact ⟨ps, h1, by rw [h58]; exact h2⟩
    · rw [if_neg h58] at h
      by_cases h44 : d = 44
      · rw [if_pos h44] at h
        by_cases hi : i < 2
        · rw [if_pos hi] at h; cases h
        · rw [if_neg hi] at h
          refine ⟨fun h => by omega, fun h => by omega, fun _ p hp => ?_⟩
          obtain ⟨ps, h1, h2⟩ := (ih (done ++ [cur]) [] 0 r h).1 rfl rfl
          refine ⟨cur :: ps, by rw [h1]; simp, ?_⟩
          rw [h44]
          rcases h2 with h2 | h2
          · exact .inl (.more p cur s ps hp h2)
          · exact .inr (.more p cur s ps hp h2)
      · rw [if_neg h44] at h
        cases hl : letter d with
        | none => rw [hl] at h; cases h
        | some t' =>
          rw [hl] at h
          simp only at h
          have hm := (letter_iff d t').1 hl
          by_cases hi : i = 1
          · rw [if_pos hi] at h; cases h
          · rw [if_neg hi] at h
            have H := ih done (cur ++ [t']) (i + 1) r h
            refine ⟨fun h0 hc => ?_, fun h => absurd h hi, fun h2 p hp => ?_⟩
            · subst h0; subst hc
              exact H.2.1 rfl d t' rfl hm
            · obtain ⟨c, t, q, ts, hcm, ht⟩ := hp
              have ht' : Types (q ++ [d]) (ts ++ [t']) := by
                clear h H h2 hcm
                induction ht with
                | nil => exact .cons d t' [] [] hm .nil
                | cons a b q ts ha _ ih' => exact .cons a b _ _ ha ih'
              obtain ⟨ps, h3, h4⟩ := H.2.2 (by omega) (c :: 58 :: (q ++ [d])) (.mk c t _ _ hcm ht')
              refine ⟨ps, h3, ?_⟩
              simpa using h4

end PyServer

/-- **C109 (signatures that are right).** Signatures in the notation of the library, a letter of the result, a colon and the letters of
the parameters, any number of them separated by commas, are understood: the lists of the type names, in order. -/
theorem C109_accepted (s : Bytes) (ps : List (List Bytes)) (h : Signatures s ps) : stringToSignature s = some ps :=
  PyServer.loop_signatures h []

/-- **C109 (those that are not).** Anything else is refused, except for a last signature that stops before its colon, which is taken
for what there is of it. Missing: refusing that (`C109_violated`). -/
theorem C109_refused_partial (s : Bytes) (ps : List (List Bytes)) (h : stringToSignature s = some ps) : Signatures s ps ∨ Unfinished s ps := by
  obtain ⟨qs, h1, h2⟩ := (PyServer.loop_accepts s [] [] 0 ps h).1 rfl rfl
  rw [List.nil_append] at h1
  rw [h1]
  exact h2

/-- **C109 (the same in C++).** For signatures that are right, `system.methodSignature` of the Python server and of the C++ server
give the same lists. -/
theorem C109_same (s : Bytes) (ps : List (List Bytes)) (h : Signatures s ps) :
    Registry.signatureLoop [] [] s = ps.map (·.map Value.string) := by
  have hl : ∀ c t, (c, t) ∈ letters → Registry.signatureLetter c = some (some t) := by
    intro c t h
    simp only [letters, List.mem_cons, Prod.mk.injEq, List.not_mem_nil, or_false] at h
    rcases h with ⟨rfl, rfl⟩ | ⟨rfl, rfl⟩ | ⟨rfl, rfl⟩ | ⟨rfl, rfl⟩ | ⟨rfl, rfl⟩ | ⟨rfl, rfl⟩ | ⟨rfl, rfl⟩ | ⟨rfl, rfl⟩ <;> rfl
  have ht : ∀ {s ts}, Types s ts → ∀ (done : List (List Value)) (cur : List Value) (rest : Bytes),
      Registry.signatureLoop done cur (s ++ rest) = Registry.signatureLoop done (cur ++ ts.map Value.string) rest := by
    intro s ts h
    induction h with
    | nil => intro done cur rest; simp
    | cons c t s ts hm _ ih =>
      intro done cur rest
      rw [List.cons_append, Registry.signatureLoop, hl c t hm]
      simp only [ih done (cur ++ [.string t]) rest, List.map_cons, List.append_assoc, List.cons_append, List.nil_append]
  have hp : ∀ {s ts}, Part s ts → ∀ (done : List (List Value)) (rest : Bytes),
      Registry.signatureLoop done [] (s ++ rest) = Registry.signatureLoop done (ts.map Value.string) rest := by
    intro s ts h done rest
    obtain ⟨c, t, s, ts, hm, h⟩ := h
    rw [List.cons_append, Registry.signatureLoop, hl c t hm]
    have h58 : ∀ cur r, Registry.signatureLoop done cur (58 :: r) = Registry.signatureLoop done cur r := by
      intro cur r
      rw [Registry.signatureLoop]
      rfl
    simp only [List.cons_append, h58]
    rw [ht h]
    rfl
  have : ∀ done, Registry.signatureLoop done [] s = done ++ ps.map (·.map Value.string) := by
    induction h with
    | one s ts h =>
      intro done
      have := hp h done []
      rw [List.append_nil] at this
      rw [this, Registry.signatureLoop]
      rfl
    | more s ts rest ps h _ ih =>
      intro done
      rw [hp h done (44 :: rest), Registry.signatureLoop]
      have : Registry.signatureLetter 44 = none := rfl
      rw [this]
      simp only [ih (done ++ [ts.map Value.string])]
      simp
  simpa using this []

example : Signatures (asc "i:sA,D:") [[asc "int", asc "string", asc "array"], [asc "dateTime"]] :=
  .more (asc "i:sA") _ (asc "D:") _ (.mk 105 _ (asc "sA") _ (by decide) (.cons 115 _ _ _ (by decide) (.cons 65 _ _ _ (by decide) .nil)))
    (.one _ _ (.mk 68 _ [] _ (by decide) .nil))
example : stringToSignature (asc "i:sA,D:") = some [[asc "int", asc "string", asc "array"], [asc "dateTime"]] := rfl
example : stringToSignature (asc "i:s:") = none ∧ stringToSignature (asc "i:q") = none ∧ stringToSignature (asc "i:,,i:") = none ∧ stringToSignature (asc "ii:") = none :=
  ⟨rfl, rfl, rfl, rfl⟩

/-- **C109, as stated, is false:** a signature that stops before its colon is accepted: nothing at all, a result alone, nothing after a comma. -/
theorem C109_violated :
    (stringToSignature [] = some [[]] ∧ ¬ ∃ ps, Signatures [] ps) ∧
    (stringToSignature (asc "i") = some [[asc "int"]] ∧ ¬ ∃ ps, Signatures (asc "i") ps) ∧
    (stringToSignature (asc "i:s,") = some [[asc "int", asc "string"], []] ∧ ¬ ∃ ps, Signatures (asc "i:s,") ps) := by
  have two : ∀ {s ts}, Part s ts → 2 ≤ s.length ∧ s[1]? = some 58 := by
    intro s ts h
    obtain ⟨c, t, s, ts, _, _⟩ := h
    exact ⟨by simp, rfl⟩
  have len : ∀ {s ps}, Signatures s ps → 2 ≤ s.length := by
    intro s ps h
    cases h with
    | one _ _ h => exact (two h).1
    | more s _ _ _ h _ => have := (two h).1; simp; omega
  refine ⟨⟨rfl, ?_⟩, ⟨rfl, ?_⟩, ⟨rfl, ?_⟩⟩
  · rintro ⟨ps, h⟩
    exact absurd (len h) (by decide)
  · rintro ⟨ps, h⟩
    exact absurd (len h) (by decide)
  · rintro ⟨ps, h⟩
    generalize hs : asc "i:s," = s at h
    cases h with
    | one _ ts h =>
      obtain ⟨c, t, q, ts, _, hq⟩ := h
      have : q = [115, 44] := by
        have : asc "i:s," = [105, 58, 115, 44] := rfl
        rw [this] at hs; simp at hs; exact hs.2.symm
      subst this
      cases hq with
      | cons _ _ _ _ _ hq =>
        cases hq with
        | cons _ _ _ _ hm _ => exact absurd rfl (PyServer.letter_not hm).2
    | more p ts rest ps hp hr =>
      have hl : (asc "i:s,").length = (p ++ 44 :: rest).length := by rw [hs]
      have h1 := (two hp).1
      have h2 := len hr
      have : (asc "i:s,").length = 4 := rfl
      simp at hl
      omega


/-! ## C110: registration -/

namespace PyServer

theorem signature_given (a : Option Py) (p : Py) : givenSignature a = .ok p ↔ SignatureGiven a p := by
  constructor
  · intro h
    cases a with
    | none => cases h; exact .missing
    | some q =>
      cases q with
      | str s =>
        simp only [givenSignature] at h
        split at h
        · cases h
        · next ps hs => cases h; exact .text s ps (C109_refused_partial s ps hs)
      | surrogates => cases h
      | _ => cases h; exact .object _ (fun s => nofun) nofun
  · intro h
    cases h with
    | missing => rfl
    | text s ps h =>
      have : stringToSignature s = some ps := by
        rcases h with h | h
        · exact C109_accepted s ps h
        · have : ∀ done, PyServer.signatureLoop done [] 0 s = some (done ++ ps) := by
            induction h with
            | nothing => intro done; rfl
            | result c t hm => intro done; rw [loop_letter hm done [] 0 (by omega)]; rfl
            | more s ts rest ps hp _ ih =>
              intro done
              obtain ⟨i, h2, hi⟩ := loop_part hp done
              rw [hi (44 :: rest), PyServer.signatureLoop, if_neg (by decide), if_pos rfl, if_neg (by omega), ih (done ++ [ts])]
              simp
          exact this []
      simp only [givenSignature, this]
      rfl
    | object p h1 h2 =>
      cases p <;> first | rfl | exact absurd rfl (h1 _) | exact absurd rfl h2

theorem doc_given (a : Option Py) (p : Py) : givenDoc a = .ok p ↔ (a = none ∧ p = .str []) ∨ (∃ s, a = some (.bytes s) ∧ p = .bytes s) := by
  constructor
  · intro h
    unfold givenDoc at h
    split at h
    · cases h; exact .inl ⟨rfl, rfl⟩
    · next s => cases h; exact .inr ⟨s, rfl, rfl⟩
    · cases h
  · rintro (⟨rfl, rfl⟩ | ⟨s, rfl, rfl⟩) <;> rfl

theorem name_given (p : Py) (n : Bytes) : asName p = .ok n ↔ p = .str n ∧ (0 : UInt8) ∉ n := by
  constructor
  · intro h
    cases p with
    | str s =>
      simp only [asName] at h
      split at h
      · cases h
      · next hc => cases h; exact ⟨rfl, by simpa using hc⟩
    | _ => cases h
  · rintro ⟨rfl, h⟩
    simp [asName, h]

end PyServer

/-- **C110 (one registration).** `register` registers exactly the method described by its arguments under exactly the name given, replacing the
one that was there, and nothing else changes; when the arguments are not acceptable it raises an exception. -/
theorem C110_register_partial (r : Reg σ) (a : RegisterArgs σ) :
    (∀ r', register r a = .ok r' → ∃ name m, Accepted a name m ∧ r' = { r with lookup := put name m r.lookup }) ∧
    (∀ name m, Accepted a name m → register r a = .ok { r with lookup := put name m r.lookup }) := by
  constructor
  · intro r' h
    unfold register at h
    split at h
    · cases h
    · next n hn =>
      split at h
      · cases h
      · next d hd =>
        split at h
        · cases h
        · next f hf =>
          split at h
          · cases h
          · next sg hs =>
            cases h
            have hn := (PyServer.name_given _ _).1 hn
            exact ⟨n, ⟨.user f, sg, d, a.context, a.names, a.pos⟩, ⟨hn.1, hn.2, ⟨f, hf, rfl⟩, (PyServer.doc_given _ _).1 hd, (PyServer.signature_given _ _).1 hs, rfl, rfl, rfl⟩, rfl⟩
  · intro name m h
    obtain ⟨cb, sg, help, ctx, ns, pos⟩ := m
    obtain ⟨f, hf, hcb⟩ := h.method
    have h1 := (PyServer.name_given _ _).2 ⟨h.isName, h.noNul⟩
    have h2 := (PyServer.doc_given _ _).2 h.doc
    have h3 := (PyServer.signature_given _ _).2 h.signature
    have h4 := h.context
    have h5 := h.names
    have h6 := h.pos
    simp only at hcb h2 h3 h4 h5 h6
    subst hcb h4 h5 h6
    unfold register
    simp only [h1, h2, hf, h3]

namespace PyServer

theorem step_lookup (r : Reg σ) (op : Op σ) : (∃ a name m, op = .method a ∧ Accepted a name m ∧ (step r op).lookup = put name m r.lookup) ∨
    ((∀ a name m, op = .method a → ¬ Accepted a name m) ∧ (step r op).lookup = r.lookup) := by
  cases op with
  | method a =>
    cases h : register r a with
    | ok r' =>
      obtain ⟨name, m, h1, h2⟩ := (C110_register_partial r a).1 r' h
      exact .inl ⟨a, name, m, rfl, h1, by simp only [step, h, h2]⟩
    | error e =>
      refine .inr ⟨fun a' name m ha hacc => ?_, by simp only [step, h]⟩
      cases ha
      rw [(C110_register_partial r a).2 name m hacc] at h
      cases h
  | default m l h s =>
    refine .inr ⟨fun _ _ _ h => (by cases h), ?_⟩
    simp only [step]
    cases hr : registerDefault r m l h s with
    | error e => rfl
    | ok r' =>
      unfold registerDefault at hr
      split at hr
      · cases hr
      · split at hr
        · cases hr
        · cases hr; rfl
  | head m =>
    refine .inr ⟨fun _ _ _ h => (by cases h), ?_⟩
    simp only [step]
    cases m <;> rfl

theorem accepted_unique {a : RegisterArgs σ} {n n' : Bytes} {m m' : Method σ} (h : Accepted a n m) (h' : Accepted a n' m') : n = n' ∧ m = m' := by
  have hn : n = n' := by
    have := h.isName.symm.trans h'.isName
    cases this; rfl
  refine ⟨hn, ?_⟩
  subst hn
  obtain ⟨f, hf, hc⟩ := h.method
  obtain ⟨f', hf', hc'⟩ := h'.method
  have h1 : m.callback = m'.callback := by rw [hc, hc']; rw [hf] at hf'; cases hf'; rfl
  have h2 := (doc_given _ _).2 h.doc
  rw [(doc_given _ _).2 h'.doc] at h2
  have h3 := (signature_given _ _).2 h.signature
  rw [(signature_given _ _).2 h'.signature] at h3
  have h4 := h.context.trans h'.context.symm
  have h5 := h.names.trans h'.names.symm
  have h6 := h.pos.trans h'.pos.symm
  obtain ⟨a1, a2, a3, a4, a5, a6⟩ := m
  obtain ⟨b1, b2, b3, b4, b5, b6⟩ := m'
  simp only [Except.ok.injEq] at h1 h2 h3 h4 h5 h6
  subst h1 h2 h3 h4 h5 h6
  rfl

theorem put_spec (name : Bytes) (m : Method σ) (l : List (Bytes × Method σ)) (hs : Frpc.Sorted l) :
    Frpc.Sorted (put name m l) ∧ (∀ k, SMap.find? k (put name m l) = if k = name then some m else SMap.find? k l) := by
  have h := append_spec name m l hs
  exact ⟨h.2.1, h.1⟩

end PyServer

/-- **C110 (refused names).** A name that is no text is a `TypeError`, one with a zero byte a `ValueError`, one that has no UTF-8 form a `UnicodeEncodeError`, whatever else is given, and nothing is registered. -/
theorem C110_refused (r : Reg σ) (a : RegisterArgs σ) :
    (∀ s, a.name = .str s → 0 ∈ s → register r a = .error .value) ∧ (a.name = .surrogates → register r a = .error .unicode) ∧
    ((∀ s, a.name ≠ .str s) → a.name ≠ .surrogates → register r a = .error .type) := by
  refine ⟨fun s h h0 => ?_, fun h => ?_, fun h h' => ?_⟩
  · unfold register
    rw [h]
    simp only [asName, List.contains_iff_mem.2 h0, if_true]
  · unfold register
    rw [h]
    rfl
  · unfold register
    have : asName a.name = .error .type := by
      revert h h'
      cases a.name <;> intro h h'
      all_goals first | rfl | exact absurd rfl (h _) | exact absurd rfl h'
    rw [this]

/-- **C110 (histories).** After any history of registrations, a name is that of the method registered last under it; a name
under which nothing was registered is what it was before, one of the four `system` methods or nothing. -/
theorem C110_history (r : Reg σ) (hr : Frpc.Sorted r.lookup) (ops : List (Op σ)) (name : Bytes) :
    (∀ m, Latest ops name m → SMap.find? name (built r ops).lookup = some m) ∧
    (Unregistered ops name → SMap.find? name (built r ops).lookup = SMap.find? name r.lookup) ∧
    Frpc.Sorted (built r ops).lookup := by
  have main : ∀ (ops : List (Op σ)) (r : Reg σ), Frpc.Sorted r.lookup →
      Frpc.Sorted (built r ops).lookup ∧
      (Unregistered ops name → SMap.find? name (built r ops).lookup = SMap.find? name r.lookup) := by
    intro ops
    induction ops with
    | nil => intro r hr; exact ⟨hr, fun _ => rfl⟩
    | cons op ops ih =>
      intro r hr
      show Frpc.Sorted (built (step r op) ops).lookup ∧ (_ → SMap.find? name (built (step r op) ops).lookup = _)
      rcases PyServer.step_lookup r op with ⟨a, n, m, rfl, h1, h2⟩ | ⟨h1, h2⟩
      · have hp := PyServer.put_spec n m r.lookup hr
        have H := ih (step r (.method a)) (by rw [h2]; exact hp.1)
        refine ⟨H.1, fun hu => ?_⟩
        rw [H.2 (fun a m ha => hu a m (List.mem_cons_of_mem _ ha)), h2, hp.2]
        rw [if_neg]
        rintro rfl
        exact hu a m List.mem_cons_self h1
      · have H := ih (step r op) (by rw [h2]; exact hr)
        refine ⟨H.1, fun hu => ?_⟩
        rw [H.2 (fun a m ha => hu a m (List.mem_cons_of_mem _ ha)), h2]
  refine ⟨fun m => ?_, (main ops r hr).2, (main ops r hr).1⟩
  rintro ⟨before, a, later, rfl, hacc, hl⟩
  have hb : built r (before ++ .method a :: later) = built (step (built r before) (.method a)) later := by
    simp [built]
  rw [hb]
  have hs := (main before r hr).1
  rcases PyServer.step_lookup (built r before) (.method a) with ⟨a', n, m', ha, h1, h2⟩ | ⟨h1, _⟩
  · cases ha
    obtain ⟨rfl, rfl⟩ := PyServer.accepted_unique hacc h1
    have hp := PyServer.put_spec name m (built r before).lookup hs
    rw [((main later _ (by rw [h2]; exact hp.1)).2 hl), h2, hp.2, if_pos rfl]
  · exact absurd hacc (h1 a name m rfl)

/-- A new registry has the four methods and is as `C110_history` needs it. -/
theorem C110_new (pre : Option (Fn σ)) (post) (preRead : Option (Fn σ)) (i : Bool) :
    let r := PyServer.new σ pre post preRead i
    Frpc.Sorted r.lookup ∧ r.lookup.map (·.1) = [asc "system.listMethods", asc "system.methodHelp", asc "system.methodSignature", asc "system.multicall"] ∧
    r.pre = pre ∧ r.post = post ∧ r.default = none := by
  refine ⟨?_, rfl, rfl, rfl, rfl⟩
  simp only [PyServer.new]
  exact (PyServer.put_spec _ _ _ (PyServer.put_spec _ _ _ (PyServer.put_spec _ _ _ (PyServer.put_spec _ _ [] List.Pairwise.nil).1).1).1).1

/-- **C110 (the default methods).** `registerDefault` sets the callables it is given and leaves the others, and nothing else changes. Missing:
objects that cannot be called (`C110_violated`). -/
theorem C110_default_partial (r : Reg σ) (m l h s : Maybe σ) (hm : ∃ f, m = .callable f) (hl : l ≠ .bad) (hh : h ≠ .bad) (hs : s ≠ .bad) :
    ∃ r', registerDefault r m l h s = .ok r' ∧ (∀ f, m = .callable f → r'.default = some f) ∧
      (∀ f, l = .callable f → r'.defaultList = some f) ∧ (l = .missing → r'.defaultList = r.defaultList) ∧
      (∀ f, h = .callable f → r'.defaultHelp = some f) ∧ (h = .missing → r'.defaultHelp = r.defaultHelp) ∧
      (∀ f, s = .callable f → r'.defaultSignature = some f) ∧ (s = .missing → r'.defaultSignature = r.defaultSignature) ∧
      r'.lookup = r.lookup ∧ r'.pre = r.pre ∧ r'.post = r.post ∧ r'.preRead = r.preRead ∧ r'.head = r.head ∧ r'.introspection = r.introspection := by
  obtain ⟨f, rfl⟩ := hm
  cases l <;> cases h <;> cases s <;> first
    | contradiction
    | (refine ⟨_, rfl, ?_⟩
       simp [Maybe.over])

/-- **C110 (the function for `HEAD`).** `registerHead` takes what can be called, and nothing else changes; anything else, also nothing, is a `TypeError`. -/
theorem C110_head (r : Reg σ) (m : Maybe σ) :
    (∀ f, m = .callable f → registerHead r m = .ok { r with head := some f }) ∧ ((∀ f, m ≠ .callable f) → registerHead r m = .error .type) := by
  refine ⟨fun f h => by subst h; rfl, fun h => ?_⟩
  cases m <;> first | rfl | exact absurd rfl (h _)

/-- **C110, as stated, is false.** A help text that is a `str` is refused; and a default method
that cannot be called is undefined behaviour instead of an exception. -/
theorem C110_violated (r : Reg σ) (f : Fn σ) :
    (∀ text, register r { name := .str (asc "f"), method := some f, doc := some (.str text) } = .error .type) ∧
    registerDefault r .bad .missing .missing .missing = .error .crash := by
  exact ⟨fun text => rfl, rfl⟩

/-- A method that counts its calls and gives its arguments back. -/
def pyCount : Fn Nat := fun st xs => (.ok (.list xs), st + 1)
example : Accepted (σ := Nat) { name := .str (asc "f"), method := some pyCount, signature := some (.str (asc "A:i")), doc := some (.bytes (asc "help")) } (asc "f")
    ⟨.user pyCount, .list [.list [.str (asc "array"), .str (asc "int")]], .bytes (asc "help"), none, none, 0⟩ :=
  ⟨rfl, by decide, ⟨_, rfl, rfl⟩, .inr ⟨_, rfl, rfl⟩, .text (asc "A:i") [[asc "array", asc "int"]]
    (.inl (.one _ _ (.mk 65 _ [105] _ (by decide) (.cons 105 _ _ _ (by decide) .nil)))), rfl, rfl, rfl⟩

/-! ## C111: dispatch -/

namespace PyServer

theorem gives_faultOf {E : Env} (hE : E.hashOk = true) {what : Bytes} {e : Exc} {v : Py} (h : Gives what (.error e) v) : faultOf E what e = .ok v := by
  cases h with
  | fault v => rfl
  | other t => simp [faultOf, hE]

theorem told_fault {o : Except Exc Py} {r f : Option Py} {e : Option Exc} (h : Told o r f e) :
    (match o with
      | .ok v => (match v with
        | .fault c m => (none, some (Py.fault c m), none)
        | v => (some v, none, none))
      | .error (.fault v) => (none, some v, none)
      | .error e => (none, none, some e)) = (r, f, e) := by
  cases h with
  | result v h => cases v <;> first | rfl | exact absurd rfl (h _ _)
  | fault c m => rfl
  | raisedFault v => rfl
  | raised t => rfl

/-- The result and the exception that `dispatchCall` holds for an outcome. -/
def held : Except Exc Py → Option Py × Option Exc
  | .ok v => (some v, none)
  | .error e => (none, some e)

/-- The end of `dispatchCall`, in the terms of the specification. -/
theorem postStep_finished {E : Env} (hE : E.hashOk = true) (r : Reg σ) (w : World σ) {name : Bytes} (ip : Py) (xs : List Py) {o : Except Exc Py} {v : Py} {s' : σ}
    (hn : r.post ≠ none → decodes name = true)
    (h : Finished r.post [.str name, ip, .tuple xs] o w.user v s') :
    postStep E r w name ip (.ok (.tuple xs)) (held o).1 (held o).2 = (.obj v, { w with user := s' }) := by
  have hlast : ∀ (w : World σ), Gives (asc "Unhandled exception ") o v →
      (match (held o).1 with
        | some v => (Ret.obj v, w)
        | none => (Ret.of (faultOf E (asc "Unhandled exception ") ((held o).2.getD (.other none))), w)) = (.obj v, w) := by
    intro w hg
    cases o with
    | ok u => cases hg; rfl
    | error e => simp only [held, Option.getD_some, gives_faultOf hE hg]; rfl
  have hcall : ∀ {g rr ff ee}, r.post = some g → Told o rr ff ee →
      postStep E r w name ip (.ok (.tuple xs)) (held o).1 (held o).2 =
        (match (g w.user [.str name, ip, .tuple xs] rr ff ee).1 with
          | .error e => (Ret.of (faultOf E (asc "Unhandled exception in postprocessor ") e), { w with user := (g w.user [.str name, ip, .tuple xs] rr ff ee).2 })
          | .ok .none => (match (held o).1 with
              | some v => (Ret.obj v, { w with user := (g w.user [.str name, ip, .tuple xs] rr ff ee).2 })
              | none => (Ret.of (faultOf E (asc "Unhandled exception ") ((held o).2.getD (.other none))), { w with user := (g w.user [.str name, ip, .tuple xs] rr ff ee).2 }))
          | .ok v => (Ret.obj v, { w with user := (g w.user [.str name, ip, .tuple xs] rr ff ee).2 })) := by
    intro g rr ff ee hg ht
    have hd := hn (by rw [hg]; simp)
    unfold postStep
    simp only [hg, buildArgs, hd, if_true]
    cases ht with
    | result u hu => cases u <;> first | rfl | exact absurd rfl (hu _ _)
    | fault c m => rfl
    | raisedFault u => rfl
    | raised t => rfl
  cases h with
  | plain v hp hg =>
    unfold postStep
    simp only [hp]
    cases o with
    | ok u => cases hg; rfl
    | error e =>
      cases e with
      | fault u => cases hg; rfl
      | other t =>
        have := gives_faultOf hE hg
        simp only [held, Option.getD_some, this]; rfl
  | silent g rr ff ee s' v hp ht hq hg =>
    rw [hcall hp ht, hq]
    exact hlast _ hg
  | replaced g rr ff ee s' v hp ht hq hne =>
    rw [hcall hp ht, hq]
    cases v <;> first | rfl | exact absurd rfl hne
  | failed g rr ff ee s' x v hp ht hq hg =>
    rw [hcall hp ht, hq]
    simp only [gives_faultOf hE hg]
    rfl

theorem preStep_passed {E : Env} (r : Reg σ) (w : World σ) {name : Bytes} (ip : Py) (xs : List Py) {s' : σ} (hn : r.pre ≠ none → decodes name = true)
    (h : Passed r.pre (preArgs (SMap.find? name r.lookup) name ip xs) w.user s') :
    preStep E r w name ip (.ok (.tuple xs)) = (none, none, { w with user := s' }) := by
  unfold preStep
  cases h with
  | none hp => rw [hp]
  | some p v s' hp hq =>
    have hd := hn (by rw [hp]; simp)
    simp only [hp, buildArgs, hd, if_true, callFn]
    revert hq
    generalize SMap.find? name r.lookup = m
    cases m with
    | none => intro hq; simp only [preArgs] at hq; simp [hq]
    | some m =>
      obtain ⟨a1, a2, a3, a4, ns, pos⟩ := m
      cases ns with
      | none => intro hq; simp only [preArgs] at hq; simp [hq]
      | some ns => intro hq; simp only [preArgs] at hq; simp [hq]

theorem preStep_failed {E : Env} (hE : E.hashOk = true) (r : Reg σ) (w : World σ) {name : Bytes} (ip : Py) (xs : List Py) {p : Fn σ} {e : Exc} {s' : σ} {v : Py}
    (hn : decodes name = true) (hp : r.pre = some p) (hq : p w.user (preArgs (SMap.find? name r.lookup) name ip xs) = (.error e, s'))
    (hg : Gives (asc "Unhandled exception in preprocessor ") (.error e) v) :
    preStep E r w name ip (.ok (.tuple xs)) = (some (.ok v), some e, { w with user := s' }) := by
  unfold preStep
  simp only [hp, buildArgs, hn, if_true, callFn]
  revert hq
  generalize SMap.find? name r.lookup = m
  have hf := gives_faultOf hE hg
  cases m with
  | none => intro hq; simp only [preArgs] at hq; simp [hq, hf]
  | some m =>
    obtain ⟨a1, a2, a3, a4, ns, pos⟩ := m
    cases ns with
    | none => intro hq; simp only [preArgs] at hq; simp [hq, hf]
    | some ns => intro hq; simp only [preArgs] at hq; simp [hq, hf]

/-- A call that got through the preprocessor. -/
theorem dispatchWith_called {E : Env} (hE : E.hashOk = true) (r : Reg σ) (d : Dispatch σ) (w : World σ) {name : Bytes} (ip : Py) (xs : List Py)
    (hn : decodes name = true) {s1 : σ} {w2 : World σ} {o : Except Exc Py} {v : Py} {s' : σ}
    (hpre : Passed r.pre (preArgs (SMap.find? name r.lookup) name ip xs) w.user s1)
    (hany : (SMap.find? name r.lookup).isSome = true ∨ r.default.isSome = true)
    (hcall : callStep E r d { w with user := s1 } name ip (.ok (.tuple xs)) none = (Ret.of o, w2))
    (hpost : Finished r.post [.str name, ip, .tuple xs] o w2.user v s') :
    dispatchWith E r d w name ip (.ok (.tuple xs)) = (.obj v, { w2 with user := s' }) := by
  have hm : ((SMap.find? name r.lookup).isNone && r.default.isNone) = false := by
    rcases hany with h | h
    · cases hf : SMap.find? name r.lookup <;> simp_all
    · cases hf : r.default <;> simp_all
  have hp := postStep_finished hE r w2 ip xs (fun _ => hn) hpost
  unfold dispatchWith
  rw [preStep_passed r w ip xs (fun _ => hn) hpre]
  simp only [hm, if_false, hcall, Bool.false_eq_true]
  cases o with
  | ok u => simpa [Ret.of, held] using hp
  | error e => simpa [Ret.of, held] using hp

theorem dispatch_eq (E : Env) (r : Reg σ) (w : World σ) (name : Bytes) (ip p : Py) :
    PyServer.dispatch E r w name ip (.ok p) = dispatchWith E r (dispatchCall E r (depth p)) w name ip (.ok p) := rfl

end PyServer

/-- **C111 (calls).** A call whose name is registered, and which the preprocessor lets through, runs the method registered, once, with exactly the
arguments of the call (or with the method's context and the tuple of them, if it has a context); then the postprocessor runs once and is told
what the method did; the answer is the result, a fault raised is that fault, any other exception is the fault -500, unless the postprocessor
answers something else. `E.hashOk`: see `C111_violated`. -/
theorem C111_call_partial (E : Env) (hE : E.hashOk = true) (r : Reg σ) (w : World σ) (name : Bytes) (hn : decodes name = true) (ip : Py) (xs : List Py)
    (m : Method σ) (hm : SMap.find? name r.lookup = some m) (f : Fn σ) (hf : m.callback = .user f) (s1 s2 s3 : σ) (o : Except Exc Py) (v : Py)
    (hpre : Passed r.pre (preArgs (some m) name ip xs) w.user s1)
    (hcall : f s1 (match m.context with | none => xs | some c => [c, .tuple xs]) = (o, s2))
    (hpost : Finished r.post [.str name, ip, .tuple xs] o s2 v s3) :
    PyServer.dispatch E r w name ip (.ok (.tuple xs)) = (.obj v, { w with user := s3 }) := by
  rw [PyServer.dispatch_eq]
  refine PyServer.dispatchWith_called hE r _ w ip xs hn (s1 := s1) (w2 := { w with user := s2 }) (o := o) (by rw [hm]; exact hpre) (.inl (by rw [hm]; rfl)) ?_ hpost
  unfold callStep
  simp only [hm, callMethod, hf]
  cases hc : m.context with
  | none => rw [hc] at hcall; simp only at hcall; simp [whilePending, hcall]
  | some c => rw [hc] at hcall; simp only at hcall; simp [whilePending, hcall]

/-- **C111 (the default method).** A call whose name is not registered runs the default method, with the name and the arguments. -/
theorem C111_default_partial (E : Env) (hE : E.hashOk = true) (r : Reg σ) (w : World σ) (name : Bytes) (hn : decodes name = true) (ip : Py) (xs : List Py)
    (hm : SMap.find? name r.lookup = none) (f : Fn σ) (hf : r.default = some f) (s1 s2 s3 : σ) (o : Except Exc Py) (v : Py)
    (hpre : Passed r.pre [.str name, ip, .tuple xs] w.user s1)
    (hcall : f s1 [.str name, .tuple xs] = (o, s2))
    (hpost : Finished r.post [.str name, ip, .tuple xs] o s2 v s3) :
    PyServer.dispatch E r w name ip (.ok (.tuple xs)) = (.obj v, { w with user := s3 }) := by
  rw [PyServer.dispatch_eq]
  refine PyServer.dispatchWith_called hE r _ w ip xs hn (s1 := s1) (w2 := { w with user := s2 }) (o := o) (by rw [hm]; exact hpre) (.inr (by rw [hf]; rfl)) ?_ hpost
  unfold callStep
  simp [hm, hf, buildArgs, hn, whilePending, hcall]

/-- **C111 (no method).** Without a default method it is the fault -506, which the postprocessor is told. -/
theorem C111_missing_partial (E : Env) (hE : E.hashOk = true) (r : Reg σ) (w : World σ) (name : Bytes) (hn : decodes name = true) (hlen : name.length ≤ 400)
    (htext : decodes (asc "Method '" ++ name ++ asc "' not found.") = true) (ip : Py) (xs : List Py)
    (hm : SMap.find? name r.lookup = none) (hf : r.default = none) (s1 s3 : σ) (v : Py)
    (hpre : Passed r.pre [.str name, ip, .tuple xs] w.user s1)
    (hpost : Finished r.post [.str name, ip, .tuple xs] (.ok (.fault (-506) (asc "Method '" ++ name ++ asc "' not found."))) s1 v s3) :
    PyServer.dispatch E r w name ip (.ok (.tuple xs)) = (.obj v, { w with user := s3 }) := by
  rw [PyServer.dispatch_eq]
  have hp := PyServer.postStep_finished hE r { w with user := s1 } ip xs (fun _ => hn) hpost
  have hl : (asc "Method '").length = 8 := rfl
  have hl' : (asc "' not found.").length = 12 := rfl
  have htake : (asc "Method '" ++ name ++ asc "' not found.").take 511 = asc "Method '" ++ name ++ asc "' not found." :=
    List.take_of_length_le (by simp only [List.length_append, hl, hl']; omega)
  have hmk : PyServer.makeFault E (-506) (asc "Method '" ++ name ++ asc "' not found.") = .ok (.fault (-506) (asc "Method '" ++ name ++ asc "' not found.")) := by
    simp only [PyServer.makeFault, faultText, htake, htext, if_true]
  unfold dispatchWith
  rw [PyServer.preStep_passed r w ip xs (fun _ => hn) (by rw [hm]; exact hpre)]
  simp only [hm, hf, Option.isNone_none, Bool.and_self, if_true, hmk]
  exact hp

/-- **C111 (calls that are refused).** When the preprocessor raises an exception, neither the method nor the default method is run: the answer is the
fault it raised, or -500. -/
theorem C111_refused_partial (E : Env) (hE : E.hashOk = true) (r : Reg σ) (w : World σ) (name : Bytes) (hn : decodes name = true) (ip : Py) (xs : List Py)
    (p : Fn σ) (hp : r.pre = some p) (s1 s3 : σ) (e : Exc) (u v : Py) (hq : p w.user (preArgs (SMap.find? name r.lookup) name ip xs) = (.error e, s1))
    (hg : Gives (asc "Unhandled exception in preprocessor ") (.error e) u)
    (hpost : Finished r.post [.str name, ip, .tuple xs] (.ok u) s1 v s3) :
    PyServer.dispatch E r w name ip (.ok (.tuple xs)) = (.obj v, { w with user := s3 }) := by
  rw [PyServer.dispatch_eq]
  have h := PyServer.postStep_finished hE r { w with user := s1 } ip xs (fun _ => hn) hpost
  unfold dispatchWith
  rw [PyServer.preStep_failed hE r w ip xs hn hp hq hg]
  simp only
  rw [← h]
  unfold postStep
  cases hr : r.post with
  | none =>
    cases hg with
    | fault u => rfl
    | other t => rfl
  | some g => cases u <;> rfl

/-- **C111 is false of the code in these ways.** (1) With an interpreter that needs `PY_SSIZE_T_CLEAN` (3.10 and later), a method that raises an
exception is not answered at all: `dispatch` raises. (2) A preprocessor that raises an exception whose text cannot be made does not refuse the
call: the method is run. (3) With a postprocessor, a call of a name that is not UTF-8 ends the process. (4) When the arguments could not be made
objects, the method is run without them. -/
theorem C111_violated (r : Reg σ) (w : World σ) (name : Bytes) (ip : Py) (E : Env) :
    (∀ m f xs t s, E.hashOk = false → r.pre = none → r.post = none → SMap.find? name r.lookup = some m → m.callback = .user f → m.context = none →
      f w.user xs = (.error (.other (some t)), s) →
      PyServer.dispatch E r w name ip (.ok (.tuple xs)) = (.null (E.raise .system), { w with user := s })) ∧
    (∀ m f p xs s v s', r.pre = some p → r.post = none → decodes name = true → p w.user (preArgs (some m) name ip xs) = (.error (.other none), s) →
      SMap.find? name r.lookup = some m → m.callback = .user f → m.context = none → f s xs = (v, s') →
      (PyServer.dispatch E r w name ip (.ok (.tuple xs))).2.user = s') ∧
    (∀ g xs, r.pre = none → r.post = some g → decodes name = false → SMap.find? name r.lookup = none → r.default = none →
      PyServer.dispatch E r w name ip (.ok (.tuple xs)) = (.crash, w)) ∧
    (∀ m f e v s, r.pre = none → r.post = none → SMap.find? name r.lookup = some m → m.callback = .user f → m.context = none →
      f w.user [] = (v, s) → (PyServer.dispatch E r w name ip (.error e)).2.user = s) := by
  refine ⟨?_, ?_, ?_, ?_⟩
  · intro m f xs t s hE hpre hpost hm hf hc hq
    rw [PyServer.dispatch_eq]
    simp [dispatchWith, preStep, hpre, hm, callStep, callMethod, hf, hc, whilePending, hq, Ret.of, postStep, hpost, faultOf, hE]
  · intro m f p xs s v s' hpre hpost hn hp hm hf hc hq
    rw [PyServer.dispatch_eq]
    have h : preStep E r w name ip (.ok (.tuple xs)) = (some (.error (.other none)), some (.other none), { w with user := s }) := by
      unfold preStep
      simp only [hpre, buildArgs, hn, if_true, callFn, hm]
      revert hp
      obtain ⟨a1, a2, a3, a4, ns, pos⟩ := m
      cases ns with
      | none => intro hq; simp only [preArgs] at hq; simp [hq, faultOf]
      | some ns => intro hq; simp only [preArgs] at hq; simp [hq, faultOf]
    unfold dispatchWith
    rw [h]
    simp only [hm, Option.isNone_some, Bool.false_and, callStep, callMethod, hf, hc, hq, whilePending, postStep, hpost]
    cases v with
    | ok v => simp only [Bool.false_eq_true, if_false, Ret.of]; rfl
    | error e => cases e <;> (simp only [Bool.false_eq_true, if_false, Ret.of]; rfl)
  · intro g xs hpre hpost hn hm hd
    rw [PyServer.dispatch_eq]
    simp only [dispatchWith, preStep, hpre, hm, hd, callStep, postStep, hpost, buildArgs, hn, Option.isNone_none, Bool.and_self, if_true]
    cases PyServer.makeFault E (-506) (asc "Method '" ++ name ++ asc "' not found.") <;> rfl
  · intro m f e v s hpre hpost hm hf hc hq
    have h0 : PyServer.dispatch E r w name ip (.error e) = dispatchWith E r (dispatchCall E r 0) w name ip (.error e) := rfl
    rw [h0]
    unfold dispatchWith
    simp only [preStep, hpre, hm, Option.isNone_some, Bool.false_and, callStep, callMethod, hf, hc, hq, whilePending, postStep, hpost, Bool.false_eq_true, if_false]
    cases v with
    | ok v => rfl
    | error e => cases e <;> rfl

/-- An interpreter before 3.10, for the examples. -/
def pyOld : Env := ⟨true, fun _ => asc "error", fun xs => .ok xs⟩
/-- A postprocessor that says nothing, a preprocessor that lets everything through. -/
def pyQuiet : Nat → List Py → Option Py → Option Py → Option Exc → Except Exc Py × Nat := fun st _ _ _ _ => (.ok .none, st + 100)
/-- The preprocessor. -/
def pyPass : Fn Nat := fun st _ => (.ok .none, st + 10)
/-- A registry with the method above as `f`. -/
def pyReg : Reg Nat := PyServer.built (PyServer.new Nat (some pyPass) (some pyQuiet) none true) [.method { name := .str (asc "f"), method := some pyCount }]

example : PyServer.dispatch pyOld pyReg ⟨0, false⟩ (asc "f") (.tuple []) (.ok (.tuple [.int 7])) = (.obj (.list [.int 7]), ⟨111, false⟩) := by
  refine C111_call_partial pyOld rfl pyReg ⟨0, false⟩ (asc "f") (by decide +kernel) (.tuple []) [.int 7] _ rfl pyCount rfl 10 11 111 (.ok (.list [.int 7])) _
    (.some pyPass .none 10 rfl rfl) rfl (.silent pyQuiet _ _ _ _ _ rfl (.result _ (by intros; simp)) rfl (.value _))
example : PyServer.dispatch pyOld pyReg ⟨0, false⟩ (asc "g") (.tuple []) (.ok (.tuple [.int 7])) = (.obj (.fault (-506) (asc "Method 'g' not found.")), ⟨110, false⟩) := by
  refine C111_missing_partial pyOld rfl pyReg ⟨0, false⟩ (asc "g") (by decide +kernel) (by decide) (by decide +kernel) (.tuple []) [.int 7] rfl rfl 10 110 _
    (.some pyPass .none 10 rfl rfl) (.silent pyQuiet _ _ _ _ _ rfl (.fault _ _) rfl (.value _))
example : decodes [255] = false := by decide +kernel

end Frpc
