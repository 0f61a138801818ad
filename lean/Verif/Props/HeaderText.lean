import Verif.Props.HttpHeader
import Verif.Props.HttpInput
import Verif.Proofs.HttpEndToEnd
import Verif.Model.PyProxy
import Verif.Model.PyHeaders
/-! # A header written as text and read back (C61); method objects of the Python client (C129) -/
namespace Frpc
open Spec HttpIO HttpHeader
open HttpServer (FieldOk asLine collect_asLine)

namespace HttpHeader

theorem polish_idem (n : Bytes) : polishName (polishName n) = polishName n :=
  (polish_iff _ _).2 (lower_polishLoop false n)

theorem setLoop_names (name value : Bytes) (index : Nat) : ∀ (h : Fields) (k : Nat) (h' : Fields), setLoop name value index k h = some h' →
    h'.map (·.1) = h.map (·.1)
  | [], _, _, e => by cases e
  | (n, v) :: h, k, h', e => by
    unfold setLoop at e
    split at e
    · split at e
      · cases e; rfl
      · cases e1 : setLoop name value index (k + 1) h with
        | none => rw [e1] at e; cases e
        | some r => rw [e1] at e; cases e; simp [setLoop_names name value index h _ r e1]
    · cases e1 : setLoop name value index k h with
      | none => rw [e1] at e; cases e
      | some r => rw [e1] at e; cases e; simp [setLoop_names name value index h _ r e1]

theorem removeLoop_sub (name : Bytes) (index : Nat) : ∀ (h : Fields) (k : Nat) (h' : Fields), removeLoop name index k h = some h' → ∀ f ∈ h', f ∈ h
  | [], _, _, e => by cases e
  | (n, v) :: h, k, h', e => by
    unfold removeLoop at e
    intro f hf
    split at e
    · split at e
      · cases e; exact List.mem_cons_of_mem _ hf
      · cases e1 : removeLoop name index (k + 1) h with
        | none => rw [e1] at e; cases e
        | some r =>
          rw [e1] at e; cases e
          rcases List.mem_cons.1 hf with rfl | hf
          · simp
          · exact List.mem_cons_of_mem _ (removeLoop_sub name index h _ r e1 f hf)
    · cases e1 : removeLoop name index k h with
      | none => rw [e1] at e; cases e
      | some r =>
        rw [e1] at e; cases e
        rcases List.mem_cons.1 hf with rfl | hf
        · simp
        · exact List.mem_cons_of_mem _ (removeLoop_sub name index h _ r e1 f hf)

/-- The names of a header are in the form the library gives them. -/
theorem history_polished (ops : List Op) : ∀ f ∈ history ops, polishName f.1 = f.1 := by
  suffices h : ∀ (ops : List Op) (h : Fields), (∀ n ∈ h.map (·.1), polishName n = n) → ∀ n ∈ (ops.foldl step h).map (·.1), polishName n = n from
    fun f hf => h ops [] (by simp) f.1 (List.mem_map.2 ⟨f, hf, rfl⟩)
  intro ops
  induction ops with
  | nil => intro h hh; exact hh
  | cons o ops ih =>
    intro h hh
    rw [List.foldl_cons]
    refine ih _ ?_
    cases o with
    | add n v =>
      intro m hm
      simp only [step, add, List.map_append, List.mem_append, List.map_cons, List.map_nil, List.mem_singleton] at hm
      rcases hm with hm | rfl
      · exact hh m hm
      · exact polish_idem n
    | set n v c i =>
      intro m hm
      simp only [step, HttpHeader.set] at hm
      cases e : setLoop (polishName n) v i 0 h with
      | some h' =>
        rw [e] at hm
        simp only at hm
        rw [setLoop_names _ _ _ _ _ _ e] at hm
        exact hh m hm
      | none =>
        rw [e] at hm
        simp only at hm
        split at hm
        · simp only [List.map_append, List.mem_append, List.map_cons, List.map_nil, List.mem_singleton] at hm
          rcases hm with hm | rfl
          · exact hh m hm
          · exact polish_idem n
        · exact hh m hm
    | remove n i =>
      intro m hm
      simp only [step, remove] at hm
      cases e : removeLoop (polishName n) i 0 h with
      | some h' =>
        rw [e] at hm
        simp only at hm
        obtain ⟨f, hf, rfl⟩ := List.mem_map.1 hm
        exact hh _ (List.mem_map.2 ⟨f, removeLoop_sub _ _ _ _ _ e f hf, rfl⟩)
      | none => rw [e] at hm; exact hh m hm

end HttpHeader

/-- **C61 (what is written is read).** The text of a header that any calls have made (`operator<<`), whose names and values are proper ones (a name is not empty and has no white
space or colon, a value has no line feed and no white space at its ends), followed by an empty line, is read back as the very same header, however the network cuts it, and the body
after it is not touched. -/
theorem C61_rendered (cfg : Cfg) (ops : List Op) (hok : ∀ f ∈ history ops, FieldOk f ∧ trim f.2 = f.2) (s : Conn) (rest : Bytes) (hc : Calm s.sched)
    (hd : s.data = render (history ops) ++ crlf ++ rest) :
    ∃ sc, Calm sc ∧ readHeader cfg false [] s = (.ok (history ops), ⟨rest, sc, s.out⟩) := by
  have hp := history_polished ops
  generalize history ops = h at hok hd hp
  have htext : render h ++ crlf = blockText (h.map asLine) := by
    unfold render blockText
    rw [List.flatMap_map]
    congr 1
    have h1 : asc "\r\n" = crlf := by decide
    have h2 : asc ": " = [58, 32] := by decide
    refine congrArg (fun g => h.flatMap g) (funext fun f => ?_)
    simp only [asLine, HLine.text, h1, h2, List.append_assoc, List.cons_append, List.nil_append]
  rw [htext] at hd
  obtain ⟨h1, -⟩ := readHeader_found cfg false (h.map asLine) [] s rest hc hd (by
    intro l hl
    obtain ⟨f, hf, rfl⟩ := List.mem_map.1 hl
    exact (hok f hf).1.line)
  obtain ⟨sc, h2, h3⟩ := h1 _ (by rw [collect_asLine])
  refine ⟨sc, h2, ?_⟩
  rw [show (stored ([] : List (Bytes × Bytes))) = [] from rfl] at h3
  rw [h3]
  congr 2
  unfold stored
  simp only [List.nil_append, List.map_map]
  conv => rhs; rw [← List.map_id h]
  refine List.map_congr_left fun f hf => ?_
  simp only [Function.comp, hp f hf, (hok f hf).2, id]

/-- A header with a field added twice, one changed and one removed. -/
def sampleHeaderOps : List Op := [.add (asc "x-tag") (asc "one"), .add (asc "X-TAG") (asc "two three"), .set (asc "x-tag") (asc "1") false 0, .add (asc "gone") (asc "x"), .remove (asc "GONE") 0]

example : history sampleHeaderOps = [(asc "X-Tag", asc "1"), (asc "X-Tag", asc "two three")] ∧ render (history sampleHeaderOps) = asc "X-Tag: 1\r\nX-Tag: two three\r\n" := by decide +kernel

example : ∀ f ∈ history sampleHeaderOps, FieldOk f ∧ trim f.2 = f.2 := by
  have h : history sampleHeaderOps = [(asc "X-Tag", asc "1"), (asc "X-Tag", asc "two three")] := by decide +kernel
  rw [h]
  intro f hf
  simp only [List.mem_cons, List.not_mem_nil, or_false] at hf
  rcases hf with rfl | rfl
  · exact ⟨⟨by decide, by decide +kernel, by decide, by decide⟩, by decide +kernel⟩
  · exact ⟨⟨by decide, by decide +kernel, by decide, by decide⟩, by decide +kernel⟩

/-! ## C135: the names of the Python client's methods -/

/-- Parts joined with dots. -/
def Spec.dotted : List Bytes → Bytes
  | [] => []
  | [a] => a
  | a :: as => a ++ asc "." ++ Spec.dotted as

/-- The proxy's own attributes. -/
def Spec.proxyOwn : List Bytes := [asc "host", asc "path", asc "port", asc "url", asc "last_call"]

namespace PyProxy

theorem dotted_cons (a : Bytes) (as : List Bytes) : Spec.dotted (a :: as) = as.foldl (fun n b => n ++ asc "." ++ b) a := by
  induction as generalizing a with
  | nil => rfl
  | cons b as ih =>
    have h : Spec.dotted (a :: b :: as) = a ++ asc "." ++ Spec.dotted (b :: as) := rfl
    have hf : ∀ (as : List Bytes) (x y : Bytes), as.foldl (fun n b => n ++ asc "." ++ b) (x ++ y) = x ++ as.foldl (fun n b => n ++ asc "." ++ b) y := by
      intro as
      induction as with
      | nil => intros; rfl
      | cons c as ih => intro x y; rw [List.foldl_cons, List.foldl_cons, ← ih]; simp only [List.append_assoc]
    rw [h, ih, List.foldl_cons, hf]

theorem fold_names (as : List Bytes) : ∀ acc : Option Bytes,
    as.foldl (fun acc b => acc.bind fun n => if (asc "__").isPrefixOf b then none else some (n ++ asc "." ++ b)) acc =
      if ∀ b ∈ as, (asc "__").isPrefixOf b = false then acc.map (fun n => as.foldl (fun n b => n ++ asc "." ++ b) n) else none := by
  induction as with
  | nil => intro acc; cases acc <;> simp
  | cons b as ih =>
    intro acc
    rw [List.foldl_cons, ih]
    by_cases hb : (asc "__").isPrefixOf b = true
    · have h : ¬ ∀ x ∈ b :: as, (asc "__").isPrefixOf x = false := fun h => by simp [h b (by simp)] at hb
      rw [if_neg h]
      split
      · cases acc <;> simp [hb]
      · rfl
    · simp only [Bool.not_eq_true] at hb
      by_cases ha : ∀ x ∈ as, (asc "__").isPrefixOf x = false
      · have h : ∀ x ∈ b :: as, (asc "__").isPrefixOf x = false := fun x hx => by
          rcases List.mem_cons.1 hx with rfl | hx
          · exact hb
          · exact ha x hx
        rw [if_pos ha, if_pos h]
        cases acc <;> simp [hb]
      · have h : ¬ ∀ x ∈ b :: as, (asc "__").isPrefixOf x = false := fun h => ha fun x hx => h x (List.mem_cons_of_mem _ hx)
        rw [if_neg ha, if_neg h]

end PyProxy

/-- **C135.** `proxy.a.b.c` is the method called `a.b.c`, exactly if no part begins with two underscores and, unless the proxy was made to hide its attributes, the first part is not one
of its own: `host`, `path`, `port`, `url`, `last_call`. -/
theorem C135_name (hide : Bool) (as : List Bytes) (n : Bytes) : PyProxy.methodName hide as = some n ↔
    as ≠ [] ∧ n = Spec.dotted as ∧ (∀ b ∈ as, ¬ (asc "__") <+: b) ∧ (hide = false → ∀ a, as.head? = some a → a ∉ Spec.proxyOwn) := by
  have hp : ∀ b : Bytes, (asc "__").isPrefixOf b = false ↔ ¬ (asc "__") <+: b := by
    intro b
    rw [← Bool.not_eq_true, List.isPrefixOf_iff_prefix]
  cases as with
  | nil => simp [PyProxy.methodName]
  | cons a as =>
    simp only [PyProxy.methodName]
    rw [PyProxy.fold_names, PyProxy.dotted_cons]
    by_cases h1 : (asc "__").isPrefixOf a = true
    · rw [if_pos h1]
      constructor
      · intro h; cases h
      · rintro ⟨_, _, h, _⟩
        exact absurd (List.isPrefixOf_iff_prefix.1 h1) (h a (by simp))
    · rw [if_neg h1]
      simp only [Bool.not_eq_true] at h1
      by_cases h2 : hide = false ∧ a ∈ [asc "host", asc "path", asc "port", asc "url", asc "last_call"]
      · rw [if_pos h2]
        constructor
        · intro h; cases h
        · rintro ⟨_, _, _, h⟩
          exact absurd h2.2 (h h2.1 a rfl)
      · rw [if_neg h2]
        by_cases h3 : ∀ b ∈ as, (asc "__").isPrefixOf b = false
        · rw [if_pos h3]
          simp only [Option.map_some, Option.some.injEq]
          constructor
          · rintro rfl
            refine ⟨by simp, rfl, fun b hb => ?_, fun hh x hx => ?_⟩
            · rcases List.mem_cons.1 hb with rfl | hb
              · exact (hp _).1 h1
              · exact (hp b).1 (h3 b hb)
            · simp only [List.head?_cons, Option.some.injEq] at hx
              subst hx
              exact fun hm => h2 ⟨hh, hm⟩
          · rintro ⟨_, rfl, _⟩; rfl
        · rw [if_neg h3]
          constructor
          · intro h; cases h
          · rintro ⟨_, _, h, _⟩
            exact absurd (fun b hb => (hp b).2 (h b (List.mem_cons_of_mem _ hb))) h3

theorem dot_inj {a b r r' : Bytes} (ha : (46 : UInt8) ∉ a) (hb : (46 : UInt8) ∉ b) (h : a ++ 46 :: r = b ++ 46 :: r') : a = b ∧ r = r' := by
  induction a generalizing b with
  | nil =>
    cases b with
    | nil => simpa using h
    | cons x b => simp only [List.nil_append, List.cons_append, List.cons.injEq] at h; exact absurd (by simp [h.1]) hb
  | cons x a ih =>
    cases b with
    | nil => simp only [List.nil_append, List.cons_append, List.cons.injEq] at h; exact absurd (by simp [h.1]) ha
    | cons y b =>
      simp only [List.cons_append, List.cons.injEq] at h
      obtain ⟨h1, h2⟩ := ih (fun hm => ha (List.mem_cons_of_mem _ hm)) (fun hm => hb (List.mem_cons_of_mem _ hm)) h.2
      exact ⟨by rw [h.1, h1], h2⟩

/-- **C135 (no confusion).** Different expressions name different methods. -/
theorem C135_distinct (as bs : List Bytes) (ha : as ≠ []) (hb : bs ≠ []) (ka : ∀ x ∈ as, (46 : UInt8) ∉ x) (kb : ∀ x ∈ bs, (46 : UInt8) ∉ x) (h : Spec.dotted as = Spec.dotted bs) : as = bs := by
  have hdot : asc "." = [46] := rfl
  induction as generalizing bs with
  | nil => exact absurd rfl ha
  | cons a as ih =>
    cases bs with
    | nil => exact absurd rfl hb
    | cons b bs =>
      have k1 := ka a (by simp)
      have k2 := kb b (by simp)
      cases as with
      | nil =>
        cases bs with
        | nil => simpa [Spec.dotted] using h
        | cons b2 bs =>
          simp only [Spec.dotted, hdot] at h
          exact absurd (by rw [h]; simp) k1
      | cons a2 as =>
        cases bs with
        | nil =>
          simp only [Spec.dotted, hdot] at h
          exact absurd (by rw [← h]; simp) k2
        | cons b2 bs =>
          have h : a ++ asc "." ++ Spec.dotted (a2 :: as) = b ++ asc "." ++ Spec.dotted (b2 :: bs) := h
          rw [hdot, List.append_assoc, List.append_assoc] at h
          obtain ⟨rfl, h2⟩ := dot_inj k1 k2 h
          rw [ih (b2 :: bs) (by simp) (by simp) (fun x hx => ka x (List.mem_cons_of_mem _ hx)) (fun x hx => kb x (List.mem_cons_of_mem _ hx)) h2]

/-- **C135 (every method).** Every method whose name has no part beginning with two underscores can be called, if the proxy hides its attributes, as it does unless told otherwise. -/
theorem C135_every (name : Bytes) (parts : List Bytes) (hp : parts ≠ []) (hn : Spec.dotted parts = name) (hu : ∀ b ∈ parts, ¬ (asc "__") <+: b) : PyProxy.methodName true parts = some name :=
  (C135_name true parts name).2 ⟨hp, hn.symm, hu, fun h => by cases h⟩

/-- **C135 (own attributes).** With `hideAttributes=False` the methods `host`, `path`, `port`, `url` and `last_call` and all whose first part is one of these cannot be called. -/
theorem C135_own (a : Bytes) (ha : a ∈ Spec.proxyOwn) (as : List Bytes) : PyProxy.methodName false (a :: as) = none := by
  cases h : PyProxy.methodName false (a :: as) with
  | none => rfl
  | some n => exact absurd ha (((C135_name false (a :: as) n).1 h).2.2.2 rfl a rfl)

example : PyProxy.methodName false [asc "system", asc "listMethods"] = some (asc "system.listMethods") ∧ PyProxy.methodName true [asc "host"] = some (asc "host") ∧
    PyProxy.methodName true [asc "a", asc "__b"] = none := by decide +kernel

/-! ## C133: the texts of the header list -/

/-- **C133 (texts).** The name and the value texts of an item have one reference each, held by the tuple: they go when the tuple goes. (The tuple itself has one too many: `C133_leak_violated`.) -/
theorem C133_texts : PyHeaders.textOps.foldl PyHeaders.RefOp.apply 0 = 1 := by rfl

end Frpc
