import Verif.Proofs.Json
/-!
# JSON output: C26, C27
-/
namespace Frpc
open JsonMarshaller Spec.Json
open Spec (Small)

/-- **C26.** For every tree whose doubles print as JSON numbers (the finite ones do), the JSON marshaller writes, without an exception,
a text that a JSON reader accepts, and that denotes the tree: the elements in order, the members under their names, strings byte by
byte, numbers by their decimal literal, binaries in base64, date-times as Unix time. -/
theorem C26_value (dbl : BitVec 64 → Bytes) (v : Value) (hsmall : Small v) (hdbl : DoublesAll (fun x => IsNumber (dbl x)) v) :
    ∃ ws, run dbl (.packMethodResponse :: feed v) = (ws, none) ∧ parse ws.flatten = some (image dbl v) := by
  obtain ⟨ws, h1, h2⟩ := run_value dbl v hsmall
  refine ⟨ws, h1, ?_⟩
  have := reads_value dbl v hdbl (2 * (text dbl v).length + 1) [] (by simp [Stop]) (by omega)
  rw [List.append_nil] at this
  unfold parse
  rw [h2, this]
  simp [skipWs]

/-- **C26 (numbers).** The literal written for an integer is a JSON number and denotes that integer. -/
theorem C26_integers (n : Int) : IsNumber (decInt n) ∧ intOf (decInt n) = n := ⟨isNumber_decInt n, intOf_decInt n⟩

namespace JsonMarshaller

theorem skipWs_space (s : Bytes) : skipWs (32 :: s) = skipWs s := by simp [skipWs, isWs]

theorem readValue_space (f : Nat) (s : Bytes) : readValue f (32 :: s) = readValue f s := by
  cases f with
  | zero => simp [readValue]
  | succ f => rw [readValue, readValue, skipWs_space]

theorem readMembers_space (f : Nat) (s : Bytes) : readMembers f (32 :: s) = readMembers f s := by
  cases f with
  | zero => simp [readMembers]
  | succ f => rw [readMembers, readMembers, skipWs_space]

theorem readMembers_step {f : Nat} {k t r : Bytes} {v : JVal} (h : readValue f t = some (v, r)) :
    readMembers (f + 1) (34 :: (quoted k ++ 34 :: 58 :: t)) = (match skipWs r with
      | 125 :: r => some ([(k, v)], r)
      | 44 :: r => (readMembers f r).map fun (p : List (Bytes × JVal) × Bytes) => ((k, v) :: p.1, p.2)
      | _ => none) := by
  rw [readMembers, skipWs_cons (by decide), readString_quoted]
  dsimp only
  rw [skipWs_cons (by decide)]
  show (match readValue f t with
      | none => none
      | some (v, r) =>
        match skipWs r with
        | 125 :: r => some ([(k, v)], r)
        | 44 :: r => (readMembers f r).map fun (p : List (Bytes × JVal) × Bytes) => ((k, v) :: p.1, p.2)
        | _ => none) = _
  rw [h]

end JsonMarshaller

/-- **C26 (faults).** A fault is a JSON object with the code and the message, whatever they are. -/
theorem C26_fault (dbl : BitVec 64 → Bytes) (code : Int) (msg : Bytes) :
    ∃ ws, run dbl [.packFault code msg] = (ws, none) ∧
      parse ws.flatten = some (.obj [(asc "failure", .num (decInt code)), (asc "failureMessage", .str msg)]) := by
  refine ⟨(asc "{ \"failure\": " ++ decInt code ++ asc ", \"failureMessage\": ") :: quote msg ++ [asc " }"], ?_, ?_⟩
  · simp [run, packAll, pack, flush, flushLoop, decr]
  have e2 : ((asc "{ \"failure\": " ++ decInt code ++ asc ", \"failureMessage\": ") :: quote msg ++ [asc " }"]).flatten =
      123 :: (32 :: 34 :: (quoted (asc "failure") ++ 34 :: 58 :: (32 :: (decInt code ++ 44 :: 32 :: (34 :: (quoted (asc "failureMessage") ++ 34 :: 58 ::
        (32 :: 34 :: (quoted msg ++ 34 :: [32, 125])))))))) := by
    have q1 : quoted (asc "failure") = asc "failure" := by decide +kernel
    have q2 : quoted (asc "failureMessage") = asc "failureMessage" := by decide +kernel
    rw [List.cons_append, List.flatten_cons, List.flatten_append, quote_flatten, q1, q2]
    simp [asc]
  rw [e2]
  unfold parse
  generalize hs : (32 :: 34 :: (quoted (asc "failure") ++ 34 :: 58 :: (32 :: (decInt code ++ 44 :: 32 :: (34 :: (quoted (asc "failureMessage") ++ 34 :: 58 ::
        (32 :: 34 :: (quoted msg ++ 34 :: [32, 125])))))) ) : Bytes) = s
  obtain ⟨n, hn⟩ : ∃ n, 2 * (123 :: s).length + 2 = n + 1 + 1 + 1 + 1 := ⟨2 * s.length, by simp only [List.length_cons]; omega⟩
  have h1 : readValue (n + 1) (32 :: 34 :: (quoted msg ++ 34 :: [32, 125])) = some (.str msg, [32, 125]) := by
    rw [readValue_space]
    have := readValue_string msg [32, 125] n
    simpa using this
  have h2 := readMembers_step (k := asc "failureMessage") h1
  have h3 : readValue (n + 1 + 1) (32 :: (decInt code ++ 44 :: 32 :: (34 :: (quoted (asc "failureMessage") ++ 34 :: 58 ::
        (32 :: 34 :: (quoted msg ++ 34 :: [32, 125])))))) = some (.num (decInt code), 44 :: 32 :: (34 :: (quoted (asc "failureMessage") ++ 34 :: 58 ::
        (32 :: 34 :: (quoted msg ++ 34 :: [32, 125]))))) := by
    rw [readValue_space]
    exact readValue_number (isNumber_decInt code) (by simp [Stop]) _
  have h4 := readMembers_step (k := asc "failure") h3
  rw [hn]
  have h5 : readValue (n + 1 + 1 + 1 + 1) (123 :: s) = (readMembers (n + 1 + 1 + 1) s).map fun p => (.obj p.1, p.2) := by
    rw [readValue, skipWs_cons (by decide), ← hs]
    rfl
  have h6 : readMembers (n + 1 + 1 + 1) s = some ([(asc "failure", .num (decInt code)), (asc "failureMessage", .str msg)], []) := by
    rw [← hs, readMembers_space, h4, skipWs_cons (by decide)]
    show Option.map _ (readMembers (n + 1 + 1) (32 :: _)) = _
    rw [readMembers_space, h2]
    simp [skipWs, isWs]
  rw [h5, h6]
  simp [skipWs]

/-- **C26 (calls).** Method calls have no JSON form: the marshaller refuses them and writes nothing. -/
theorem C26_call (dbl : BitVec 64 → Bytes) (name : Bytes) (ops : List PackOp) : run dbl (.packMethodCall name :: ops) = ([], some .other) := rfl

/-- Remark: a double that does not print as a JSON number (`nan`, `inf`) makes a text that is not JSON. -/
theorem C26_nonfinite (dbl : BitVec 64 → Bytes) (x : BitVec 64) (h : dbl x = asc "nan" ∨ dbl x = asc "inf" ∨ dbl x = asc "-inf") :
    ∃ ws, run dbl (.packMethodResponse :: feed (.double x)) = (ws, none) ∧ parse ws.flatten = none := by
  obtain ⟨ws, h1, h2⟩ := run_value dbl (.double x) (by simp [Small])
  refine ⟨ws, h1, ?_⟩
  rw [h2]
  simp only [text]
  rcases h with h | h | h <;> rw [h] <;> decide +kernel

/-- The text of doubles in the examples. -/
def exampleDbl (_ : BitVec 64) : Bytes := asc "-1.5e+10"

example : DoublesAll (fun x => IsNumber (exampleDbl x)) (.array [.double 3, .struct [(asc "a", .int (-4)), (asc "b\n", .array [])], .binary [1, 2]]) := by
  have : IsNumber (asc "-1.5e+10") := by unfold IsNumber; decide +kernel
  simp [DoublesAll, DoublesItems, DoublesMembers, exampleDbl, this]
example : (run exampleDbl (.packMethodResponse :: feed (.array [.double 3, .struct [(asc "a", .int (-4)), (asc "b\n", .array [])], .binary [1, 2]]))).1.flatten =
    asc "[-1.5e+10,{\"a\":-4,\"b\\n\":[]},\"AQI=\"]" := by decide +kernel

/-- **C27.** A quoted string ends where it should, whatever its bytes and whatever follows: a JSON reader gets the bytes and then
what follows. Between the quotes there is no control byte and no quote that is not preceded by a backslash. -/
theorem C27_quote (s rest : Bytes) :
    readString ((quote s).flatten ++ rest) = some (s, rest) ∧
    ∃ body, (quote s).flatten = 34 :: (body ++ [34]) ∧ (∀ c ∈ body, 32 ≤ c.toNat ∧ c.toNat ≠ 127) ∧
      ∀ a b, body = a ++ 34 :: b → ∃ a', a = a' ++ [92] := by
  refine ⟨?_, quoted s, quote_flatten s, ?_, ?_⟩
  · rw [quote_flatten]
    simpa using readString_quoted s rest
  · intro c hc
    simp only [quoted, List.mem_flatten, List.mem_map] at hc
    obtain ⟨l, ⟨x, hx, rfl⟩, hc⟩ := hc
    have := forall_byte (fun x => (quoteChar x).all (fun c => decide (32 ≤ c.toNat ∧ c.toNat ≠ 127))) (by decide +kernel) x
    simpa using List.all_eq_true.1 this c hc
  · have key : ∀ x : UInt8, (34 : UInt8) ∉ quoteChar x ∨ quoteChar x = [92, 34] := by
      intro x
      have := forall_byte (fun x => !(quoteChar x).contains 34 || decide (quoteChar x = [92, 34])) (by decide +kernel) x
      simp only [Bool.or_eq_true, Bool.not_eq_true', decide_eq_true_eq] at this
      rcases this with h | h
      · left; intro hm; rw [List.contains_iff_mem.2 hm] at h; cases h
      · exact .inr h
    induction s with
    | nil => intro a b h; simp [quoted] at h
    | cons c s ih =>
      intro a b h
      have e : quoted (c :: s) = quoteChar c ++ quoted s := by simp [quoted]
      rw [e] at h
      rcases key c with hk | hk
      · obtain ⟨a2, h1, h2⟩ | ⟨b2, h1, h2⟩ := List.append_eq_append_iff.1 h
        · obtain ⟨a', ha⟩ := ih a2 b h2
          exact ⟨quoteChar c ++ a', by rw [h1, ha]; simp⟩
        · cases b2 with
          | nil =>
            simp only [List.append_nil] at h1
            simp only [List.nil_append] at h2
            obtain ⟨a', ha⟩ := ih [] b (by simpa using h2.symm)
            simp at ha
          | cons d b2 =>
            simp only [List.cons_append, List.cons.injEq] at h2
            exfalso
            apply hk
            rw [h1, ← h2.1]
            simp
      · rw [hk] at h
        cases a with
        | nil => simp at h
        | cons x a =>
          simp only [List.cons_append, List.nil_append, List.cons.injEq] at h
          obtain ⟨rfl, h⟩ := h
          cases a with
          | nil => exact ⟨[], rfl⟩
          | cons y a =>
            simp only [List.cons_append, List.cons.injEq] at h
            obtain ⟨a', ha⟩ := ih a b h.2
            exact ⟨92 :: y :: a', by rw [ha]; rfl⟩

example : (quote (asc "a\"\\\n\u0001")).flatten = asc "\"a\\\"\\\\\\n\\u0001\"" := by decide +kernel

end Frpc
