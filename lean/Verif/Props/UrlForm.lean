import Verif.Proofs.UrlForm
/-!
# URL-encoded requests: C33 (percent-decoding), C34 (requests)
-/
namespace Frpc
open Spec hiding run
open UrlForm

/-- C33, first part: decoding any percent-encoding of any byte string gives the byte string. -/
theorem C33_decode_inverts_encode_partial (e s : Bytes) (h : Encodes e s) : urldecode e = .ok s := by
  rw [urldecode_eq, pdecode_encodes h]

/-- C33, second part: a result is never longer than the input, and the only inputs without a
result are those ending in `%`. Missing: for some of those the code reads past the end (see
`C33_violated`). -/
theorem C33_decode_bounded_partial (s : Bytes) :
    (∀ r, urldecode s = .ok r → r.length ≤ s.length) ∧
    (∀ e, urldecode s = .error e → e = .ub ∧ s.getLast? = some 37) := by
  rw [urldecode_eq]; exact pdecode_bound s.length s (Nat.le_refl _)

/-- C33 is false as stated "for any input": on a lone trailing `%` the iterator is advanced past the
end of the string and read there. -/
theorem C33_violated : ¬ ∀ s : Bytes, ∃ r, urldecode s = .ok r ∧ r.length ≤ s.length := by
  intro h
  obtain ⟨r, hr, -⟩ := h (asc "a%")
  have h2 : urldecode (asc "a%") = .error .ub := by decide +kernel
  rw [h2] at hr; cases hr

example : Encodes (asc "%41+%62%4aZ") (asc "A bJZ") := by
  refine .percent (c := 65) ⟨by decide, by decide⟩ ⟨by decide, by decide⟩ (.plus (.percent (c := 98) ⟨by decide, by decide⟩ ⟨by decide, by decide⟩
    (.percent (c := 74) ⟨by decide, by decide⟩ ⟨by decide, by decide⟩ (.literal (by decide) (by decide) .nil))))
example : urldecode (asc "%41+%62%4aZ%4") = .ok (asc "A bJZ") := by decide +kernel

/-- C34, any input: what is built depends only on the concatenation of the pieces. -/
theorem C34_splitting (env : Env) (path : Bytes) (a b : List Bytes) (h : a.flatten = b.flatten) :
    run env path a = run env path b := by
  unfold run; rw [foldl_append, foldl_append, h]

/-- C34, well-formed requests in any splitting: one method call with one struct, whose members are
the distinct names in ascending order; a member `name[]` is the array of all values given under it
in order, any other member the first value given. Missing: uniqueness of member names when both
`name` and `name[]` occur, and members with an empty value (see `C34_violated`); requests with
malformed values. -/
theorem C34_request_partial (env : Env) (dbl : Bytes → BitVec 64 → Prop) (henv : EnvOk env dbl)
    (path : Bytes) (chunks : List Bytes) (ps : List Piece) (hok : ∀ p ∈ ps, p.Ok dbl) (hl : ps.length < 2 ^ 32)
    (hc : chunks.flatten = body ps) (ns : List Bytes) (hsort : ns.Pairwise (fun x y => keyLt x y = true))
    (hns : ∀ k, k ∈ ns ↔ valuesOf k ps ≠ []) :
    run env path chunks =
      ([.methodCall (methodOf path), .openStruct ns.length] ++ ns.flatMap (memberCalls ps) ++ [.closeStruct], none) :=
  run_eq henv path chunks ps hok hl hc ns hsort hns

/-- C34, any input that is accepted: exactly one method call with one struct is built; its members
come from names in strictly ascending order, each with scalars only; `name[]` gives an array. Missing
as in `C34_request_partial`. -/
theorem C34_shape_partial (env : Env) (path : Bytes) (chunks : List Bytes) (evs : List Event)
    (h : run env path chunks = (evs, none)) :
    ∃ entries : List (Bytes × List (List Event)), entries.Pairwise (fun a b => keyLt a.1 b.1 = true) ∧
      evs = [.methodCall (methodOf path), .openStruct (entries.length % 2 ^ 32)] ++
        entries.flatMap (fun p => block p.1 p.2) ++ [.closeStruct] ∧
      ∀ p ∈ entries, ∀ v ∈ p.2, v.length ≤ 1 ∧ ∀ e ∈ v, isScalarCall e = true :=
  run_ok h

/-- Surroundings for the examples: no doubles. -/
def plainEnv : Env := ⟨fun _ => (0, 0, true), false, true⟩
theorem plainEnv_ok : EnvOk plainEnv (fun _ _ => False) := ⟨rfl, rfl, fun _ _ h => h.elim, fun _ _ h => h.elim⟩

/-- `n=0&a[]=true&x&a[]=false`: the hypotheses of `C34_request_partial` hold. -/
example : (run plainEnv (asc "/srv/method") [asc "n=0&a[]=tr", asc "ue&x&a[]=false"]) =
    ([.methodCall (asc "srv.method"), .openStruct 2, .member (asc "a"), .openArray 2, .bool true, .bool false, .closeArray,
      .member (asc "n"), .int 0, .closeStruct], none) := by
  have lit : ∀ {c e s}, c ≠ 37 → c ≠ 43 → Encodes e s → Encodes (c :: e) (c :: s) := fun a b c => .literal a b c
  have h := C34_request_partial plainEnv _ plainEnv_ok (asc "/srv/method") [asc "n=0&a[]=tr", asc "ue&x&a[]=false"]
    [.field (asc "n") (dec 0) [.int 0], .field (asc "a[]") (asc "true") [.bool true], .junk (asc "x"),
     .field (asc "a[]") (asc "false") [.bool false]]
    (by
      have hd : dec 0 = [48] := by simp [dec, digit]
      intro p hp
      simp only [List.mem_cons, List.not_mem_nil, or_false] at hp
      rcases hp with rfl | rfl | rfl | rfl
      · refine ⟨by decide, by decide, by rw [hd]; decide, dec 0, ?_, .int 0 (by decide)⟩
        rw [hd]; exact lit (by decide) (by decide) .nil
      · exact ⟨by decide, by decide, by decide, asc "true", lit (by decide) (by decide) <| lit (by decide) (by decide) <|
          lit (by decide) (by decide) <| lit (by decide) (by decide) .nil, .true⟩
      · exact ⟨by decide, by decide⟩
      · exact ⟨by decide, by decide, by decide, asc "false", lit (by decide) (by decide) <| lit (by decide) (by decide) <|
          lit (by decide) (by decide) <| lit (by decide) (by decide) <| lit (by decide) (by decide) .nil, .false⟩)
    (by decide)
    (by have hd : dec 0 = [48] := by simp [dec, digit]
        simp only [body, Piece.text, hd]; decide)
    [asc "a[]", asc "n"] (by decide) (by
      intro k
      by_cases h1 : asc "n" = k
      · subst h1; decide
      · by_cases h2 : asc "a[]" = k
        · subst h2; decide
        · simp only [valuesOf, h1, h2, if_false, List.mem_cons, List.not_mem_nil, or_false, ne_eq, not_true, iff_false, not_or]
          exact ⟨fun h => h2 h.symm, fun h => h1 h.symm⟩)
  rw [h]
  decide +kernel

/-- C34 is false as stated: with both `a` and `a[]` the member `a` is built twice, and with an empty
value a member is built without a value. -/
theorem C34_violated :
    run plainEnv (asc "/m") [asc "a=true&a[]=false"] =
      ([.methodCall (asc "m"), .openStruct 2, .member (asc "a"), .bool true, .member (asc "a"), .openArray 1, .bool false,
        .closeArray, .closeStruct], none) ∧
    run plainEnv (asc "/m") [asc "a="] = ([.methodCall (asc "m"), .openStruct 1, .member (asc "a"), .closeStruct], none) := by
  constructor <;> decide +kernel

end Frpc
