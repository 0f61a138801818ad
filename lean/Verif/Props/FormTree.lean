import Verif.Proofs.FormTree
/-!
# What a method gets from a URL-encoded form: C34
-/
namespace Frpc
open Spec UrlForm

/-- **C34 (what the method gets).** A well-formed request in any splitting: the method named by the path is called with one argument, a struct; its members are those that the form
gives (`IsForm`, which has exactly one solution): under `k` the array of all values of `k[]` if there are any, else the first value of `k` unless it is empty. This holds of requests
with both `k` and `k[]` too, although the builder is told the member twice (`C34_violated`): the array is kept. Missing: requests with malformed values, see `C34_shape_partial`. -/
theorem C34_tree_partial (env : Env) (dbl : Bytes → BitVec 64 → Prop) (henv : EnvOk env dbl) (cfg : TreeBuilder.Cfg)
    (path : Bytes) (chunks : List Bytes) (ps : List Piece) (hok : ∀ p ∈ ps, p.Ok dbl) (hform : ∀ p ∈ ps, FormOk cfg p) (hl : ps.length < 2 ^ 32)
    (hc : chunks.flatten = body ps) :
    ∃ tb evs ms, run env path chunks = (evs, none) ∧ BinUnMarshaller.applyEvents (TreeBuilder.builder cfg) TreeBuilder.init evs = (tb, none) ∧
      tb.methodName = methodOf path ∧ IsForm cfg ps ms ∧ (∀ ms', IsForm cfg ps ms' → ms' = ms) ∧ TreeBuilder.getData tb = .ok (.array [.struct ms]) := by
  obtain ⟨ns, hsort, hns⟩ := FormTree.names ps
  have h := C34_request_partial env dbl henv path chunks ps hok hl hc ns hsort hns
  obtain ⟨tb, ms, h1, h2, h3, h4⟩ := FormTree.form_built (cfg := cfg) (methodOf path) ps hok hform ns hsort hns ns.length
  exact ⟨tb, _, ms, h, h1, h2, h3, fun ms' h' => FormTree.isForm_unique h' h3, h4⟩

/-- `a=true&a[]=false&b=`: the pieces are well formed, and the form gives `{a: [false]}`. -/
def bothForm : List Piece := [.field (asc "a") (asc "true") [.bool true], .field (asc "a[]") (asc "false") [.bool false], .field (asc "b") [] []]

theorem bothForm_ok : (∀ p ∈ bothForm, p.Ok (fun _ _ => False)) ∧ (∀ p ∈ bothForm, FormOk ⟨fun _ => true, none⟩ p) ∧ body bothForm = asc "a=true&a[]=false&b=" := by
  have lit : ∀ {c e s}, c ≠ 37 → c ≠ 43 → Encodes e s → Encodes (c :: e) (c :: s) := fun a b c => .literal a b c
  refine ⟨?_, ?_, by decide +kernel⟩
  · intro p hp
    simp only [bothForm, List.mem_cons, List.not_mem_nil, or_false] at hp
    rcases hp with rfl | rfl | rfl
    · exact ⟨by decide, by decide, by decide, asc "true", lit (by decide) (by decide) <| lit (by decide) (by decide) <|
        lit (by decide) (by decide) <| lit (by decide) (by decide) .nil, .true⟩
    · exact ⟨by decide, by decide, by decide, asc "false", lit (by decide) (by decide) <| lit (by decide) (by decide) <|
        lit (by decide) (by decide) <| lit (by decide) (by decide) <| lit (by decide) (by decide) .nil, .false⟩
    · exact ⟨by decide, by decide, by decide, [], .nil, .empty⟩
  · intro p hp
    simp only [bothForm, List.mem_cons, List.not_mem_nil, or_false] at hp
    rcases hp with rfl | rfl | rfl
    · exact ⟨by decide, fun s h => absurd h (by simp)⟩
    · exact ⟨by decide, fun s h => absurd h (by simp)⟩
    · exact ⟨by decide, fun s h => absurd h (by simp)⟩

theorem bothForm_is : IsForm ⟨fun _ => true, none⟩ bothForm [(asc "a", .array [.bool false])] := by
  have h1 : ∀ k : Bytes, (valuesOf k bothForm ≠ []) ↔ (k = asc "a" ∨ k = asc "a[]" ∨ k = asc "b") := by
    intro k
    simp only [bothForm, valuesOf]
    by_cases a : asc "a" = k
    · simp [← a]
    · by_cases b : asc "a[]" = k
      · rw [if_neg a, if_pos b]; simp [← b]
      · by_cases c : asc "b" = k
        · rw [if_neg a, if_neg b, if_pos c]; simp [← c]
        · simp [a, b, c, Ne.symm a, Ne.symm b, Ne.symm c]
  have tail : ∀ (k : Bytes) (x : UInt8), k ++ asc "[]" = [x] → False := by
    intro k x h
    have := congrArg List.length h
    have hl : (asc "[]").length = 2 := by decide +kernel
    rw [List.length_append, hl] at this
    simp at this
  have ea : asc "a" = [97] := by decide +kernel
  have eb : asc "b" = [98] := by decide +kernel
  have eab : asc "a[]" = asc "a" ++ asc "[]" := by decide +kernel
  refine ⟨List.pairwise_singleton _ _, fun k v => ?_⟩
  simp only [List.mem_singleton, Prod.mk.injEq]
  constructor
  · rintro ⟨rfl, rfl⟩
    exact .inl ⟨(h1 _).2 (.inr (.inl (by decide +kernel))), rfl⟩
  · rintro (⟨h, rfl⟩ | ⟨h, hm, e, he, rfl⟩)
    · rcases (h1 _).1 h with h | h | h
      · rw [ea] at h; exact (tail _ _ h).elim
      · rw [eab] at h
        have : k = asc "a" := List.append_cancel_right h
        subst this
        exact ⟨rfl, rfl⟩
      · rw [eb] at h; exact (tail _ _ h).elim
    · have hk : valuesOf k bothForm ≠ [] := fun h0 => by rw [h0] at he; simp at he
      rcases (h1 _).1 hk with rfl | rfl | rfl
      · exact absurd h ((h1 _).2 (.inr (.inl (by decide +kernel))))
      · exact absurd ⟨asc "a", eab⟩ hm
      · have : valuesOf (asc "b") bothForm = [[]] := by decide +kernel
        rw [this] at he; simp at he

end Frpc
