import Verif.Props.UrlForm
/-!
# URL-encoded requests with values that mean nothing: C34
-/
namespace Frpc
open Spec UrlForm

/-- Texts that are no value: a string that is not ended, and what begins like no value at all. -/
inductive NoValue : Bytes → Prop
  | quote : NoValue [34]
  | open (s : Bytes) (c : UInt8) : c ≠ 34 → NoValue (34 :: s ++ [c])
  | other (c : UInt8) (s : Bytes) : c ≠ 34 → c ≠ 92 → c ≠ 102 → c ≠ 110 → c ≠ 116 → isDigit c = false → NoValue (c :: s)

/-- Pieces with the `&` after each. -/
def leading : List Piece → Bytes
  | [] => []
  | p :: ps => p.text ++ [38] ++ leading ps

namespace UrlForm

theorem unquote_last : ∀ (n : Nat) (s : Bytes) (c : UInt8), s.length ≤ n → (unquote (s ++ [c])).getLast? = some c := by
  intro n
  induction n with
  | zero =>
    intro s c h
    have : s = [] := List.length_eq_zero_iff.1 (by omega)
    subst this
    simp [unquote]
  | succ n ih =>
    intro s c h
    cases s with
    | nil => simp [unquote]
    | cons a s =>
      have hl : s.length ≤ n := by simpa using h
      have hcons : ∀ x : UInt8, (x :: unquote (s ++ [c])).getLast? = some c := by
        intro x
        have := ih s c hl
        cases hu : unquote (s ++ [c]) with
        | nil => rw [hu] at this; simp at this
        | cons y ys => rw [hu] at this; simpa using this
      by_cases ha : a = 92
      · subst ha
        cases s with
        | nil =>
          show (unquote [92, c]).getLast? = _
          rw [unquote]
          by_cases hc : c = 92 ∨ c = 34
          · rw [if_pos hc]; simp [unquote]
          · rw [if_neg hc]; simp [unquote]
        | cons b s =>
          show (unquote (92 :: b :: (s ++ [c]))).getLast? = _
          rw [unquote]
          by_cases hb : b = 92 ∨ b = 34
          · rw [if_pos hb]
            have := ih s c (by simp at hl; omega)
            cases hu : unquote (s ++ [c]) with
            | nil => rw [hu] at this; simp at this
            | cons y ys => rw [hu] at this; simpa using this
          · rw [if_neg hb]
            exact hcons 92
      · show (unquote (a :: (s ++ [c]))).getLast? = _
        rw [unquote_other _ ha]
        exact hcons a

theorem noValue_refused {t : Bytes} (h : NoValue t) : resolveType (unquote t) = .error .stream := by
  cases h with
  | quote => simp [unquote, resolveType]
  | «open» s c hc =>
    show resolveType (unquote (34 :: (s ++ [c]))) = _
    rw [unquote_other _ (by decide)]
    have hl := unquote_last _ s c (Nat.le_refl _)
    unfold resolveType
    simp only [if_true]
    rw [if_pos]
    right
    cases hu : unquote (s ++ [c]) with
    | nil => rw [hu] at hl; simp at hl
    | cons y ys =>
      rw [hu] at hl
      have e : (34 :: y :: ys : Bytes).getLast? = some c := by simpa using hl
      rw [e]
      simpa using hc
  | other c s h1 h2 h3 h4 h5 h6 =>
    rw [unquote_other _ h2]
    unfold resolveType
    simp only [h1, h3, h4, h5, h6, if_false, or_self]
    rfl

theorem bad_piece (vals : Values) {n e t : Bytes} (h1 : (38 : UInt8) ∉ n) (h2 : (61 : UInt8) ∉ n) (h3 : (38 : UInt8) ∉ e) (he : Encodes e t) (ht : NoValue t) (pre rest : Bytes)
    (hr : rest = [] ∨ ∃ r, rest = 38 :: r) (f : Nat) : collectLoop (pre ++ (n ++ [61] ++ e ++ rest)) (f + 1) pre.length vals = .error .stream := by
  have hamp : (38 : UInt8) ∉ n ++ [61] ++ e := by
    simp only [List.mem_append, not_or]
    exact ⟨⟨h1, by decide⟩, h3⟩
  have h61 : findFrom 61 (pre ++ (n ++ [61] ++ e ++ rest)) pre.length = some (n.length + pre.length) := by
    rw [findFrom_at]
    have : n ++ [61] ++ e ++ rest = n ++ 61 :: (e ++ rest) := by simp
    rw [this, findIdx?_append_cons h2]; rfl
  have hname : substr (pre ++ (n ++ [61] ++ e ++ rest)) pre.length (some (n.length + pre.length - pre.length)) = n := by
    simp [substr]
  have hdrop : (pre ++ (n ++ [61] ++ e ++ rest)).drop (n.length + pre.length + 1) = e ++ rest := by
    have e1 : pre ++ (n ++ [61] ++ e ++ rest) = (pre ++ n ++ [61]) ++ (e ++ rest) := by simp
    rw [e1, List.drop_left' (by simp; omega)]
  have key : ∀ iamp, findFrom 38 (pre ++ (n ++ [61] ++ e ++ rest)) pre.length = iamp → posLt (some (n.length + pre.length)) iamp = true →
      substr (pre ++ (n ++ [61] ++ e ++ rest)) (n.length + pre.length + 1) (iamp.map (fun a => a - pre.length - n.length - 1)) = e →
      collectLoop (pre ++ (n ++ [61] ++ e ++ rest)) (f + 1) pre.length vals = .error .stream := by
    intro iamp ha hlt hval
    unfold collectLoop
    simp only [ha, h61]
    unfold onePiece
    rw [hlt]
    simp only [Option.getD_some, hname, hval, urldecode_eq, pdecode_encodes he, bind, Except.bind, noValue_refused ht]
  rcases hr with rfl | ⟨r, rfl⟩
  · refine key none ?_ rfl ?_
    · rw [findFrom_at, List.append_nil, findIdx?_absent hamp]; rfl
    · simp only [Option.map_none, substr]
      simpa using hdrop
  · refine key (some (pre.length + (n ++ [61] ++ e).length)) ?_ ?_ ?_
    · rw [findFrom_at, findIdx?_append_cons hamp]; simp [Nat.add_comm]
    · simp [posLt]; omega
    · simp only [Option.map_some, substr, hdrop]
      have : pre.length + (n ++ [61] ++ e).length - pre.length - n.length - 1 = e.length := by simp
      rw [this]; simp

theorem collect_refused {env dbl} (henv : EnvOk env dbl) : ∀ (ps : List Piece) (pre : Bytes) (f : Nat) (done : List Piece) (vals : Values), (∀ p ∈ ps, p.Ok dbl) → Inv env done vals →
    ∀ {n e t : Bytes}, (38 : UInt8) ∉ n → (61 : UInt8) ∉ n → (38 : UInt8) ∉ e → Encodes e t → NoValue t → ∀ (rest : Bytes), (rest = [] ∨ ∃ r, rest = 38 :: r) → (leading ps).length < f →
    collectLoop (pre ++ (leading ps ++ (n ++ [61] ++ e ++ rest))) f pre.length vals = .error .stream := by
  intro ps
  induction ps with
  | nil =>
    intro pre f done vals _ _ n e t h1 h2 h3 he ht rest hr hf
    obtain ⟨f, rfl⟩ : ∃ g, f = g + 1 := ⟨f - 1, by omega⟩
    simp only [leading, List.nil_append]
    exact bad_piece vals h1 h2 h3 he ht pre rest hr f
  | cons p ps ih =>
    intro pre f done vals hok h n e t h1 h2 h3 he ht rest hr hf
    obtain ⟨f, rfl⟩ : ∃ g, f = g + 1 := ⟨f - 1, by omega⟩
    have hb : pre ++ (leading (p :: ps) ++ (n ++ [61] ++ e ++ rest)) = pre ++ (p.text ++ 38 :: (leading ps ++ (n ++ [61] ++ e ++ rest))) := by simp [leading]
    obtain ⟨g1, vals', g2, g3⟩ := piece_step henv h p (hok p (by simp)) pre (38 :: (leading ps ++ (n ++ [61] ++ e ++ rest))) _ (.inr ⟨_, rfl, rfl⟩)
    have hlen : (leading (p :: ps)).length = p.text.length + 1 + (leading ps).length := by simp [leading]; omega
    have h4 := ih (pre ++ p.text ++ [38]) f (done ++ [p]) vals' (fun x hx => hok x (by simp [hx])) g3 h1 h2 h3 he ht rest hr (by omega)
    unfold collectLoop
    simp only [hb]
    rw [g1, g2]
    simp only [bind, Except.bind]
    rw [← h4]
    congr 1
    · simp
    · simp; omega

end UrlForm

/-- **C34 (what means nothing is refused).** In a request in any splitting, a field whose value is a string that is not ended, or begins like no value, after any well-formed fields and whatever
follows it: the request is refused with a stream error, and nothing but the name of the method has been told to the builder. Missing: values that begin as one should, see below. -/
theorem C34_refused_partial (env : Env) (dbl : Bytes → BitVec 64 → Prop) (henv : EnvOk env dbl) (path : Bytes) (chunks : List Bytes) (ps : List Piece) (hok : ∀ p ∈ ps, p.Ok dbl)
    (name enc t : Bytes) (h1 : (38 : UInt8) ∉ name) (h2 : (61 : UInt8) ∉ name) (h3 : (38 : UInt8) ∉ enc) (he : Encodes enc t) (ht : NoValue t) (rest : Bytes)
    (hr : rest = [] ∨ ∃ r, rest = 38 :: r) (hc : chunks.flatten = leading ps ++ (name ++ [61] ++ enc ++ rest)) :
    run env path chunks = ([.methodCall (methodOf path)], some .stream) := by
  have h := collect_refused henv ps [] ((leading ps ++ (name ++ [61] ++ enc ++ rest)).length + 1) [] [] hok
    ⟨List.Pairwise.nil, by simp, by simp [SMap.find?, Spec.valuesOf], by simp [SMap.find?, Spec.valuesOf]⟩ h1 h2 h3 he ht rest hr (by simp; omega)
  simp only [List.nil_append, List.length_nil] at h
  unfold UrlForm.run finish
  rw [foldl_append, List.nil_append, hc]
  unfold UrlForm.collect
  rw [h]
  rfl

/-- **C34 is violated: values that are none are taken.** Anything that begins with `t` or `f` and is not `true` is false, anything that begins with `n` is null, and a string need not be ended, if
its last quote is one of its content. -/
theorem C34_loose_violated :
    run plainEnv (asc "/m") [asc "a=True"] = ([.methodCall (asc "m")], some .stream) ∧
    run plainEnv (asc "/m") [asc "a=truth"] = ([.methodCall (asc "m"), .openStruct 1, .member (asc "a"), .bool false, .closeStruct], none) ∧
    run plainEnv (asc "/m") [asc "a=nonsense"] = ([.methodCall (asc "m"), .openStruct 1, .member (asc "a"), .null, .closeStruct], none) ∧
    run plainEnv (asc "/m") [asc "a=\"b\\\""] = ([.methodCall (asc "m"), .openStruct 1, .member (asc "a"), .string (asc "b"), .closeStruct], none) := by
  refine ⟨?_, ?_, ?_, ?_⟩ <;> decide +kernel

/-- `x=false&a=%22&b=1`, in two pieces. -/
example : run plainEnv (asc "/m") [asc "x=false&a=%2", asc "2&b=1"] = ([.methodCall (asc "m")], some .stream) :=
  C34_refused_partial plainEnv _ plainEnv_ok (asc "/m") _ [.field (asc "x") (asc "false") [.bool false]]
    (by
      intro p hp
      simp only [List.mem_cons, List.not_mem_nil, or_false] at hp
      subst hp
      have lit : ∀ {c e s}, c ≠ 37 → c ≠ 43 → Encodes e s → Encodes (c :: e) (c :: s) := fun a b c => .literal a b c
      exact ⟨by decide, by decide, by decide, asc "false", lit (by decide) (by decide) <| lit (by decide) (by decide) <|
        lit (by decide) (by decide) <| lit (by decide) (by decide) <| lit (by decide) (by decide) .nil, .false⟩)
    (asc "a") (asc "%22") [34] (by decide) (by decide) (by decide)
    (.percent ⟨by decide, .inl (by decide)⟩ ⟨by decide, .inl (by decide)⟩ .nil) .quote (asc "&b=1") (.inr ⟨asc "b=1", by decide⟩) (by decide)

end Frpc
