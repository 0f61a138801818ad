import Verif.Model.GatherFeed
import Verif.Props.OwnMarshaller
/-!
# C156: feeding and gathering secrets in one pass
-/
namespace Frpc
open OwnMarshaller OwnSpec GatherFeed Secrets

namespace GatherFeed

/-- The calls, for either kind of marshaller. -/
def run {σ : Type} (lib : Bool) (M : Own σ) (s : σ) : List PackOp → σ × Option Err
  | [] => (s, none)
  | op :: ops => if lib = false ∧ LibOnly op then (s, some .other) else andThen (M.call s op) fun s => run lib M s ops

theorem run_append {σ : Type} (lib : Bool) (M : Own σ) (a b : List PackOp) (s : σ) : run lib M s (a ++ b) = andThen (run lib M s a) fun s => run lib M s b := by
  induction a generalizing s with
  | nil => rfl
  | cons op a ih =>
    rw [List.cons_append, run, run]
    by_cases h : lib = false ∧ LibOnly op
    · rw [if_pos h, if_pos h]; rfl
    · rw [if_neg h, if_neg h, andThen_assoc]
      congr 1
      funext s
      exact ih s

theorem run_false {σ : Type} (M : Own σ) (ops : List PackOp) (s : σ) : run false M s ops = runOps M s ops := by
  induction ops generalizing s with
  | nil => rfl
  | cons op ops ih =>
    rw [run, runOps]
    by_cases h : LibOnly op
    · rw [if_pos ⟨rfl, h⟩, if_pos h]
    · rw [if_neg (fun x => h x.2), if_neg h]
      congr 1
      funext s
      exact ih s

theorem run_true {σ : Type} (M : Own σ) (ops : List PackOp) (s : σ) : run true M s ops = tell M s ops := by
  induction ops generalizing s with
  | nil => rfl
  | cons op ops ih =>
    rw [run, tell, if_neg (by simp)]
    rcases M.call s op with ⟨s', _ | e⟩
    · exact ih s'
    · rfl

/-- What a part of the pass has to do: the calls, more secrets, and the stack as it was. -/
def Does {σ : Type} (r : St σ × Option Err) (s : St σ) (x : σ × Option Err) (more : List Bytes) : Prop :=
  r.1.m = x.1 ∧ r.2 = x.2 ∧ r.1.pointer = s.pointer ∧ (x.2 = none → r.1.secrets = s.secrets ++ more)

theorem does_then {σ : Type} {r : St σ × Option Err} {s : St σ} {x : σ × Option Err} {a b : List Bytes} {k : St σ → St σ × Option Err} {f : σ → σ × Option Err} (h : Does r s x a)
    (hk : ∀ t : St σ, t.pointer = s.pointer → Does (k t) t (f t.m) b) : Does (andThen r k) s (andThen x f) (a ++ b) := by
  obtain ⟨t, o⟩ := r
  obtain ⟨y, o'⟩ := x
  obtain ⟨h1, h2, h3, h4⟩ := h
  simp only at h1 h2 h3 h4
  subst h1 h2
  cases o with
  | some e => exact ⟨rfl, rfl, h3, fun h => nomatch h⟩
  | none =>
    obtain ⟨k1, k2, k3, k4⟩ := hk t h3
    refine ⟨k1, k2, k3.trans h3, fun h => ?_⟩
    show (k t).1.secrets = _
    rw [k4 h, h4 rfl, List.append_assoc]

theorem does_pop {σ : Type} {r : St σ × Option Err} {s : St σ} {x : σ × Option Err} {a : List Bytes} {g : Seg} (h : Does r (push s g) x a) : Does (pop r) s x a := by
  obtain ⟨h1, h2, h3, h4⟩ := h
  refine ⟨h1, h2, ?_, h4⟩
  show r.1.pointer.dropLast = _
  rw [h3]
  exact List.dropLast_concat

theorem does_call {σ : Type} (lib : Bool) (M : Own σ) (s : St σ) (op : PackOp) (h : ¬ LibOnly op) : Does (call M s op) s (run lib M s.m [op]) [] := by
  rw [run, if_neg (fun x => h x.2)]
  have : andThen (M.call s.m op) (fun s => run lib M s []) = M.call s.m op := andThen_none _
  rw [this]
  exact ⟨rfl, rfl, rfl, fun _ => (List.append_nil _).symm⟩

theorem does_lib {σ : Type} (lib : Bool) (M : Own σ) (s : St σ) (op : PackOp) (h : LibOnly op) : Does (callLib lib M s op) s (run lib M s.m [op]) [] := by
  unfold callLib
  cases lib with
  | false =>
    show Does (s, some .other) s _ _
    rw [run, if_pos ⟨rfl, h⟩]
    exact ⟨rfl, rfl, rfl, fun h => nomatch h⟩
  | true =>
    show Does (call M s op) s _ _
    rw [run, if_neg (by simp)]
    have : andThen (M.call s.m op) (fun s => run true M s []) = M.call s.m op := andThen_none _
    rw [this]
    exact ⟨rfl, rfl, rfl, fun _ => (List.append_nil _).symm⟩

theorem run_cons {σ : Type} (lib : Bool) (M : Own σ) (op : PackOp) (ops : List PackOp) (s : σ) : run lib M s (op :: ops) = andThen (run lib M s [op]) fun s => run lib M s ops :=
  run_append lib M [op] ops s

mutual
theorem feedG_does {σ : Type} (lib : Bool) (M : Own σ) (s : St σ) : (v : Value) → Does (feedG lib M s v) s (run lib M s.m (feed v)) (gather s.pointer v)
  | .int n => by simp only [feedG, feed, gather]; exact does_call lib M s _ (by intro h; cases h)
  | .bool b => by simp only [feedG, feed, gather]; exact does_call lib M s _ (by intro h; cases h)
  | .null => by simp only [feedG, feed, gather]; exact does_lib lib M s _ .null
  | .double d => by simp only [feedG, feed, gather]; exact does_call lib M s _ (by intro h; cases h)
  | .string t => by simp only [feedG, feed, gather]; exact does_call lib M s _ (by intro h; cases h)
  | .stringView t => by simp only [feedG, feed, gather]; exact does_call lib M s _ (by intro h; cases h)
  | .binaryRef cs => by simp only [feedG, feed, gather]; exact does_lib lib M s _ (.ref cs)
  | .binary t => by simp only [feedG, feed, gather]; exact does_call lib M s _ (by intro h; cases h)
  | .dateTime d => by simp only [feedG, feed, gather]; exact does_call lib M s _ (by intro h; cases h)
  | .struct ms => by
    rw [feedG, feed, gather, run_cons]
    exact does_then (a := []) (does_call lib M s _ (by intro h; cases h)) fun t ht => ht ▸ membersG_does lib M t ms
  | .array vs => by
    rw [feedG, feed, gather, run_cons]
    exact does_then (a := []) (does_call lib M s _ (by intro h; cases h)) fun t ht => ht ▸ itemsG_does lib M t 0 vs
  | .secret v => by
    rw [feedG, feed, gather]
    obtain ⟨h1, h2, h3, h4⟩ := feedG_does lib M (found s) v
    refine ⟨h1, h2, h3, fun h => ?_⟩
    rw [h4 h]
    show (s.secrets ++ [str s.pointer]) ++ gather s.pointer v = _
    rw [List.append_assoc]
    rfl
theorem itemsG_does {σ : Type} (lib : Bool) (M : Own σ) (s : St σ) (i : Nat) : (vs : List Value) → Does (itemsG lib M s i vs) s (run lib M s.m (feedItems vs)) (gatherItems s.pointer i vs)
  | [] => by rw [itemsG, feedItems, gatherItems, run]; exact ⟨rfl, rfl, rfl, fun _ => (List.append_nil _).symm⟩
  | v :: vs => by
    rw [itemsG, feedItems, gatherItems, run_append]
    exact does_then (does_pop (feedG_does lib M (push s (.index i)) v)) fun t ht => ht ▸ itemsG_does lib M t (i + 1) vs
theorem membersG_does {σ : Type} (lib : Bool) (M : Own σ) (s : St σ) : (ms : List (Bytes × Value)) → Does (membersG lib M s ms) s (run lib M s.m (feedMembers ms)) (gatherMembers s.pointer ms)
  | [] => by rw [membersG, feedMembers, gatherMembers, run]; exact ⟨rfl, rfl, rfl, fun _ => (List.append_nil _).symm⟩
  | (k, v) :: ms => by
    rw [membersG, feedMembers, gatherMembers, run_cons]
    simp only [run_append]
    rw [← andThen_assoc]
    refine does_then (does_pop (g := .key k) ?_) fun t ht => ht ▸ membersG_does lib M t ms
    exact does_then (a := []) (does_call lib M (push s (.key k)) _ (by intro h; cases h)) fun t ht => by
      have h := feedG_does lib M t v
      rw [ht] at h
      exact h
end

theorem gathered {σ : Type} (lib : Bool) (M : Own σ) (s : σ) (v : Value) : feedValueAndGatherSecrets lib M s v =
    match run lib M s (feed v) with
    | (s', none) => (s', .ok (gatherSecrets v))
    | (s', some e) => (s', .error e) := by
  obtain ⟨h1, h2, -, h4⟩ := feedG_does lib M ⟨s, [], []⟩ v
  unfold feedValueAndGatherSecrets
  rcases hg : feedG lib M ⟨s, [], []⟩ v with ⟨t, o⟩
  rcases hr : run lib M s (feed v) with ⟨s', o'⟩
  simp only [hg, hr] at h1 h2 h4
  subst h1 h2
  cases o with
  | none => simp only [h4 rfl]; rfl
  | some e => rfl

end GatherFeed

/-- **C156.** Feeding a tree and gathering its secrets makes of a marshaller of the library, whatever it throws, exactly the calls that feeding makes, and gives the pointers to the secrets if none of the calls throws, and that exception if one does. -/
theorem C156_library {σ : Type} (M : Own σ) (s : σ) (v : Value) : feedValueAndGatherSecrets true M s v =
    match tell M s (feed v) with
    | (s', none) => (s', .ok (gatherSecrets v))
    | (s', some e) => (s', .error e) := by
  rw [gathered, run_true]

/-- **C156 (marshallers of the user).** The same of a marshaller of the user, with the calls that feeding makes of it. -/
theorem C156_own {σ : Type} (M : Own σ) (s : σ) (v : Value) : feedValueAndGatherSecrets false M s v =
    match feedOwn M s v with
    | (s', none) => (s', .ok (gatherSecrets v))
    | (s', some e) => (s', .error e) := by
  rw [gathered, run_false, feedOwn_eq]

/-- **C156 (the stack).** Whatever is thrown and wherever, the stack of segments is after the pass what it was before it. -/
theorem C156_stack {σ : Type} (lib : Bool) (M : Own σ) (s : GatherFeed.St σ) (v : Value) : (feedG lib M s v).1.pointer = s.pointer := (feedG_does lib M s v).2.2.1

/-- A tree with secrets at the second item and in a member of the third, and a marshaller that refuses texts. -/
example : feedValueAndGatherSecrets true (notes false) [] (.array [.null, .secret (.int 1), .struct [(asc "a/b", .secret (.string (asc "x")))], .secret (.bool true)]) =
    ([.packArray 4, .packNull, .packInt 1, .packStruct 1, .packStructMember (asc "a/b"), .packString (asc "x"), .packBool true], .ok [asc "/1", asc "/2/a~1b", asc "/3"]) := by
  decide +kernel
example : feedValueAndGatherSecrets true (notes true) [] (.array [.null, .secret (.int 1), .struct [(asc "a/b", .secret (.string (asc "x")))], .secret (.bool true)]) =
    ([.packArray 4, .packNull, .packInt 1, .packStruct 1, .packStructMember (asc "a/b"), .packString (asc "x")], .error .type) := by
  decide +kernel
example : feedValueAndGatherSecrets false (notes false) [] (.array [.secret (.int 1), .null, .secret (.bool true)]) = ([.packArray 3, .packInt 1], .error .other) := by
  decide +kernel

end Frpc
