import Verif.Model.OwnMarshaller
/-!
# C154: trees fed into marshallers of the user
-/
namespace Frpc

namespace OwnSpec
open OwnMarshaller

/-- Calls one after another, up to the first that throws. -/
def tell {σ : Type} (M : Own σ) (s : σ) : List PackOp → σ × Option Err
  | [] => (s, none)
  | op :: ops =>
    match M.call s op with
    | (s', none) => tell M s' ops
    | (s', some e) => (s', some e)

/-- There is a null or a reference to binary data somewhere in the tree. -/
inductive Strange : Value → Prop
  | null : Strange .null
  | ref (cs : List Bytes) : Strange (.binaryRef cs)
  | item {v : Value} {vs : List Value} : v ∈ vs → Strange v → Strange (.array vs)
  | member {k : Bytes} {v : Value} {ms : List (Bytes × Value)} : (k, v) ∈ ms → Strange v → Strange (.struct ms)
  | secret {v : Value} : Strange v → Strange (.secret v)

/-- The two calls that only the marshallers of the library have. -/
inductive LibOnly : PackOp → Prop
  | null : LibOnly .packNull
  | ref (cs : List Bytes) : LibOnly (.packBinaryRef cs)

end OwnSpec
open OwnMarshaller OwnSpec

namespace OwnMarshaller

instance (op : PackOp) : Decidable (LibOnly op) := by
  cases op <;> first | exact isTrue .null | exact isTrue (.ref _) | exact isFalse (by intro h; cases h)

/-- What feeding does, in terms of the calls that would be made of a marshaller of the library. -/
def runOps {σ : Type} (M : Own σ) (s : σ) : List PackOp → σ × Option Err
  | [] => (s, none)
  | op :: ops => if LibOnly op then (s, some .other) else andThen (M.call s op) fun s => runOps M s ops

theorem andThen_none {σ : Type} (r : σ × Option Err) : andThen r (fun s => (s, none)) = r := by
  obtain ⟨s, _ | e⟩ := r <;> rfl

theorem andThen_assoc {σ : Type} (r : σ × Option Err) (f g : σ → σ × Option Err) : andThen (andThen r f) g = andThen r fun s => andThen (f s) g := by
  obtain ⟨s, _ | e⟩ := r <;> rfl

theorem runOps_append {σ : Type} (M : Own σ) (a b : List PackOp) (s : σ) : runOps M s (a ++ b) = andThen (runOps M s a) fun s => runOps M s b := by
  induction a generalizing s with
  | nil => rfl
  | cons op a ih =>
    rw [List.cons_append, runOps, runOps]
    by_cases h : LibOnly op
    · rw [if_pos h, if_pos h]; rfl
    · rw [if_neg h, if_neg h, andThen_assoc]
      congr 1
      funext s
      exact ih s

theorem runOps_one {σ : Type} (M : Own σ) (op : PackOp) (h : ¬ LibOnly op) (s : σ) : runOps M s [op] = M.call s op := by
  rw [runOps, if_neg h]
  exact andThen_none _

mutual
theorem feedOwn_eq {σ : Type} (M : Own σ) (s : σ) : (v : Value) → feedOwn M s v = runOps M s (feed v)
  | .int n => by rw [feedOwn, feed, runOps_one _ _ (by intro h; cases h)]
  | .bool b => by rw [feedOwn, feed, runOps_one _ _ (by intro h; cases h)]
  | .null => by rw [feedOwn, feed, runOps, if_pos .null]
  | .double d => by rw [feedOwn, feed, runOps_one _ _ (by intro h; cases h)]
  | .string t => by rw [feedOwn, feed, runOps_one _ _ (by intro h; cases h)]
  | .stringView t => by rw [feedOwn, feed, runOps_one _ _ (by intro h; cases h)]
  | .binaryRef cs => by rw [feedOwn, feed, runOps, if_pos (.ref cs)]
  | .binary t => by rw [feedOwn, feed, runOps_one _ _ (by intro h; cases h)]
  | .dateTime d => by rw [feedOwn, feed, runOps_one _ _ (by intro h; cases h)]
  | .struct ms => by
    rw [feedOwn, feed, runOps, if_neg (by intro h; cases h)]
    congr 1; funext s
    exact ownMembers_eq M s ms
  | .array vs => by
    rw [feedOwn, feed, runOps, if_neg (by intro h; cases h)]
    congr 1; funext s
    exact ownItems_eq M s vs
  | .secret v => by rw [feedOwn, feed]; exact feedOwn_eq M s v
theorem ownItems_eq {σ : Type} (M : Own σ) (s : σ) : (vs : List Value) → ownItems M s vs = runOps M s (feedItems vs)
  | [] => by rw [ownItems, feedItems, runOps]
  | v :: vs => by
    rw [ownItems, feedItems, runOps_append, feedOwn_eq M s v]
    congr 1; funext s
    exact ownItems_eq M s vs
theorem ownMembers_eq {σ : Type} (M : Own σ) (s : σ) : (ms : List (Bytes × Value)) → ownMembers M s ms = runOps M s (feedMembers ms)
  | [] => by rw [ownMembers, feedMembers, runOps]
  | (k, v) :: ms => by
    rw [ownMembers, feedMembers, runOps, if_neg (by intro h; cases h)]
    congr 1; funext s
    rw [runOps_append, feedOwn_eq M s v]
    congr 1; funext s
    exact ownMembers_eq M s ms
end

theorem runOps_tell {σ : Type} (M : Own σ) (ops : List PackOp) (h : ∀ op ∈ ops, ¬ LibOnly op) (s : σ) : runOps M s ops = tell M s ops := by
  induction ops generalizing s with
  | nil => rfl
  | cons op ops ih =>
    rw [runOps, tell, if_neg (h op (by simp))]
    rcases M.call s op with ⟨s', _ | e⟩
    · exact ih (fun o ho => h o (List.mem_cons_of_mem _ ho)) s'
    · rfl

theorem split (ops : List PackOp) : (∃ op ∈ ops, LibOnly op) → ∃ pre op post, ops = pre ++ op :: post ∧ LibOnly op ∧ ∀ o ∈ pre, ¬ LibOnly o := by
  induction ops with
  | nil => rintro ⟨_, h, -⟩; cases h
  | cons o ops ih =>
    intro h
    by_cases ho : LibOnly o
    · exact ⟨[], o, ops, rfl, ho, by simp⟩
    · obtain ⟨op, hm, hl⟩ := h
      obtain ⟨pre, op', post, e, h1, h2⟩ := ih ⟨op, (List.mem_cons.1 hm).resolve_left (fun e => ho (e ▸ hl)), hl⟩
      refine ⟨o :: pre, op', post, by rw [e]; rfl, h1, ?_⟩
      intro x hx
      rcases List.mem_cons.1 hx with rfl | hx
      · exact ho
      · exact h2 x hx

theorem strange_leaf {v : Value} {op : PackOp} (hf : feed v = [op]) (hs : ¬ Strange v) (hl : ¬ LibOnly op) : Strange v ↔ ∃ op ∈ feed v, LibOnly op := by
  rw [hf]
  constructor
  · intro h; exact absurd h hs
  · rintro ⟨o, hm, ho⟩
    rw [List.mem_singleton.1 hm] at ho
    exact absurd ho hl

mutual
theorem strange_iff : (v : Value) → (Strange v ↔ ∃ op ∈ feed v, LibOnly op)
  | .int n => strange_leaf (by rw [feed]) (by intro h; cases h) (by intro h; cases h)
  | .bool b => strange_leaf (by rw [feed]) (by intro h; cases h) (by intro h; cases h)
  | .null => by rw [feed]; exact ⟨fun _ => ⟨_, by simp, .null⟩, fun _ => .null⟩
  | .double d => strange_leaf (by rw [feed]) (by intro h; cases h) (by intro h; cases h)
  | .string t => strange_leaf (by rw [feed]) (by intro h; cases h) (by intro h; cases h)
  | .stringView t => strange_leaf (by rw [feed]) (by intro h; cases h) (by intro h; cases h)
  | .binaryRef cs => by rw [feed]; exact ⟨fun _ => ⟨_, by simp, .ref cs⟩, fun _ => .ref cs⟩
  | .binary t => strange_leaf (by rw [feed]) (by intro h; cases h) (by intro h; cases h)
  | .dateTime d => strange_leaf (by rw [feed]) (by intro h; cases h) (by intro h; cases h)
  | .struct ms => by
    rw [feed]
    constructor
    · intro h
      cases h with
      | member hm hv =>
        obtain ⟨op, ho, hl⟩ := (strangeMembers ms).1 ⟨_, _, hm, hv⟩
        exact ⟨op, List.mem_cons_of_mem _ ho, hl⟩
    · rintro ⟨op, ho, hl⟩
      rcases List.mem_cons.1 ho with rfl | ho
      · cases hl
      · obtain ⟨k, v, hm, hv⟩ := (strangeMembers ms).2 ⟨op, ho, hl⟩
        exact .member hm hv
  | .array vs => by
    rw [feed]
    constructor
    · intro h
      cases h with
      | item hm hv =>
        obtain ⟨op, ho, hl⟩ := (strangeItems vs).1 ⟨_, hm, hv⟩
        exact ⟨op, List.mem_cons_of_mem _ ho, hl⟩
    · rintro ⟨op, ho, hl⟩
      rcases List.mem_cons.1 ho with rfl | ho
      · cases hl
      · obtain ⟨v, hm, hv⟩ := (strangeItems vs).2 ⟨op, ho, hl⟩
        exact .item hm hv
  | .secret v => by
    rw [feed, ← strange_iff v]
    exact ⟨fun h => by cases h with | secret h => exact h, .secret⟩
theorem strangeItems : (vs : List Value) → ((∃ v ∈ vs, Strange v) ↔ ∃ op ∈ feedItems vs, LibOnly op)
  | [] => by simp [feedItems]
  | v :: vs => by
    have h1 := strange_iff v
    have h2 := strangeItems vs
    rw [feedItems]
    simp only [List.mem_cons, List.mem_append]
    grind
theorem strangeMembers : (ms : List (Bytes × Value)) → ((∃ k v, (k, v) ∈ ms ∧ Strange v) ↔ ∃ op ∈ feedMembers ms, LibOnly op)
  | [] => by simp [feedMembers]
  | (k, v) :: ms => by
    have h1 := strange_iff v
    have h2 := strangeMembers ms
    have h3 : ¬ LibOnly (.packStructMember (k.take (sz32 k.length))) := (by intro h; cases h)
    rw [feedMembers]
    simp only [List.mem_cons, List.mem_append]
    constructor
    · rintro ⟨k', v', e | hm, hv⟩
      · cases e
        obtain ⟨op, ho, hl⟩ := h1.1 hv
        exact ⟨op, .inr (.inl ho), hl⟩
      · obtain ⟨op, ho, hl⟩ := h2.1 ⟨k', v', hm, hv⟩
        exact ⟨op, .inr (.inr ho), hl⟩
    · rintro ⟨op, rfl | ho | ho, hl⟩
      · exact absurd hl h3
      · exact ⟨k, v, .inl rfl, h1.2 ⟨op, ho, hl⟩⟩
      · obtain ⟨k', v', hm, hv⟩ := h2.2 ⟨op, ho, hl⟩
        exact ⟨k', v', .inr hm, hv⟩
end

end OwnMarshaller

/-- **C154.** A tree without nulls and references to binary data is told to a marshaller of the user by the calls that a marshaller of the library gets for it, in the same order, up to the first that throws. -/
theorem C154_told {σ : Type} (M : Own σ) (s : σ) (v : Value) (h : ¬ Strange v) : feedOwn M s v = tell M s (feed v) := by
  rw [feedOwn_eq]
  exact runOps_tell M _ (fun op ho hl => h ((strange_iff v).2 ⟨op, ho, hl⟩)) s

/-- **C154 (nulls and references).** A tree with any of them anywhere always ends in an exception. The marshaller is told what comes before the first of them, exactly as one of the library is, and nothing after it. -/
theorem C154_strange {σ : Type} (v : Value) (h : Strange v) : ∃ pre op post, feed v = pre ++ op :: post ∧ LibOnly op ∧ (∀ o ∈ pre, ¬ LibOnly o) ∧
    ∀ (M : Own σ) (s : σ), feedOwn M s v = match tell M s pre with | (s', none) => (s', some .other) | (s', some e) => (s', some e) := by
  obtain ⟨pre, op, post, e, hl, hp⟩ := split _ ((strange_iff v).1 h)
  refine ⟨pre, op, post, e, hl, hp, fun M s => ?_⟩
  rw [feedOwn_eq, e, runOps_append, runOps_tell M pre hp]
  rcases tell M s pre with ⟨s', _ | e⟩
  · show runOps M s' (op :: post) = _
    rw [runOps, if_pos hl]
  · rfl

/-- **C154 (whether it ends well).** A marshaller that never throws takes a tree without an exception just if there is no null and no reference in it. -/
theorem C154_fine {σ : Type} (M : Own σ) (hM : ∀ s op, (M.call s op).2 = none) (s : σ) (v : Value) : (feedOwn M s v).2 = none ↔ ¬ Strange v := by
  have ht : ∀ (ops : List PackOp) s, (tell M s ops).2 = none := by
    intro ops
    induction ops with
    | nil => intro s; rfl
    | cons op ops ih =>
      intro s
      have h := hM s op
      rw [tell]
      rcases hc : M.call s op with ⟨s', o⟩
      rw [hc] at h
      subst h
      exact ih s'
  constructor
  · intro h hs
    obtain ⟨pre, op, post, -, -, -, hf⟩ := C154_strange (σ := σ) v hs
    have h' := ht pre s
    rw [hf] at h
    rcases hc : tell M s pre with ⟨s', o⟩
    rw [hc] at h h'
    cases o with
    | none => cases h
    | some e => cases h'
  · intro h
    rw [C154_told M s v h]
    exact ht _ s

namespace OwnMarshaller
/-- A marshaller that writes down its calls, and refuses texts if told so. -/
def notes (refuse : Bool) : Own (List PackOp) where
  call l op := (l ++ [op], match op with | .packString _ => if refuse then some .type else none | _ => none)
end OwnMarshaller

/-- A tree, told; refused in the middle; with a null in the middle. -/
example : ¬ Strange (.array [.int 1, .struct [(asc "a", .secret (.string (asc "x")))], .bool true]) := by
  rw [strange_iff]
  rintro ⟨op, ho, hl⟩
  simp [feed, feedItems, feedMembers] at ho
  rcases ho with rfl | rfl | rfl | rfl | rfl | rfl <;> cases hl
example : feedOwn (notes false) [] (.array [.int 1, .struct [(asc "a", .secret (.string (asc "x")))], .bool true]) =
    ([.packArray 3, .packInt 1, .packStruct 1, .packStructMember (asc "a"), .packString (asc "x"), .packBool true], none) := by decide +kernel
example : feedOwn (notes true) [] (.array [.int 1, .struct [(asc "a", .secret (.string (asc "x")))], .bool true]) =
    ([.packArray 3, .packInt 1, .packStruct 1, .packStructMember (asc "a"), .packString (asc "x")], some .type) := by decide +kernel
example : Strange (.array [.int 1, .struct [(asc "a", .null)], .bool true]) := .item (v := .struct [(asc "a", .null)]) (by simp) (.member (k := asc "a") (v := .null) (by simp) .null)
example : feedOwn (notes false) [] (.array [.int 1, .struct [(asc "a", .null)], .bool true]) =
    ([.packArray 3, .packInt 1, .packStruct 1, .packStructMember (asc "a")], some .other) := by decide +kernel

end Frpc
