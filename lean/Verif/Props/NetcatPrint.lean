import Verif.Model.NetcatPrint
/-!
# C148: what the console prints shows the result
-/
namespace Frpc
open Python (Py Key)
open NetcatPrint

namespace PrintSpec

/-- A double that is a number. -/
def Finite (b : BitVec 64) : Prop := b.toNat / 2 ^ 52 % 2 ^ 11 ≠ 2047

mutual
/-- Results made of nothing, booleans, integers, finite numbers, strings without line ends, lists, and structs whose names have no spaces. -/
def Plain : Py → Prop
  | .none => True
  | .bool _ => True
  | .boolean _ => True
  | .int _ => True
  | .float b => Finite b
  | .str s => (10 : UInt8) ∉ s
  | .list xs => PlainItems xs
  | .dict ms => PlainMembers ms
  | _ => False
@[inherit_doc Plain] def PlainItems : List Py → Prop
  | [] => True
  | v :: xs => Plain v ∧ PlainItems xs
@[inherit_doc Plain] def PlainMembers : List (Key × Py) → Prop
  | [] => True
  | (k, v) :: ms => (∃ s, k = .str s ∧ (32 : UInt8) ∉ s) ∧ Plain v ∧ PlainMembers ms
end

/-- What Python guarantees of its texts of floats: two numbers have two texts, on one line. -/
structure FloatTexts (T : Texts) : Prop where
  differ : ∀ a b, Finite a → Finite b → T.float a = T.float b → a = b
  line : ∀ a, (10 : UInt8) ∉ T.float a

end PrintSpec
open PrintSpec

namespace NetcatPrint

theorem split_at (c : UInt8) : ∀ {a b r r' : Bytes}, c ∉ a → c ∉ b → a ++ c :: r = b ++ c :: r' → a = b ∧ r = r'
  | [], [], _, _, _, _, h => by simp at h; exact ⟨rfl, h⟩
  | [], x :: b, _, _, _, hb, h => by
    simp only [List.nil_append, List.cons_append, List.cons.injEq] at h
    exact absurd (by simp [h.1]) hb
  | x :: a, [], _, _, ha, _, h => by
    simp only [List.nil_append, List.cons_append, List.cons.injEq] at h
    exact absurd (by simp [h.1]) ha
  | x :: a, y :: b, _, _, ha, hb, h => by
    simp only [List.cons_append, List.cons.injEq] at h
    obtain ⟨e, er⟩ := split_at c (fun hh => ha (List.mem_cons_of_mem _ hh)) (fun hh => hb (List.mem_cons_of_mem _ hh)) h.2
    exact ⟨by rw [h.1, e], er⟩

theorem dec_no (n : Nat) (c : UInt8) (hc : isDigit c = false) : c ∉ dec n := by
  intro h; have := dec_digits n c h; rw [hc] at this; cases this

theorem decInt_no (n : Int) (c : UInt8) (hc : isDigit c = false) (h45 : c ≠ 45) : c ∉ decInt n := by
  unfold decInt; split
  · simp only [List.mem_cons, not_or]; exact ⟨h45, dec_no _ _ hc⟩
  · exact dec_no _ _ hc

theorem dec_inj' {m n : Nat} (h : dec m = dec n) : m = n := by
  rw [← atoi_dec m, ← atoi_dec n, h]

theorem decInt_inj {m n : Int} (h : decInt m = decInt n) : m = n := by
  unfold decInt at h
  split at h <;> split at h
  · have := dec_inj' (List.cons.inj h).2; omega
  · exact absurd (by rw [← h]; simp) (dec_no n.natAbs 45 (by decide))
  · exact absurd (by rw [h]; simp) (dec_no m.natAbs 45 (by decide))
  · have := dec_inj' h; omega

theorem true_not_int (n : Int) (b : Bool) : (if b then asc "True" else asc "False") ≠ decInt n := by
  intro h
  cases b
  · exact decInt_no n 101 (by decide) (by decide) (by rw [← h]; decide)
  · exact decInt_no n 101 (by decide) (by decide) (by rw [← h]; decide)

theorem typeName_no (v : Py) (h : Plain v) : (32 : UInt8) ∉ typeName v := by
  cases v <;> first | exact h.elim | (simp only [typeName]; decide)

theorem none_of (v : Py) (h : Plain v) (hn : typeName v = []) : v = .none := by
  cases v <;> first | rfl | exact h.elim | (simp only [typeName] at hn; exact absurd hn (by decide))

/-- One row of a struct. -/
theorem member_head {T : Texts} {k k' : Bytes} {v v' : Py} {r r' : Bytes} (hk : 32 ∉ k) (hk' : 32 ∉ k') (hv : Plain v) (hv' : Plain v')
    (h : memberHead T (.str k) v ++ r = memberHead T (.str k') v' ++ r')
    (hr : v = .none → r.head? = some 78) (hr' : v' = .none → r'.head? = some 78) :
    k = k' ∧ typeName v = typeName v' ∧ r = r' := by
  have e1 : asc " = " = 32 :: 61 :: 32 :: [] := by decide
  have e2 : asc " " = 32 :: [] := by decide
  unfold memberHead keyText at h
  rw [e1, e2] at h
  by_cases t : typeName v = [] <;> by_cases t' : typeName v' = []
  · rw [if_pos t, if_pos t'] at h
    simp only [List.append_assoc, List.cons_append, List.nil_append] at h
    obtain ⟨e, er⟩ := split_at 32 hk hk' h
    simp only [List.cons.injEq, true_and] at er
    exact ⟨e, t.trans t'.symm, er⟩
  · rw [if_pos t, if_neg t'] at h
    simp only [List.append_assoc, List.cons_append, List.nil_append] at h
    obtain ⟨e, er⟩ := split_at 32 hk (typeName_no v' hv') h
    obtain ⟨e2, er2⟩ := split_at 32 (a := [61]) (by decide) hk' er
    have := hr (none_of v hv t)
    rw [er2] at this; cases this
  · rw [if_neg t, if_pos t'] at h
    simp only [List.append_assoc, List.cons_append, List.nil_append] at h
    obtain ⟨e, er⟩ := split_at 32 (typeName_no v hv) hk' h
    obtain ⟨e2, er2⟩ := split_at 32 (b := [61]) hk (by decide) er
    have := hr' (none_of v' hv' t')
    rw [← er2] at this; cases this
  · rw [if_neg t, if_neg t'] at h
    simp only [List.append_assoc, List.cons_append, List.nil_append] at h
    obtain ⟨e, er⟩ := split_at 32 (typeName_no v hv) (typeName_no v' hv') h
    obtain ⟨e2, er2⟩ := split_at 32 hk hk' er
    simp only [List.cons.injEq, true_and] at er2
    exact ⟨e2, e, er2⟩

theorem typeName_61 (v : Py) (h : Plain v) : typeName v ≠ [61] := by
  cases v <;> first | exact h.elim | (simp only [typeName]; decide)

theorem item_head {i : Nat} {v v' : Py} {r r' : Bytes} (hv : Plain v) (hv' : Plain v') (h : itemHead i v ++ r = itemHead i v' ++ r') :
    typeName v = typeName v' ∧ r = r' := by
  have e1 : asc " = " = 32 :: 61 :: 32 :: [] := by decide
  have e2 : asc "] = " = 93 :: 32 :: 61 :: 32 :: [] := by decide
  have e3 : asc "] " = 93 :: 32 :: [] := by decide
  unfold itemHead at h
  rw [e1, e2, e3] at h
  by_cases t : typeName v = [] <;> by_cases t' : typeName v' = []
  · rw [if_pos t, if_pos t'] at h
    simp only [List.append_assoc, List.cons_append, List.nil_append, List.append_cancel_left_eq, List.cons.injEq, true_and] at h
    exact ⟨t.trans t'.symm, h⟩
  · rw [if_pos t, if_neg t'] at h
    simp only [List.append_assoc, List.cons_append, List.nil_append, List.append_cancel_left_eq, List.cons.injEq, true_and] at h
    obtain ⟨e, er⟩ := split_at 32 (a := [61]) (by decide) (typeName_no v' hv') h
    exact absurd e.symm (typeName_61 v' hv')
  · rw [if_neg t, if_pos t'] at h
    simp only [List.append_assoc, List.cons_append, List.nil_append, List.append_cancel_left_eq, List.cons.injEq, true_and] at h
    obtain ⟨e, er⟩ := split_at 32 (b := [61]) (typeName_no v hv) (by decide) h
    exact absurd e (typeName_61 v hv)
  · rw [if_neg t, if_neg t'] at h
    simp only [List.append_assoc, List.cons_append, List.nil_append, List.append_cancel_left_eq, List.cons.injEq, true_and] at h
    obtain ⟨e, er⟩ := split_at 32 (typeName_no v hv) (typeName_no v' hv') h
    simp only [List.cons.injEq, true_and] at er
    exact ⟨e, er⟩

theorem quoted {s s' r r' : Bytes} (h : 10 ∉ s) (h' : 10 ∉ s') (e : asc "\"" ++ s ++ asc "\"" ++ 10 :: r = asc "\"" ++ s' ++ asc "\"" ++ 10 :: r') : s = s' ∧ r = r' := by
  have e1 : asc "\"" = [34] := by decide
  rw [e1] at e
  obtain ⟨a, b⟩ := split_at 10 (by simp [h]) (by simp [h']) e
  refine ⟨?_, b⟩
  simpa using a

theorem none_head (T : Texts) (ind : Bytes) (v : Py) (r : Bytes) (h : v = .none) : (writeOut T ind v ++ r).head? = some 78 := by
  subst h
  have : asc "None" = 78 :: asc "one" := by decide
  simp [writeOut, this]

set_option maxHeartbeats 2000000 in
mutual
theorem out_code {T : Texts} (hT : FloatTexts T) : ∀ (v : Py) (ind : Bytes) (v' : Py) (r r' : Bytes), Plain v → Plain v' → typeName v = typeName v' →
    writeOut T ind v ++ 10 :: r = writeOut T ind v' ++ 10 :: r' → v = v' ∧ r = r'
  | .none, ind, v', r, r', h, h', t, e => by
    have : v' = .none := none_of v' h' t.symm
    subst this
    simpa using e
  | .bool b, ind, v', r, r', h, h', t, e => by
    have hb : ∀ b : Bool, (10 : UInt8) ∉ (if b then asc "True" else asc "False") := by decide
    have hb2 : ∀ b b' : Bool, (if b then asc "True" else asc "False") = (if b' then asc "True" else asc "False") → b = b' := by decide
    cases v' <;> first
      | exact h'.elim
      | (simp only [typeName] at t; exact absurd t (by decide))
      | skip
    · rename_i b'
      simp only [writeOut] at e
      obtain ⟨a, c⟩ := split_at 10 (hb _) (hb _) e
      exact ⟨by rw [hb2 _ _ a], c⟩
    · rename_i n
      simp only [writeOut] at e
      obtain ⟨a, c⟩ := split_at 10 (hb _) (decInt_no n 10 (by decide) (by decide)) e
      exact absurd a (true_not_int n b)
  | .boolean b, ind, v', r, r', h, h', t, e => by
    have hb : ∀ b : Bool, (10 : UInt8) ∉ (if b then asc "True" else asc "False") := by decide
    have hb2 : ∀ b b' : Bool, (if b then asc "True" else asc "False") = (if b' then asc "True" else asc "False") → b = b' := by decide
    cases v' <;> first
      | exact h'.elim
      | (simp only [typeName] at t; exact absurd t (by decide))
      | skip
    rename_i b'
    simp only [writeOut] at e
    obtain ⟨a, c⟩ := split_at 10 (hb _) (hb _) e
    exact ⟨by rw [hb2 _ _ a], c⟩
  | .int n, ind, v', r, r', h, h', t, e => by
    have hb : ∀ b : Bool, (10 : UInt8) ∉ (if b then asc "True" else asc "False") := by decide
    cases v' <;> first
      | exact h'.elim
      | (simp only [typeName] at t; exact absurd t (by decide))
      | skip
    · rename_i b'
      simp only [writeOut] at e
      obtain ⟨a, c⟩ := split_at 10 (decInt_no n 10 (by decide) (by decide)) (hb _) e
      exact absurd a.symm (true_not_int n b')
    · rename_i n'
      simp only [writeOut] at e
      obtain ⟨a, c⟩ := split_at 10 (decInt_no n 10 (by decide) (by decide)) (decInt_no n' 10 (by decide) (by decide)) e
      exact ⟨by rw [decInt_inj a], c⟩
  | .float b, ind, v', r, r', h, h', t, e => by
    cases v' <;> first
      | exact h'.elim
      | (simp only [typeName] at t; exact absurd t (by decide))
      | skip
    rename_i b'
    simp only [writeOut] at e
    obtain ⟨a, c⟩ := split_at 10 (hT.line _) (hT.line _) e
    exact ⟨by rw [hT.differ _ _ h h' a], c⟩
  | .str s, ind, v', r, r', h, h', t, e => by
    cases v' <;> first
      | exact h'.elim
      | (simp only [typeName] at t; exact absurd t (by decide))
      | skip
    rename_i s'
    simp only [writeOut] at e
    obtain ⟨a, c⟩ := quoted h h' e
    exact ⟨by rw [a], c⟩
  | .list xs, ind, v', r, r', h, h', t, e => by
    cases v' <;> first
      | exact h'.elim
      | (simp only [typeName] at t; exact absurd t (by decide))
      | skip
    rename_i xs'
    simp only [writeOut, List.append_assoc, List.append_cancel_left_eq] at e
    have e1 : ∀ q : Bytes, asc ")" ++ q = 41 :: q := fun q => rfl
    rw [e1, e1] at e
    obtain ⟨a, c⟩ := items_code hT xs ind 0 xs' _ _ h h' e
    exact ⟨by rw [a], by simpa using c⟩
  | .dict ms, ind, v', r, r', h, h', t, e => by
    cases v' <;> first
      | exact h'.elim
      | (simp only [typeName] at t; exact absurd t (by decide))
      | skip
    rename_i ms'
    simp only [writeOut, List.append_assoc, List.append_cancel_left_eq] at e
    have e1 : ∀ q : Bytes, asc "}" ++ q = 125 :: q := fun q => rfl
    rw [e1, e1] at e
    obtain ⟨a, c⟩ := members_code hT ms ind ms' _ _ h h' e
    exact ⟨by rw [a], by simpa using c⟩
  | .surrogates, _, _, _, _, h, _, _, _ => h.elim
  | .bytes _, _, _, _, _, h, _, _, _ => h.elim
  | .dateTime _, _, _, _, _, h, _, _, _ => h.elim
  | .native _ _ _ _ _ _, _, _, _, _, h, _, _, _ => h.elim
  | .tuple _, _, _, _, _, h, _, _, _ => h.elim
  | .fault _ _, _, _, _, _, h, _, _, _ => h.elim
  | .other, _, _, _, _, h, _, _, _ => h.elim
theorem members_code {T : Texts} (hT : FloatTexts T) : ∀ (ms : List (Key × Py)) (ind : Bytes) (ms' : List (Key × Py)) (r r' : Bytes),
    PlainMembers ms → PlainMembers ms' → writeMembers T ind ms ++ (ind ++ 125 :: r) = writeMembers T ind ms' ++ (ind ++ 125 :: r') → ms = ms' ∧ r = r'
  | [], ind, [], r, r', _, _, e => by simpa [writeMembers] using e
  | [], ind, (k', v') :: ms', r, r', _, _, e => by
    have e1 : ∀ q : Bytes, asc "    " ++ q = 32 :: (asc "   " ++ q) := fun q => rfl
    simp only [writeMembers, List.nil_append, List.append_assoc, List.append_cancel_left_eq, e1] at e
    cases (List.cons.inj e).1
  | (k, v) :: ms, ind, [], r, r', _, _, e => by
    have e1 : ∀ q : Bytes, asc "    " ++ q = 32 :: (asc "   " ++ q) := fun q => rfl
    simp only [writeMembers, List.nil_append, List.append_assoc, List.append_cancel_left_eq, e1] at e
    cases (List.cons.inj e).1
  | (k, v) :: ms, ind, (k', v') :: ms', r, r', h, h', e => by
    obtain ⟨⟨s, rfl, hs⟩, hv, hms⟩ := h
    obtain ⟨⟨s', rfl, hs'⟩, hv', hms'⟩ := h'
    have e1 : ∀ q : Bytes, asc "\n" ++ q = 10 :: q := fun q => rfl
    simp only [writeMembers, List.append_assoc, List.append_cancel_left_eq, e1] at e
    obtain ⟨a, b, c⟩ := member_head hs hs' hv hv' e (none_head T _ v _) (none_head T _ v' _)
    obtain ⟨a2, c2⟩ := out_code hT v _ v' _ _ hv hv' b c
    obtain ⟨a3, c3⟩ := members_code hT ms ind ms' _ _ hms hms' c2
    exact ⟨by rw [a, a2, a3], c3⟩
theorem items_code {T : Texts} (hT : FloatTexts T) : ∀ (xs : List Py) (ind : Bytes) (i : Nat) (xs' : List Py) (r r' : Bytes),
    PlainItems xs → PlainItems xs' → writeItems T ind i xs ++ (ind ++ 41 :: r) = writeItems T ind i xs' ++ (ind ++ 41 :: r') → xs = xs' ∧ r = r'
  | [], ind, _, [], r, r', _, _, e => by simpa [writeItems] using e
  | [], ind, _, v' :: xs', r, r', _, _, e => by
    have e1 : ∀ q : Bytes, asc "    " ++ q = 32 :: (asc "   " ++ q) := fun q => rfl
    simp only [writeItems, List.nil_append, List.append_assoc, List.append_cancel_left_eq, e1] at e
    cases (List.cons.inj e).1
  | v :: xs, ind, _, [], r, r', _, _, e => by
    have e1 : ∀ q : Bytes, asc "    " ++ q = 32 :: (asc "   " ++ q) := fun q => rfl
    simp only [writeItems, List.nil_append, List.append_assoc, List.append_cancel_left_eq, e1] at e
    cases (List.cons.inj e).1
  | v :: xs, ind, i, v' :: xs', r, r', h, h', e => by
    have e1 : ∀ q : Bytes, asc "\n" ++ q = 10 :: q := fun q => rfl
    simp only [writeItems, List.append_assoc, List.append_cancel_left_eq, e1] at e
    obtain ⟨b, c⟩ := item_head h.1 h'.1 e
    obtain ⟨a2, c2⟩ := out_code hT v _ v' _ _ h.1 h'.1 b c
    obtain ⟨a3, c3⟩ := items_code hT xs ind (i + 1) xs' _ _ h.2 h'.2 c2
    exact ⟨by rw [a2, a3], c3⟩
end

end NetcatPrint
namespace PrintSpec

/-- A step into a result. -/
inductive Step where
  | key (k : Bytes)
  | item (i : Nat)

/-- What is at a path. -/
def at? : Py → List Step → Option Py
  | v, [] => some v
  | .dict ms, .key k :: p => (ms.find? fun m => m.1 == Key.str k).bind fun m => at? m.2 p
  | .list xs, .item i :: p => xs[i]?.bind fun v => at? v p
  | _, _ :: _ => none

/-- A value that is not a struct or a list, or which of these two it is. -/
def kind : Py → Py
  | .dict _ => .dict []
  | .list _ => .list []
  | v => v

mutual
/-- No struct has a name twice: those of Python have not. -/
def Distinct : Py → Prop
  | .dict ms => (ms.map Prod.fst).Nodup ∧ DistinctMembers ms
  | .list xs => DistinctItems xs
  | _ => True
@[inherit_doc Distinct] def DistinctMembers : List (Key × Py) → Prop
  | [] => True
  | (_, v) :: ms => Distinct v ∧ DistinctMembers ms
@[inherit_doc Distinct] def DistinctItems : List Py → Prop
  | [] => True
  | v :: xs => Distinct v ∧ DistinctItems xs
end

end PrintSpec

namespace NetcatPrint
open PrintSpec

theorem typeName_arranged (v : Py) : typeName (arranged v) = typeName v := by
  cases v <;> simp [arranged, typeName]

theorem plain_members_iff : ∀ ms : List (Key × Py), PlainMembers ms ↔ ∀ m ∈ ms, (∃ s, m.1 = .str s ∧ (32 : UInt8) ∉ s) ∧ Plain m.2
  | [] => by simp [PlainMembers]
  | (k, v) :: ms => by simp only [PlainMembers, List.mem_cons, forall_eq_or_imp, plain_members_iff ms, and_assoc]

mutual
theorem plain_arranged : ∀ v : Py, Plain v → Plain (arranged v)
  | .dict ms, h => by
    simp only [arranged, Plain]
    rw [plain_members_iff]
    intro m hm
    rw [List.mem_mergeSort] at hm
    exact (plain_members_iff _).1 (plain_arrangedMembers ms h) m hm
  | .list xs, h => by simp only [arranged, Plain]; exact plain_arrangedItems xs h
  | .none, h => by simpa [arranged] using h
  | .bool _, h => by simpa [arranged] using h
  | .boolean _, h => by simpa [arranged] using h
  | .int _, h => by simpa [arranged] using h
  | .float _, h => by simpa [arranged] using h
  | .str _, h => by simpa [arranged] using h
  | .surrogates, h => by simpa [arranged] using h
  | .bytes _, h => by simpa [arranged] using h
  | .dateTime _, h => by simpa [arranged] using h
  | .native _ _ _ _ _ _, h => by simpa [arranged] using h
  | .tuple _, h => by simpa [arranged] using h
  | .fault _ _, h => by simpa [arranged] using h
  | .other, h => by simpa [arranged] using h
theorem plain_arrangedMembers : ∀ ms : List (Key × Py), PlainMembers ms → PlainMembers (arrangedMembers ms)
  | [], _ => by simp [arrangedMembers, PlainMembers]
  | (k, v) :: ms, h => by
    simp only [arrangedMembers, PlainMembers]
    exact ⟨h.1, plain_arranged v h.2.1, plain_arrangedMembers ms h.2.2⟩
theorem plain_arrangedItems : ∀ xs : List Py, PlainItems xs → PlainItems (arrangedItems xs)
  | [], _ => by simp [arrangedItems, PlainItems]
  | v :: xs, h => by
    simp only [arrangedItems, PlainItems]
    exact ⟨plain_arranged v h.1, plain_arrangedItems xs h.2⟩
end

theorem find_nodup {k : Key} {v : Py} : ∀ {l : List (Key × Py)}, (l.map Prod.fst).Nodup → ((k, v) ∈ l ↔ l.find? (fun m => m.1 == k) = some (k, v))
  | [], _ => by simp
  | (k', v') :: l, h => by
    simp only [List.map_cons, List.nodup_cons] at h
    rw [List.find?_cons, List.mem_cons]
    by_cases e : k' = k
    · subst e
      simp only [beq_self_eq_true]
      constructor
      · rintro (hh | hh)
        · rw [hh]
        · exact absurd (List.mem_map.2 ⟨_, hh, rfl⟩) h.1
      · intro hh; exact .inl (Option.some.inj hh).symm
    · have : (k' == k) = false := by simpa using e
      simp only [this]
      rw [← find_nodup h.2]
      constructor
      · rintro (hh | hh)
        · exact absurd (congrArg Prod.fst hh).symm e
        · exact hh
      · exact .inr

theorem find_perm {k : Key} {l l' : List (Key × Py)} (hp : l.Perm l') (h : (l.map Prod.fst).Nodup) :
    l.find? (fun m => m.1 == k) = l'.find? (fun m => m.1 == k) := by
  have h' : (l'.map Prod.fst).Nodup := (hp.map Prod.fst).nodup_iff.1 h
  apply Option.ext
  rintro ⟨a, b⟩
  constructor
  · intro e
    have ek := List.find?_some e
    simp only [beq_iff_eq] at ek
    subst ek
    exact (find_nodup h').1 (hp.mem_iff.1 ((find_nodup h).2 e))
  · intro e
    have ek := List.find?_some e
    simp only [beq_iff_eq] at ek
    subst ek
    exact (find_nodup h).1 (hp.mem_iff.2 ((find_nodup h').2 e))

theorem find_arranged (k : Key) : ∀ ms : List (Key × Py),
    (arrangedMembers ms).find? (fun m => m.1 == k) = (ms.find? (fun m => m.1 == k)).map fun m => (m.1, arranged m.2)
  | [] => rfl
  | (k', v) :: ms => by
    simp only [arrangedMembers, List.find?_cons]
    cases k' == k
    · exact find_arranged k ms
    · rfl

theorem names_arranged : ∀ ms : List (Key × Py), (arrangedMembers ms).map Prod.fst = ms.map Prod.fst
  | [] => rfl
  | (k', v) :: ms => by simp [arrangedMembers, names_arranged ms]

theorem item_arranged : ∀ (xs : List Py) (i : Nat), (arrangedItems xs)[i]? = xs[i]?.map arranged
  | [], i => by simp [arrangedItems]
  | v :: xs, 0 => by simp [arrangedItems]
  | v :: xs, i + 1 => by simp [arrangedItems, item_arranged xs i]

theorem distinct_member : ∀ {ms : List (Key × Py)} {m : Key × Py}, DistinctMembers ms → m ∈ ms → Distinct m.2
  | (k, v) :: ms, m, h, hm => by
    rcases List.mem_cons.1 hm with rfl | hm
    · exact h.1
    · exact distinct_member h.2 hm

theorem distinct_item : ∀ {xs : List Py} {v : Py}, DistinctItems xs → v ∈ xs → Distinct v
  | x :: xs, v, h, hm => by
    rcases List.mem_cons.1 hm with rfl | hm
    · exact h.1
    · exact distinct_item h.2 hm

theorem at_arranged : ∀ (p : List Step) (v : Py), Distinct v → (at? (arranged v) p).map kind = (at? v p).map kind
  | [], v, h => by cases v <;> simp [arranged, at?, kind]
  | .key k :: p, v, h => by
    cases v <;> first
      | (simp [arranged, at?]; done)
      | skip
    rename_i ms
    simp only [arranged, at?]
    rw [find_perm (List.mergeSort_perm _ _) (by rw [(List.mergeSort_perm _ _).map Prod.fst |>.nodup_iff, names_arranged]; exact h.1), find_arranged]
    cases hf : ms.find? (fun m => m.1 == Key.str k) with
    | none => rfl
    | some m => exact at_arranged p m.2 (distinct_member h.2 (List.mem_of_find?_eq_some hf))
  | .item i :: p, v, h => by
    cases v <;> first
      | (simp [arranged, at?]; done)
      | skip
    rename_i xs
    simp only [arranged, at?, item_arranged]
    cases hf : xs[i]? with
    | none => rfl
    | some v => exact at_arranged p v (distinct_item h (List.mem_of_getElem? hf))

theorem printed_code {T : Texts} (hT : FloatTexts T) {t t' : Bytes} {v v' : Py} (ht : typeName v = t) (ht' : typeName v' = t') (h : Plain v) (h' : Plain v')
    (e : asc "result = " ++ (if t = [] then [] else t ++ asc " ") ++ writeOut T [] v ++ asc "\n" =
      asc "result = " ++ (if t' = [] then [] else t' ++ asc " ") ++ writeOut T [] v' ++ asc "\n") : v = v' := by
  subst ht; subst ht'
  have e1 : ∀ q : Bytes, asc " " ++ q = 32 :: q := fun q => rfl
  have e2 : asc "\n" = 10 :: [] := by decide
  have en : ∀ v w : Py, Plain v → typeName v ≠ [] → ∀ q : Bytes, (typeName v ++ 32 :: q).head? ≠ some 78 := by
    intro v w hv hn q
    cases v <;> first | exact hv.elim | (exact absurd rfl hn) | (simp only [typeName]; exact (by decide : _ ≠ _)) | (intro hh; cases hh)
  simp only [List.append_assoc, List.append_cancel_left_eq] at e
  by_cases t : typeName v = [] <;> by_cases t' : typeName v' = []
  · rw [none_of v h t, none_of v' h' t']
  · rw [if_pos t, if_neg t', List.nil_append, List.append_assoc, e1] at e
    have := none_head T [] v (asc "\n") (none_of v h t)
    rw [e] at this
    exact absurd this (en v' v' h' t' _)
  · rw [if_neg t, if_pos t', List.nil_append, List.append_assoc, e1] at e
    have := none_head T [] v' (asc "\n") (none_of v' h' t')
    rw [← e] at this
    exact absurd this (en v v h t _)
  · rw [if_neg t, if_neg t', List.append_assoc, List.append_assoc, e1, e1] at e
    obtain ⟨a, b⟩ := split_at 32 (typeName_no v h) (typeName_no v' h') e
    rw [e2] at b
    exact (out_code hT v [] v' [] [] h h' a b).1

end NetcatPrint

/-- **C148 (partial).** Two results made of nothing, booleans, integers, finite numbers, strings without line ends, lists, and structs whose names have
no spaces, that the console prints alike, are the same. Missing: strings with line ends, names with spaces, binaries (`C148_violated`). -/
theorem C148_unambiguous_partial {T : Texts} (hT : FloatTexts T) {v v' : Py} (h : Plain v) (h' : Plain v')
    (e : printed T false v = printed T false v') : v = v' :=
  printed_code hT rfl rfl h h' e

/-- **C148 (partial).** With sorting, such results that are printed alike have the same at every path: they differ at most in the order of the
members of their structs. -/
theorem C148_sorted_partial {T : Texts} (hT : FloatTexts T) {v v' : Py} (h : Plain v) (h' : Plain v') (hd : Distinct v) (hd' : Distinct v')
    (e : printed T true v = printed T true v') (p : List Step) : (at? v p).map kind = (at? v' p).map kind := by
  have := printed_code hT (typeName_arranged v) (typeName_arranged v') (plain_arranged v h) (plain_arranged v' h') e
  rw [← at_arranged p v hd, ← at_arranged p v' hd', this]

/-- **C148 (violated).** A string with a line end prints as two strings; a name with a space prints as another name of another string; a binary
prints as the string of its Python text; and the zone of a local time east of Greenwich is printed with two signs. -/
theorem C148_violated (T : Texts) :
    (∀ a, printed T a (.list [.str (asc "a\"\n    [1] string = \"b")]) = printed T a (.list [.str (asc "a"), .str (asc "b")])) ∧
    (∀ a, printed T a (.dict [(.str (asc "b = \"c"), .str (asc "d"))]) = printed T a (.dict [(.str (asc "b"), .str (asc "c = \"d"))])) ∧
    (∀ a s, printed T a (.bytes s) = printed T a (.str (T.bytes s))) ∧
    (∀ a d, d.timeZone < 0 → ∃ l r, printed T a (.dateTime d) = l ++ asc " --" ++ r) := by
  have e1 : dec 0 = [48] := by decide +kernel
  have e2 : dec 1 = [49] := by decide +kernel
  refine ⟨fun a => ?_, fun a => ?_, fun a s => ?_, fun a d h => ?_⟩
  · cases a <;> simp [printed, arranged, arrangedItems, writeOut, writeItems, itemHead, typeName, e1, e2] <;> decide
  · cases a <;> simp [printed, arranged, arrangedMembers, writeOut, writeMembers, memberHead, keyText, typeName] <;> decide
  · cases a <;> rfl
  · have hz : decInt (d.timeZone * 100) = asc "-" ++ dec (d.timeZone * 100).natAbs := by
      unfold decInt; rw [if_pos (by omega)]; rfl
    have hv : printed T a (.dateTime d) = asc "result = " ++ (asc "datetime" ++ asc " ") ++ dateText T d ++ asc "\n" := by
      have hne : asc "datetime" ≠ [] := by decide
      cases a <;> simp [printed, arranged, writeOut, typeName, hne]
    rw [hv]
    unfold dateText
    rw [if_neg (by omega), hz]
    have e3 : asc " --" = asc " " ++ (asc "-" ++ asc "-") := by decide
    refine ⟨asc "result = " ++ (asc "datetime" ++ asc " ") ++ (decInt d.day ++ asc "." ++ decInt d.month ++ asc "." ++ decInt d.year ++ asc " " ++ decInt d.hour ++ asc ":" ++ decInt d.minute ++ asc ":" ++ decInt d.sec),
      dec (d.timeZone * 100).natAbs ++ asc " (" ++ T.dateTime d ++ asc ")" ++ asc "\n", ?_⟩
    rw [e3]
    simp only [List.append_assoc]

/-- A struct of a list, of nothing and of a truth is printed and can be read back from what is printed. -/
example : Plain (.dict [(.str (asc "status"), .int 200), (.str (asc "ids"), .list [.int (-1), .none, .str (asc "x = \"y")]), (.str (asc "ok"), .boolean true)]) ∧
    Distinct (.dict [(.str (asc "status"), .int 200), (.str (asc "ids"), .list [.int (-1), .none, .str (asc "x = \"y")]), (.str (asc "ok"), .boolean true)]) := by
  refine ⟨⟨⟨_, rfl, by decide⟩, trivial, ⟨_, rfl, by decide⟩, ⟨trivial, trivial, ?_, trivial⟩, ⟨_, rfl, by decide⟩, trivial, trivial⟩, ?_⟩
  · show (10 : UInt8) ∉ _
    decide
  · exact ⟨by decide, trivial, ⟨trivial, trivial, trivial, trivial⟩, trivial, trivial⟩

/-- What is printed. -/
example (T : Texts) : printed T true (.dict [(.str (asc "b"), .none), (.str (asc "a"), .list [.bool true])]) =
    asc "result = struct {\n    array a = (\n        [0] int = True\n    )\n    b = None\n}\n" := by
  have e1 : dec 0 = [48] := by decide +kernel
  have e2 : List.mergeSort [((Key.str (asc "b"), Py.none) : Key × Py), (.str (asc "a"), .list [.bool true])] keyLe = [(.str (asc "a"), .list [.bool true]), (.str (asc "b"), .none)] := by
    simp [List.mergeSort, List.MergeSort.Internal.splitInTwo, List.merge, keyLe]; decide
  simp [printed, arranged, arrangedMembers, arrangedItems, e2, writeOut, writeMembers, writeItems, memberHead, itemHead, keyText, typeName, e1]
  decide

/-- Texts with the properties of Python's: the numeral of the bits. -/
example : ∃ T : Texts, FloatTexts T :=
  ⟨⟨fun b => dec b.toNat, id, fun _ => [], fun _ => [], fun _ => []⟩,
    ⟨fun a b _ _ h => BitVec.eq_of_toNat_eq (dec_inj' h), fun a => dec_no _ 10 (by decide)⟩⟩

end Frpc
