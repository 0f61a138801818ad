import Verif.Spec.ProxyCache
import Verif.Proofs.StructMap
/-!
# The timer queues of the proxy cache
-/
namespace Frpc
namespace ProxyCache
open Spec.Pool
variable {α : Type}

theorem findQueue_spec : ∀ (n i r : Nat), 1 ≤ r →
    (∃ k, k < n ∧ findQueue n i r = (i + k, some (2 ^ (i + k))) ∧ 2 ^ k ≤ r ∧ r < 2 ^ (k + 1)) ∨
    (findQueue n i r = (i + n, none) ∧ 2 ^ n ≤ r) := by
  intro n
  induction n with
  | zero => intro i r h; right; exact ⟨rfl, by simpa using h⟩
  | succ n ih =>
    intro i r h
    rw [findQueue]
    by_cases h0 : r / 2 = 0
    · left
      refine ⟨0, by omega, by simp [h0], by simpa using h, by omega⟩
    · rw [if_neg h0]
      rcases ih (i + 1) (r / 2) (by omega) with ⟨k, h1, h2, h3, h4⟩ | ⟨h1, h2⟩
      · left
        refine ⟨k + 1, by omega, by rw [h2, show i + 1 + k = i + (k + 1) by omega], ?_, ?_⟩
        · rw [Nat.pow_succ]; omega
        · rw [Nat.pow_succ]; omega
      · right
        refine ⟨by rw [h1]; congr 1; omega, ?_⟩
        rw [Nat.pow_succ]; omega

/-- All the entries. -/
def entries (c : Cache α) : List (Entry α) := (List.range QUEUES).flatMap (fun i => (c i).items)

theorem flatMap_set_out (c : Cache α) (i : Nat) (q : Queue α) : ∀ l : List Nat, i ∉ l →
    l.flatMap (fun j => (setQueue c i q j).items) = l.flatMap (fun j => (c j).items) := by
  intro l
  induction l with
  | nil => intro _; rfl
  | cons a l ih =>
    intro h
    rw [List.mem_cons, not_or] at h
    rw [List.flatMap_cons, List.flatMap_cons, ih h.2]
    have : setQueue c i q a = c a := if_neg (fun e => h.1 e.symm)
    rw [this]

theorem range_split (i : Nat) (h : i < QUEUES) : ∃ a b, List.range QUEUES = a ++ i :: b ∧ i ∉ a ∧ i ∉ b := by
  obtain ⟨a, b, e⟩ := List.append_of_mem (List.mem_range.2 h)
  have hn : (List.range QUEUES).Nodup := List.nodup_range
  rw [e] at hn
  refine ⟨a, b, e, ?_, ?_⟩
  · intro hm
    rw [List.nodup_append] at hn
    exact hn.2.2 i hm i (by simp) rfl
  · rw [List.nodup_append] at hn
    exact (List.nodup_cons.1 hn.2.1).1

/-- The entries outside queue `i`. -/
theorem entries_set (c : Cache α) (i : Nat) (h : i < QUEUES) : ∃ rest, ∀ q, (entries (setQueue c i q)).Perm (q.items ++ rest) := by
  obtain ⟨a, b, e, ha, hb⟩ := range_split i h
  refine ⟨a.flatMap (fun j => (c j).items) ++ b.flatMap (fun j => (c j).items), fun q => ?_⟩
  rw [entries, e, List.flatMap_append, List.flatMap_cons, flatMap_set_out c i q a ha, flatMap_set_out c i q b hb]
  have : setQueue c i q i = q := if_pos rfl
  rw [this, ← List.append_assoc, ← List.append_assoc]
  exact (List.perm_append_comm).append_right _

theorem setQueue_self (c : Cache α) (i : Nat) : setQueue c i (c i) = c := by
  funext j; unfold setQueue; split
  · next h => rw [h]
  · rfl

theorem mem_entries {c : Cache α} {e : Entry α} : e ∈ entries c ↔ ∃ i, i < QUEUES ∧ e ∈ (c i).items := by
  simp [entries, List.mem_flatMap]

/-- What holds of the queues at time `t`. -/
structure Inv (T t : Nat) (c : Cache α) : Prop where
  sorted : ∀ i, i < QUEUES → (c i).items.Pairwise (fun x y => x.next ≤ y.next)
  head : ∀ i, i < QUEUES → ∀ e ∈ (c i).items, (c i).head ≤ e.next
  low : ∀ i, i < 19 → ∀ e ∈ (c i).items, e.next ≤ t + 2 ^ i ∧ e.final < e.next + 2 ^ i
  last : ∀ e ∈ (c 19).items, e.next = e.final
  all : ∀ i, i < QUEUES → ∀ e ∈ (c i).items, e.next ≤ e.final ∧ e.final ≤ t + T ∧ T ≤ e.final ∧ e.final < 2 ^ 64

theorem Inv.mono {T t t' : Nat} {c : Cache α} (h : Inv T t c) (ht : t ≤ t') : Inv T t' c where
  sorted := h.sorted
  head := h.head
  low i hi e he := ⟨by have := (h.low i hi e he).1; omega, (h.low i hi e he).2⟩
  last := h.last
  all i hi e he := by have := h.all i hi e he; omega

theorem Inv.empty (T t : Nat) : Inv T t (ProxyCache.empty : Cache α) := by
  constructor <;> simp [ProxyCache.empty]

/-- Taking entries out of a queue. -/
theorem Inv.remove {T t : Nat} {c : Cache α} (h : Inv T t c) (i : Nat) (hi : i < QUEUES) (l : List (Entry α)) (hl : l.Sublist (c i).items) (hd : Nat)
    (hh : ∀ e ∈ l, hd ≤ e.next) : Inv T t (setQueue c i ⟨hd, l⟩) := by
  have key : ∀ j, setQueue c i ⟨hd, l⟩ j = if j = i then ⟨hd, l⟩ else c j := fun j => rfl
  constructor
  · intro j hj
    rw [key]; split
    · exact (h.sorted i hi).sublist hl
    · exact h.sorted j hj
  · intro j hj
    rw [key]; split
    · exact hh
    · exact h.head j hj
  · intro j hj
    rw [key]; split
    · next e => subst e; intro x hx; exact h.low j hj x (hl.subset hx)
    · exact h.low j hj
  · rw [key]; split
    · next e => subst e; intro x hx; exact h.last x (hl.subset hx)
    · exact h.last
  · intro j hj
    rw [key]; split
    · next e => subst e; intro x hx; exact h.all j hj x (hl.subset hx)
    · exact h.all j hj

/-- `schedule` at time `now` of an entry with time left. -/
theorem schedule_spec {T now : Nat} {c : Cache α} (h : Inv T now c) (e : Entry α) (h1 : now < e.final) (h2 : e.final ≤ now + T) (h3 : T ≤ e.final)
    (h4 : e.final < 2 ^ 64) (h5 : now + 2 ^ 19 ≤ e.final → e.final = now + T) :
    ∃ i n hd, i < QUEUES ∧ now < n ∧ (i < 19 → 2 ^ i ≤ e.final - now) ∧ schedule e now c = setQueue c i ⟨hd, (c i).items ++ [{ e with next := n }]⟩ ∧
      Inv T now (schedule e now c) := by
  have hr : (2 ^ 64 + e.final - now) % 2 ^ 64 = e.final - now := by omega
  have fin : ∀ (i n : Nat) (o : Option Nat), i < QUEUES → findQueue (QUEUES - 1) 0 (e.final - now) = (i, o) → setoff now e.final o = n → now < n → n ≤ e.final →
      (∀ x ∈ (c i).items, x.next ≤ n) → (i < 19 → n ≤ now + 2 ^ i ∧ e.final < n + 2 ^ i ∧ 2 ^ i ≤ e.final - now) → (i = 19 → n = e.final) →
      ∃ i n hd, i < QUEUES ∧ now < n ∧ (i < 19 → 2 ^ i ≤ e.final - now) ∧ schedule e now c = setQueue c i ⟨hd, (c i).items ++ [{ e with next := n }]⟩ ∧
        Inv T now (schedule e now c) := by
    intro i n o hi hf hn g1 g2 g3 g4 g5
    have es : schedule e now c = setQueue c i ⟨if (c i).head > n then n else (c i).head, (c i).items ++ [{ e with next := n }]⟩ := by
      unfold schedule; rw [hr, hf]; simp only [hn]
    refine ⟨i, n, _, hi, g1, fun hi' => (g4 hi').2.2, es, ?_⟩
    rw [es]
    have key : ∀ j, setQueue c i ⟨if (c i).head > n then n else (c i).head, (c i).items ++ [{ e with next := n }]⟩ j =
      if j = i then ⟨if (c i).head > n then n else (c i).head, (c i).items ++ [{ e with next := n }]⟩ else c j := fun j => rfl
    constructor
    · intro j hj
      rw [key]; split
      · simp only
        rw [List.pairwise_append]
        refine ⟨h.sorted i hi, by simp, ?_⟩
        intro x hx y hy
        rw [List.mem_singleton] at hy
        subst hy
        exact g3 x hx
      · exact h.sorted j hj
    · intro j hj
      rw [key]; split
      · intro x hx
        simp only [List.mem_append, List.mem_singleton] at hx
        simp only
        rcases hx with hx | rfl
        · have := h.head i hi x hx; split <;> omega
        · simp only; split <;> omega
      · exact h.head j hj
    · intro j hj
      rw [key]; split
      · next ej =>
        subst ej
        intro x hx
        simp only [List.mem_append, List.mem_singleton] at hx
        rcases hx with hx | rfl
        · exact h.low j hj x hx
        · exact ⟨(g4 hj).1, (g4 hj).2.1⟩
      · exact h.low j hj
    · rw [key]; split
      · next ej =>
        subst ej
        intro x hx
        simp only [List.mem_append, List.mem_singleton] at hx
        rcases hx with hx | rfl
        · exact h.last x hx
        · exact g5 rfl
      · exact h.last
    · intro j hj
      rw [key]; split
      · next ej =>
        subst ej
        intro x hx
        simp only [List.mem_append, List.mem_singleton] at hx
        rcases hx with hx | rfl
        · exact h.all j hj x hx
        · exact ⟨g2, h2, h3, h4⟩
      · exact h.all j hj
  rcases findQueue_spec (QUEUES - 1) 0 (e.final - now) (by omega) with ⟨k, k1, k2, k3, k4⟩ | ⟨k1, k2⟩
  · rw [Nat.zero_add] at k2
    have hk : k < 19 := k1
    rw [Nat.pow_succ] at k4
    refine fin k (now + 2 ^ k) (some (2 ^ k)) (by unfold QUEUES; omega) k2 rfl ?_ (by omega) ?_ (fun _ => ⟨by omega, by omega, k3⟩) (by omega)
    · have := Nat.two_pow_pos k; omega
    · intro x hx; exact (h.low k hk x hx).1
  · have k2 : 2 ^ 19 ≤ e.final - now := k2
    have hT := h5 (by omega)
    refine fin 19 e.final none (by decide) k1 rfl h1 (Nat.le_refl _) ?_ (by omega) (fun _ => rfl)
    intro x hx
    rw [h.last x hx]
    have := (h.all 19 (by decide) x hx).2.1
    omega

/-- An entry as a proxy handed back. -/
def toKept (T : Nat) (e : Entry α) : Kept α := ⟨e.key, e.impl, e.final - T⟩

/-- No entry of queue `i` is due. -/
def Quiet (now : Nat) (c : Cache α) (i : Nat) : Prop := ∀ e ∈ (c i).items, now < e.next

/-- What keeping the queues up does to the entries: some that have expired are gone. -/
def Kept' (T now : Nat) (c c' : Cache α) : Prop :=
  ∃ gone : List (Kept α), ((entries c).map (toKept T)).Perm ((entries c').map (toKept T) ++ gone) ∧ ∀ k ∈ gone, k.time + T ≤ now

theorem Kept'.refl (T now : Nat) (c : Cache α) : Kept' T now c c := ⟨[], by simp, by simp⟩

theorem Kept'.trans {T now : Nat} {a b c : Cache α} (h : Kept' T now a b) (g : Kept' T now b c) : Kept' T now a c := by
  obtain ⟨x, h1, h2⟩ := h
  obtain ⟨y, g1, g2⟩ := g
  refine ⟨y ++ x, ?_, ?_⟩
  · refine h1.trans ?_
    rw [← List.append_assoc]
    exact g1.append_right x
  · intro k hk
    rcases List.mem_append.1 hk with hk | hk
    · exact g2 k hk
    · exact h2 k hk

theorem drain_spec {T now i : Nat} (hi : i < QUEUES) : ∀ (n : Nat) (c : Cache α), Inv T now c → (c i).items.length < n →
    Inv T now (drain now i n c) ∧ Quiet now (drain now i n c) i ∧ (∀ j, Quiet now c j → Quiet now (drain now i n c) j) ∧
      Kept' T now c (drain now i n c) := by
  intro n
  induction n with
  | zero => intro c _ h; omega
  | succ n ih =>
    intro c hinv hn
    rw [drain]
    obtain ⟨rest, hrest⟩ := entries_set c i hi
    have hc0 : (entries c).Perm ((c i).items ++ rest) := by
      have := hrest (c i); rwa [setQueue_self] at this
    generalize hitems : (c i).items = items at *
    cases items with
    | nil =>
      refine ⟨hinv, ?_, fun j hj => hj, Kept'.refl _ _ _⟩
      intro e he; rw [hitems] at he; cases he
    | cons e es =>
      simp only
      have hsub : es.Sublist (c i).items := by rw [hitems]; exact List.sublist_cons_self _ _
      have hall := hinv.all i hi e (by rw [hitems]; simp)
      have hsorted := hinv.sorted i hi
      rw [hitems] at hsorted
      have htail : ∀ x ∈ es, e.next ≤ x.next := (List.pairwise_cons.1 hsorted).1
      have hrem : Inv T now (setQueue c i ⟨(c i).head, es⟩) :=
        hinv.remove i hi es hsub _ (fun x hx => hinv.head i hi x (hsub.subset hx))
      have hself : (setQueue c i ⟨(c i).head, es⟩ i).items = es := by simp [setQueue]
      have hq : ∀ j, Quiet now c j → Quiet now (setQueue c i ⟨(c i).head, es⟩) j := by
        intro j hj x hx
        unfold setQueue at hx
        split at hx
        · next ej => subst ej; exact hj x (hsub.subset hx)
        · exact hj x hx
      split
      · next hdue =>
        refine ⟨hinv.remove i hi _ (by rw [hitems]; exact List.Sublist.refl _) _ ?_, ?_, ?_, ?_⟩
        · intro x hx
          rcases List.mem_cons.1 hx with rfl | hx
          · exact Nat.le_refl _
          · exact htail x hx
        · intro x hx
          have : (setQueue c i ⟨e.next, e :: es⟩ i).items = e :: es := by simp [setQueue]
          rw [this] at hx
          rcases List.mem_cons.1 hx with rfl | hx
          · exact hdue
          · have := htail x hx; omega
        · intro j hj x hx
          unfold setQueue at hx
          split at hx
          · next ej => subst ej; exact hj x (by rw [hitems]; exact hx)
          · exact hj x hx
        · refine ⟨[], ?_, by simp⟩
          rw [List.append_nil]
          exact (hc0.trans (hrest ⟨e.next, e :: es⟩).symm).map _
      · next hdue =>
        split
        · next hfin =>
          have hi19 : i < 19 := by
            rcases Nat.lt_or_ge i 19 with h | h
            · exact h
            · have : i = 19 := by unfold QUEUES at hi; omega
              subst this
              have := hinv.last e (by rw [hitems]; simp)
              omega
          have hlow := hinv.low i hi19 e (by rw [hitems]; simp)
          have hp : 2 ^ i < 2 ^ 19 := Nat.pow_lt_pow_right (by omega) hi19
          obtain ⟨j, nx, hd, hj, hnx, hjlow, heq, hinv'⟩ := schedule_spec hrem e hfin hall.2.1 hall.2.2.1 hall.2.2.2 (by omega)
          have hji : j ≠ i := by
            intro ej
            have := hjlow (by omega)
            rw [ej] at this
            omega
          have hkeep : (schedule e now (setQueue c i ⟨(c i).head, es⟩) i).items = es := by
            rw [heq]
            have : ∀ q, setQueue (setQueue c i ⟨(c i).head, es⟩) j q i = setQueue c i ⟨(c i).head, es⟩ i := fun q => if_neg (fun h => hji h.symm)
            rw [this, hself]
          obtain ⟨i1, i2, i3, i4⟩ := ih _ hinv' (by rw [hkeep]; simp at hn; omega)
          refine ⟨i1, i2, ?_, ?_⟩
          · intro j' hj'
            refine i3 j' ?_
            intro x hx
            rw [heq] at hx
            have key : ∀ (d : Cache α) (q : Queue α) (m : Nat), setQueue d j q m = if m = j then q else d m := fun _ _ _ => rfl
            rw [key] at hx
            by_cases ej : j' = j
            · rw [if_pos ej] at hx
              simp only [List.mem_append, List.mem_singleton] at hx
              rcases hx with hx | rfl
              · exact hq j (by rw [← ej]; exact hj') x hx
              · exact hnx
            · rw [if_neg ej] at hx
              exact hq j' hj' x hx
          · refine Kept'.trans ?_ i4
            refine ⟨[], ?_, by simp⟩
            rw [List.append_nil, heq]
            obtain ⟨rest', hrest'⟩ := entries_set (setQueue c i ⟨(c i).head, es⟩) j hj
            have p1 := hrest' (setQueue c i ⟨(c i).head, es⟩ j)
            rw [setQueue_self] at p1
            have p2 := hrest' ⟨hd, (setQueue c i ⟨(c i).head, es⟩ j).items ++ [{ e with next := nx }]⟩
            have p3 := hrest ⟨(c i).head, es⟩
            have q0 : (entries c).Perm (e :: entries (setQueue c i ⟨(c i).head, es⟩)) := hc0.trans (p3.symm.cons e)
            have q1 : (entries (setQueue (setQueue c i ⟨(c i).head, es⟩) j ⟨hd, (setQueue c i ⟨(c i).head, es⟩ j).items ++ [{ e with next := nx }]⟩)).Perm
                ({ e with next := nx } :: entries (setQueue c i ⟨(c i).head, es⟩)) := by
              refine p2.trans ?_
              refine List.Perm.trans ?_ (p1.symm.cons _)
              simp only [List.append_assoc, List.singleton_append]
              exact List.perm_middle
            exact ((q0.map (toKept T)).trans (q1.map (toKept T)).symm)
        · next hfin =>
          obtain ⟨i1, i2, i3, i4⟩ := ih _ hrem (by rw [hself]; simp at hn; omega)
          refine ⟨i1, i2, fun j hj => i3 j (hq j hj), ?_⟩
          refine Kept'.trans ?_ i4
          refine ⟨[toKept T e], ?_, ?_⟩
          · have p3 := hrest ⟨(c i).head, es⟩
            have q0 : (entries c).Perm (e :: entries (setQueue c i ⟨(c i).head, es⟩)) := hc0.trans (p3.symm.cons e)
            refine (q0.map (toKept T)).trans ?_
            exact (List.perm_append_comm (l₁ := [toKept T e]))
          · intro k hk
            rw [List.mem_singleton] at hk
            subst hk
            simp only [toKept]
            omega

theorem upkeepOne_spec {T now i : Nat} (hi : i < QUEUES) (c : Cache α) (h : Inv T now c) :
    Inv T now (upkeepOne now i c) ∧ Quiet now (upkeepOne now i c) i ∧ (∀ j, Quiet now c j → Quiet now (upkeepOne now i c) j) ∧
      Kept' T now c (upkeepOne now i c) := by
  unfold upkeepOne
  split
  · next hd =>
    refine ⟨h, ?_, fun j hj => hj, Kept'.refl _ _ _⟩
    intro e he
    have := h.head i hi e he
    omega
  · exact drain_spec hi _ c h (by omega)

theorem fold_spec {T now : Nat} : ∀ (l : List Nat) (c : Cache α), (∀ i ∈ l, i < QUEUES) → Inv T now c →
    Inv T now (l.foldl (fun c i => upkeepOne now i c) c) ∧
    (∀ j, j ∈ l ∨ Quiet now c j → Quiet now (l.foldl (fun c i => upkeepOne now i c) c) j) ∧
    Kept' T now c (l.foldl (fun c i => upkeepOne now i c) c) := by
  intro l
  induction l with
  | nil => intro c _ h; exact ⟨h, fun j hj => by rcases hj with hj | hj; cases hj; exact hj, Kept'.refl _ _ _⟩
  | cons i l ih =>
    intro c hl h
    rw [List.foldl_cons]
    obtain ⟨h1, h2, h3, h4⟩ := upkeepOne_spec (hl i (by simp)) c h
    obtain ⟨g1, g2, g3⟩ := ih _ (fun j hj => hl j (by simp [hj])) h1
    refine ⟨g1, ?_, h4.trans g3⟩
    intro j hj
    apply g2
    rcases hj with hj | hj
    · rcases List.mem_cons.1 hj with rfl | hj
      · exact .inr h2
      · exact .inl hj
    · exact .inr (h3 j hj)

/-- After keeping up no entry is due, only expired ones are gone. -/
theorem upkeep_spec {T now : Nat} (c : Cache α) (h : Inv T now c) :
    Inv T now (upkeep now c) ∧ (∀ e ∈ entries (upkeep now c), now < e.final) ∧ Kept' T now c (upkeep now c) := by
  obtain ⟨h1, h2, h3⟩ := fold_spec (T := T) (now := now) (List.range QUEUES) c (fun i hi => List.mem_range.1 hi) h
  refine ⟨h1, ?_, h3⟩
  intro e he
  obtain ⟨i, hi, he⟩ := mem_entries.1 he
  have := h2 i (.inl (List.mem_range.2 hi)) e he
  have := (h1.all i hi e he).1
  omega

theorem mem_placesIn (url : Url.Url) (i : Nat) : ∀ (es pre : List (Entry α)) (p : Place α), p ∈ placesIn url i pre es ↔
    p.queue = i ∧ equiv p.entry.key url = true ∧ ∃ m, p.before = pre ++ m ∧ es = m ++ p.entry :: p.after := by
  intro es
  induction es with
  | nil => intro pre p; simp [placesIn]
  | cons e es ih =>
    intro pre p
    rw [placesIn, List.mem_append, ih]
    constructor
    · rintro (h | ⟨h1, h2, m, h3, h4⟩)
      · split at h
        · next he =>
          rw [List.mem_singleton] at h; subst h
          exact ⟨rfl, he, [], by simp, by simp⟩
        · cases h
      · exact ⟨h1, h2, e :: m, by rw [h3]; simp, by rw [h4]; simp⟩
    · rintro ⟨h1, h2, m, h3, h4⟩
      cases m with
      | nil =>
        left
        simp only [List.nil_append, List.cons.injEq] at h4
        obtain ⟨rfl, rfl⟩ := h4
        rw [if_pos h2, List.mem_singleton]
        cases p
        simp only [List.append_nil] at h1 h3
        subst h1 h3
        rfl
      | cons x m =>
        right
        simp only [List.cons_append, List.cons.injEq] at h4
        obtain ⟨rfl, rfl⟩ := h4
        exact ⟨h1, h2, m, by rw [h3]; simp, rfl⟩

theorem mem_places {url : Url.Url} {c : Cache α} {p : Place α} : p ∈ places url c ↔
    p.queue < QUEUES ∧ equiv p.entry.key url = true ∧ (c p.queue).items = p.before ++ p.entry :: p.after := by
  unfold places
  rw [List.mem_flatMap]
  constructor
  · rintro ⟨i, hi, h⟩
    obtain ⟨h1, h2, m, h3, h4⟩ := (mem_placesIn _ _ _ _ _).1 h
    subst h1
    refine ⟨List.mem_range.1 hi, h2, ?_⟩
    rw [h4, h3]; simp
  · rintro ⟨h1, h2, h3⟩
    exact ⟨p.queue, List.mem_range.2 h1, (mem_placesIn _ _ _ _ _).2 ⟨rfl, h2, p.before, by simp, h3⟩⟩

theorem find_some {pick : Nat} {url : Url.Url} {c : Cache α} {p : Place α} (h : find pick url c = some p) : p ∈ places url c :=
  List.mem_of_getElem? h

theorem find_none {pick : Nat} {url : Url.Url} {c : Cache α} (h : find pick url c = none) : ∀ e ∈ entries c, equiv e.key url = false := by
  intro e he
  rcases hb : equiv e.key url with _ | _
  · rfl
  exfalso
  obtain ⟨i, hi, he⟩ := mem_entries.1 he
  obtain ⟨a, b, hab⟩ := List.append_of_mem he
  have hm : (⟨i, a, e, b⟩ : Place α) ∈ places url c := mem_places.2 ⟨hi, hb, hab⟩
  have hpos : 0 < (places url c).length := List.length_pos_of_mem hm
  unfold find at h
  simp only at h
  rw [List.getElem?_eq_none_iff] at h
  have := Nat.mod_lt pick hpos
  omega

end ProxyCache
end Frpc
