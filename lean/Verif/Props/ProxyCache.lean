import Verif.Proofs.ProxyCache
/-!
# The proxy cache: C51
-/
namespace Frpc
open ProxyCache Spec.Pool
variable {α : Type}

namespace ProxyCache

theorem equiv_iff (a b : Url.Url) : equiv a b = true ↔ SamePlace a b := by
  unfold equiv less SamePlace
  have tri := fun x y : Bytes => keyLt_total x y
  constructor
  · intro h
    by_cases h1 : a.port = b.port
    · by_cases h2 : a.path = b.path
      · simp only [h1, h2, and_self, if_true, Bool.and_eq_true, Bool.not_eq_true'] at h
        refine ⟨?_, h1, h2⟩
        rcases tri a.host b.host with h | h | h <;> simp_all
      · have h2' : ¬ b.path = a.path := fun e => h2 e.symm
        simp only [h1, h2, h2', and_false, if_false, if_true, Bool.and_eq_true, Bool.not_eq_true'] at h
        rcases tri a.path b.path with h | h | h <;> simp_all
    · have h1' : ¬ b.port = a.port := fun e => h1 e.symm
      simp only [h1, h1', false_and, if_false, Bool.and_eq_true, Bool.not_eq_true', decide_eq_false_iff_not] at h
      omega
  · rintro ⟨h1, h2, h3⟩
    simp [h1, h2, h3, keyLt_irrefl]

/-- The queues hold the pool, up to proxies that have expired. -/
def Holds (T t : Nat) (pool : List (Kept α)) (c : Cache α) : Prop :=
  Inv T t c ∧ ∃ dead, pool.Perm ((entries c).map (toKept T) ++ dead) ∧ ∀ k ∈ dead, k.time + T ≤ t

theorem Holds.upkeep {T t now : Nat} {pool : List (Kept α)} {c : Cache α} (h : Holds T t pool c) (ht : t ≤ now) :
    Holds T now pool (upkeep now c) ∧ ∀ e ∈ entries (ProxyCache.upkeep now c), now < e.final := by
  obtain ⟨h1, dead, h2, h3⟩ := h
  obtain ⟨g1, g2, gone, g3, g4⟩ := upkeep_spec c (h1.mono ht)
  refine ⟨⟨g1, gone ++ dead, ?_, ?_⟩, g2⟩
  · refine h2.trans ?_
    rw [← List.append_assoc]
    exact g3.append_right dead
  · intro k hk
    rcases List.mem_append.1 hk with hk | hk
    · exact g4 k hk
    · have := h3 k hk; omega

theorem Holds.schedule {T t now : Nat} {pool : List (Kept α)} {c : Cache α} (h : Holds T t pool c) (ht : t ≤ now) (url : Url.Url) (impl : α)
    (hT : 1 ≤ T) (hb : now + T < 2 ^ 64) : Holds T now (⟨url, impl, now⟩ :: pool) (schedule ⟨url, impl, 0, now + T⟩ now c) := by
  obtain ⟨k1, dead, k2, k3⟩ := h
  obtain ⟨e, he⟩ : ∃ e : Entry α, e = ⟨url, impl, 0, now + T⟩ := ⟨_, rfl⟩
  have hf : e.final = now + T := by rw [he]
  rw [← he]
  obtain ⟨i, n, hd, s1, s2, s3, s4, s5⟩ := schedule_spec (k1.mono ht) e (by omega) (by omega) (by omega) (by omega) (fun _ => hf)
  refine ⟨s5, dead, ?_, fun k hk => by have := k3 k hk; omega⟩
  rw [s4]
  obtain ⟨e', he'⟩ : ∃ e' : Entry α, e' = { e with next := n } := ⟨_, rfl⟩
  have hk' : toKept T e' = ⟨url, impl, now⟩ := by rw [he', he]; simp [toKept]
  rw [← he']
  obtain ⟨rest, hrest⟩ := entries_set c i s1
  have p1 := hrest (c i)
  rw [setQueue_self] at p1
  have p2 := hrest ⟨hd, (c i).items ++ [e']⟩
  have p3 : (entries (setQueue c i ⟨hd, (c i).items ++ [e']⟩)).Perm (e' :: entries c) := by
    refine p2.trans (List.Perm.trans ?_ (p1.symm.cons _))
    simp only [List.append_assoc, List.singleton_append]
    exact List.perm_middle
  have p4 := p3.map (toKept T)
  refine List.Perm.trans (k2.cons _) ?_
  refine List.Perm.trans ?_ (p4.symm.append_right dead)
  rw [List.map_cons, hk', List.cons_append]

theorem history_right (timeout : Int) (h0 : 1 ≤ timeout) (hT : timeout ≤ 2147483) : ∀ (us : List (Use α)) (t : Nat) (pool : List (Kept α)) (c : Cache α),
    Holds (msec timeout) t pool c → (t :: us.flatMap times).Pairwise (· ≤ ·) → (∀ x ∈ us.flatMap times, x < 2 ^ 63) →
    Right (msec timeout) pool us (history timeout c us).1 := by
  have hne : timeout ≠ 0 := by omega
  have hms : msec timeout = (timeout * 1000).toNat := by unfold msec u32; congr 1; omega
  have hT1 : 1 ≤ msec timeout := by omega
  have hT2 : msec timeout < 2 ^ 32 := by omega
  obtain ⟨T, hTe⟩ : ∃ T, msec timeout = T := ⟨_, rfl⟩
  rw [hTe] at hT1 hT2 ⊢
  intro us
  induction us with
  | nil => intro t pool c _ _ _; exact .done
  | cons u us ih =>
    intro t pool c hold hmono hbig
    cases u with
    | give now now' url impl =>
      have hb := hbig now' (by simp [times])
      have e1 : (Use.give now now' url impl :: us).flatMap times = now :: now' :: us.flatMap times := by simp [times]
      rw [e1] at hmono hbig
      obtain ⟨m1, m2⟩ := List.pairwise_cons.1 hmono
      obtain ⟨m3, m4⟩ := List.pairwise_cons.1 m2
      have ht : t ≤ now := m1 now (by simp)
      have ht' : now ≤ now' := m3 now' (by simp)
      rw [history]
      refine .give (ih now' _ _ ?_ m4 (fun x hx => hbig x (by simp [hx])))
      unfold moveInto
      rw [if_neg hne, hTe]
      have hmod : (now' + T) % 2 ^ 64 = now' + T := Nat.mod_eq_of_lt (by omega)
      rw [hmod]
      exact (hold.upkeep ht).1.schedule ht' url impl hT1 (by omega)
    | take now pick url =>
      have e1 : (Use.take now pick url :: us).flatMap times = now :: us.flatMap times := by simp [times]
      rw [e1] at hmono hbig
      obtain ⟨m1, m2⟩ := List.pairwise_cons.1 hmono
      have ht : t ≤ now := m1 now (by simp)
      rw [history]
      have hu := hold.upkeep ht
      unfold lookup
      rw [if_neg hne]
      simp only
      generalize upkeep now c = d at hu ⊢
      obtain ⟨⟨k1, dead, k2, k3⟩, k4⟩ := hu
      have hbig' : ∀ x ∈ us.flatMap times, x < 2 ^ 63 := fun x hx => hbig x (List.mem_cons_of_mem _ hx)
      generalize hf : find pick url (d) = r
      cases r with
      | none =>
        refine .missed ?_ (ih now _ _ ⟨k1, dead, k2, k3⟩ m2 hbig')
        intro k hk hs
        rcases List.mem_append.1 (k2.subset hk) with hk | hk
        · obtain ⟨e, he, rfl⟩ := List.mem_map.1 hk
          have := find_none hf e he
          rw [(equiv_iff e.key url).2 hs] at this
          cases this
        · exact k3 k hk
      | some p =>
        obtain ⟨q1, q2, q3⟩ := mem_places.1 (find_some hf)
        obtain ⟨rest, hrest⟩ := entries_set (d) p.queue q1
        have p1 := hrest (d p.queue)
        rw [setQueue_self, q3] at p1
        have p2 := hrest ⟨(d p.queue).head, p.before ++ p.after⟩
        have p3 : (entries (d)).Perm (p.entry :: entries (setQueue (d) p.queue ⟨(d p.queue).head, p.before ++ p.after⟩)) := by
          refine p1.trans (List.Perm.trans ?_ (p2.symm.cons _))
          simp only [List.append_assoc, List.cons_append]
          exact List.perm_middle
        have hmem : p.entry ∈ entries (d) := p3.symm.subset (by simp)
        have hk : toKept T p.entry ∈ pool := k2.symm.subset (List.mem_append_left _ (List.mem_map_of_mem hmem))
        obtain ⟨a, b, hab⟩ := List.append_of_mem hk
        subst hab
        obtain ⟨i, hi, hi2⟩ := mem_entries.1 hmem
        have hge := (k1.all i hi _ hi2).2.2.1
        have hlt := k4 _ hmem
        refine Right.found (k := toKept T p.entry) ((equiv_iff _ _).1 q2) (by simp only [toKept]; omega) (ih now _ _ ⟨?_, dead, ?_, k3⟩ m2 hbig')
        · refine k1.remove p.queue q1 _ ?_ _ ?_
          · rw [q3]
            exact List.Sublist.append (List.Sublist.refl _) (List.sublist_cons_self _ _)
          · intro x hx
            refine k1.head p.queue q1 x ?_
            rw [q3]
            rcases List.mem_append.1 hx with hx | hx <;> simp [hx]
        · have p4 := (List.perm_middle.symm.trans k2).trans ((p3.map (toKept T)).append_right dead)
          simp only [List.map_cons, List.cons_append] at p4
          exact List.Perm.cons_inv p4

end ProxyCache

/-! ## C51 -/

/-- C51: with a timeout of up to 2147483 seconds and a clock that does not go back, in every history of lookups and of proxies handed
back, whichever entry the map finds, every lookup gives a proxy that was handed back less than the timeout ago for the same host, port
and path and that has not been given since; and it gives none only if there is no such proxy. -/
theorem C51_cache (timeout : Int) (h0 : 1 ≤ timeout) (hT : timeout ≤ 2147483) (us : List (Use α)) (hclock : Clock us) :
    Right (timeout * 1000).toNat [] us (history timeout empty us).1 := by
  have hms : msec timeout = (timeout * 1000).toNat := by unfold msec u32; congr 1; omega
  rw [← hms]
  refine history_right timeout h0 hT us 0 [] empty ⟨Inv.empty _ _, [], ?_, by simp⟩ ?_ hclock.2
  · have : entries (empty : Cache α) = [] := by
      rw [entries, List.flatMap_eq_nil_iff]
      intro i _; rfl
    rw [this]; simp
  · exact List.pairwise_cons.2 ⟨fun _ _ => Nat.zero_le _, hclock.1⟩

/-- In right results nothing is given more often than it was handed back. -/
theorem Spec.Pool.Right.count [DecidableEq α] {life : Nat} {pool : List (Kept α)} {us : List (Use α)} {rs : List (Option α)} (h : Right life pool us rs) (x : α) :
    rs.count (some x) ≤ (pool.map (·.impl)).count x + (given us).count x := by
  induction h with
  | done => simp
  | give _ ih =>
    rename_i url impl us rs _
    simp only [given, List.filterMap_cons, List.map_cons, List.count_cons] at ih ⊢
    omega
  | found _ _ _ ih =>
    rename_i a b k now pick url us rs _ _ _
    simp only [given, List.filterMap_cons, List.map_cons, List.map_append, List.count_cons, List.count_append] at ih ⊢
    have : (some k.impl == some x) = (k.impl == x) := rfl
    rw [this]
    omega
  | missed _ _ ih =>
    simp only [given, List.filterMap_cons, List.count_cons] at ih ⊢
    simpa using ih

/-- C51, exclusive use: a proxy is given at most as often as it was handed back; one that was handed back once is given at most once. -/
theorem C51_exclusive [DecidableEq α] (timeout : Int) (h0 : 1 ≤ timeout) (hT : timeout ≤ 2147483) (us : List (Use α)) (hclock : Clock us) (x : α) :
    (history timeout empty us).1.count (some x) ≤ (given us).count x := by
  have := (C51_cache timeout h0 hT us hclock).count x
  simpa using this

theorem Spec.Pool.Right.nil {life : Nat} {pool : List (Kept α)} {rs : List (Option α)} (h : Right life pool [] rs) : rs = [] := by
  generalize hu : ([] : List (Use α)) = us at h
  cases h <;> first | rfl | cases hu

/-- The last result of a history that ends with a lookup comes from the pool or from what was handed back. -/
theorem Spec.Pool.Right.last {life now pick : Nat} {url : Url.Url} {x : α} : ∀ (us : List (Use α)) {pool : List (Kept α)} {rs : List (Option α)},
    Right life pool (us ++ [.take now pick url]) rs → rs.getLast? = some (some x) →
    ∃ k : Kept α, k.impl = x ∧ SamePlace k.url url ∧ now < k.time + life ∧ (k ∈ pool ∨ ∃ t, Use.give t k.time k.url k.impl ∈ us) := by
  intro us
  induction us with
  | nil =>
    intro pool rs h hx
    cases h with
    | found h1 h2 h3 =>
      have := h3.nil
      subst this
      simp only [List.getLast?_singleton, Option.some.injEq] at hx
      exact ⟨_, hx, h1, h2, .inl (List.mem_append_right _ List.mem_cons_self)⟩
    | missed _ h3 => have := h3.nil; subst this; simp at hx
  | cons u us ih =>
    intro pool rs h hx
    rw [List.cons_append] at h
    have more : ∀ {rs' : List (Option α)} {pool' : List (Kept α)} {r : Option α}, Right life pool' (us ++ [.take now pick url]) rs' →
        (r :: rs').getLast? = some (some x) → rs'.getLast? = some (some x) := by
      intro rs' pool' r h hx
      cases rs' with
      | nil =>
        exfalso
        have : ∀ (us : List (Use α)) (pool' : List (Kept α)), ¬ Right life pool' (us ++ [.take now pick url]) [] := by
          intro us
          induction us with
          | nil => intro p h; cases h
          | cons u us ih => intro p h; cases h with | give h => exact ih _ h
        exact this _ _ h
      | cons a l => simpa using hx
    cases h with
    | give h1 =>
      obtain ⟨k, h2, h3, h4, h5⟩ := ih h1 hx
      refine ⟨k, h2, h3, h4, ?_⟩
      rcases h5 with h5 | ⟨t, h5⟩
      · rcases List.mem_cons.1 h5 with rfl | h5
        · exact .inr ⟨_, List.mem_cons_self⟩
        · exact .inl h5
      · exact .inr ⟨t, List.mem_cons_of_mem _ h5⟩
    | found _ _ h1 =>
      obtain ⟨k, h2, h3, h4, h5⟩ := ih h1 (more h1 hx)
      refine ⟨k, h2, h3, h4, ?_⟩
      rcases h5 with h5 | ⟨t, h5⟩
      · left; rcases List.mem_append.1 h5 with h5 | h5 <;> simp [h5]
      · exact .inr ⟨t, List.mem_cons_of_mem _ h5⟩
    | missed _ h1 =>
      obtain ⟨k, h2, h3, h4, h5⟩ := ih h1 (more h1 hx)
      refine ⟨k, h2, h3, h4, ?_⟩
      rcases h5 with h5 | ⟨t, h5⟩
      · exact .inl h5
      · exact .inr ⟨t, List.mem_cons_of_mem _ h5⟩

/-- C51, fresh: a proxy given by a lookup at `now` was handed back, for that place, less than the timeout before. -/
theorem C51_fresh (timeout : Int) (h0 : 1 ≤ timeout) (hT : timeout ≤ 2147483) (us : List (Use α)) (now pick : Nat) (url : Url.Url)
    (hclock : Clock (us ++ [.take now pick url])) (x : α) (hx : (history timeout empty (us ++ [.take now pick url])).1.getLast? = some (some x)) :
    ∃ t t' url', Use.give t t' url' x ∈ us ∧ SamePlace url' url ∧ t' ≤ now ∧ now - t' < (timeout * 1000).toNat := by
  obtain ⟨k, h1, h2, h3, h4⟩ := (C51_cache timeout h0 hT _ hclock).last us hx
  rcases h4 with h4 | ⟨t, h4⟩
  · cases h4
  · subst h1
    have hle : k.time ≤ now := by
      have hp := hclock.1
      rw [List.flatMap_append, List.pairwise_append] at hp
      exact hp.2.2 k.time (List.mem_flatMap.2 ⟨_, h4, by simp [times]⟩) now (by simp [times])
    exact ⟨t, k.time, k.url, h4, h2, hle, by omega⟩

/-- C51, reuse: a lookup within the timeout after a proxy was handed back for that place gives some proxy, if none was taken since. -/
theorem C51_reuse (timeout : Int) (h0 : 1 ≤ timeout) (hT : timeout ≤ 2147483) (us : List (Use α)) (t t' : Nat) (url' : Url.Url) (x : α) (now pick : Nat) (url : Url.Url)
    (hclock : Clock (us ++ [.give t t' url' x, .take now pick url])) (hs : SamePlace url' url) (hlife : now - t' < (timeout * 1000).toNat) :
    ∃ y, (history timeout empty (us ++ [.give t t' url' x, .take now pick url])).1.getLast? = some (some y) := by
  have hr := C51_cache timeout h0 hT _ hclock
  have hle : t' ≤ now := by
    have hp := hclock.1
    rw [List.flatMap_append, List.pairwise_append] at hp
    simpa [times] using (List.pairwise_cons.1 (List.pairwise_cons.1 hp.2.1).2).1
  generalize (history timeout empty (us ++ [.give t t' url' x, .take now pick url])).1 = rs at hr
  generalize ([] : List (Kept α)) = pool at hr
  clear hclock
  induction us generalizing pool rs with
  | nil =>
    cases hr with
    | give h =>
      generalize hp : (_ :: pool : List (Kept α)) = p at h
      cases h with
      | found _ _ h => have := h.nil; subst this; exact ⟨_, rfl⟩
      | missed h _ =>
        have := h ⟨url', x, t'⟩ (by rw [← hp]; simp) hs
        simp only at this
        omega
  | cons u us ih =>
    rw [List.cons_append] at hr
    cases hr with
    | give h => exact ih _ _ h
    | found _ _ h => obtain ⟨y, hy⟩ := ih _ _ h; exact ⟨y, by rw [List.getLast?_cons, hy]; rfl⟩
    | missed _ h => obtain ⟨y, hy⟩ := ih _ _ h; exact ⟨y, by rw [List.getLast?_cons, hy]; rfl⟩

/-- C51, off: with a timeout of 0 nothing is ever given. -/
theorem C51_off (us : List (Use α)) (c : Cache α) : ∀ r ∈ (history 0 c us).1, r = none := by
  induction us generalizing c with
  | nil => intro r h; cases h
  | cons u us ih =>
    cases u with
    | give => exact ih _
    | take now pick url =>
      intro r hr
      rw [history] at hr
      simp only [lookup, if_true, List.mem_cons] at hr
      rcases hr with rfl | hr
      · rfl
      · exact ih _ r hr

/-- Two proxies of one place and one of another, handed back and looked up: within the timeout of 2 s each once, after it none. -/
example : Clock [Use.give 1000 1000 ⟨(asc "h"), 80, (asc "/RPC2"), false, false⟩ 7, .give 1001 1002 ⟨(asc "h"), 81, (asc "/RPC2"), false, false⟩ 8,
    .take 2999 0 ⟨(asc "h"), 80, (asc "/RPC2"), false, false⟩, .take 2999 0 ⟨(asc "h"), 80, (asc "/RPC2"), false, false⟩, .take 3002 5 ⟨(asc "h"), 81, (asc "/RPC2"), false, false⟩] ∧
    (history 2 empty [Use.give 1000 1000 ⟨(asc "h"), 80, (asc "/RPC2"), false, false⟩ 7, .give 1001 1002 ⟨(asc "h"), 81, (asc "/RPC2"), false, false⟩ 8,
    .take 2999 0 ⟨(asc "h"), 80, (asc "/RPC2"), false, false⟩, .take 2999 0 ⟨(asc "h"), 80, (asc "/RPC2"), false, false⟩, .take 3002 5 ⟨(asc "h"), 81, (asc "/RPC2"), false, false⟩]).1 =
      [some 7, none, none] := by
  refine ⟨⟨by decide, by decide⟩, by decide +kernel⟩

end Frpc
