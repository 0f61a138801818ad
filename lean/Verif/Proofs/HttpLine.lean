import Verif.Model.HttpIO
import Verif.Proofs.UrlForm
/-! # Reading lines and blocks -/
namespace Frpc
namespace HttpIO

/-- The schedule has no timeout and no failure. -/
def Calm (l : List Ev) : Prop := ∀ e ∈ l, ∃ k, e = .bytes k

theorem over_mono {limit : Int} {n m : Nat} (h : n ≤ m) (ho : over limit n = true) : over limit m = true := by
  simp only [over, Bool.and_eq_true, decide_eq_true_eq] at ho ⊢
  omega

theorem poll_cases (s : Conn) :
    (∃ a sc, poll s = (.ready a, { s with sched := sc }) ∧ (∃ pre, s.sched = pre ++ sc) ∧ (0 < a ∨ s.data = [])) ∨
    (∃ sc, poll s = (.timeout, { s with sched := sc }) ∧ .timeout ∈ s.sched ∧ (∃ pre, s.sched = pre ++ sc)) ∨
    (∃ sc, poll s = (.fail, { s with sched := sc }) ∧ .fail ∈ s.sched ∧ (∃ pre, s.sched = pre ++ sc)) := by
  obtain ⟨data, sched, out⟩ := s
  unfold poll
  cases sched with
  | nil =>
    left
    refine ⟨_, [], rfl, ⟨[], rfl⟩, ?_⟩
    cases data with
    | nil => exact .inr rfl
    | cons c d => left; simp
  | cons e r =>
    cases e with
    | bytes k => left; exact ⟨_, r, rfl, ⟨[.bytes k], rfl⟩, .inl (by omega)⟩
    | timeout => right; left; exact ⟨r, rfl, by simp, ⟨[.timeout], rfl⟩⟩
    | fail => right; right; exact ⟨r, rfl, by simp, ⟨[.fail], rfl⟩⟩

theorem Calm.poll {s : Conn} (h : Calm s.sched) :
    ∃ a sc, poll s = (.ready a, { s with sched := sc }) ∧ Calm sc ∧ (0 < a ∨ s.data = []) := by
  rcases poll_cases s with ⟨a, sc, h1, ⟨pre, h2⟩, h3⟩ | ⟨sc, -, h2, -⟩ | ⟨sc, -, h2, -⟩
  · refine ⟨a, sc, h1, ?_, h3⟩
    intro e he; exact h e (by rw [h2]; simp [he])
  · obtain ⟨k, hk⟩ := h _ h2; cases hk
  · obtain ⟨k, hk⟩ := h _ h2; cases hk

theorem take_before {before rest : Bytes} {n : Nat} (h : (10 : UInt8) ∉ before) :
    ((before ++ 10 :: rest).take n).findIdx? (· == 10) = if before.length < n then some before.length else none := by
  by_cases hn : before.length < n
  · rw [if_pos hn]
    obtain ⟨k, rfl⟩ : ∃ k, n = before.length + (k + 1) := ⟨n - before.length - 1, by omega⟩
    rw [List.take_length_add_append, List.take_succ_cons]
    exact UrlForm.findIdx?_append_cons h
  · rw [if_neg hn, List.take_append_of_le_length (by omega)]
    exact UrlForm.findIdx?_absent (fun hm => h (List.mem_of_mem_take hm))

/-- Whatever the schedule, a line that is returned is the right one. -/
theorem readLineLoop_sound (cfg : Cfg) (check : Bool) : ∀ (f : Nat) (nb : Bool) (line : Bytes) (s : Conn) (l : Bytes) (s' : Conn),
    readLineLoop cfg check false f nb line s = (.ok l, s') →
    ∃ before rest, s.data = before ++ 10 :: rest ∧ (10 : UInt8) ∉ before ∧ l = stripCR (line ++ before) ∧ s'.data = rest ∧ s'.out = s.out ∧
      (check && over cfg.lineLimit (line.length + before.length + 1)) = false := by
  intro f
  induction f with
  | zero => intro nb line s l s' h; simp [readLineLoop] at h
  | succ f ih =>
    intro nb line s l s' h
    unfold readLineLoop at h
    rcases poll_cases s with ⟨a, sc, h1, -, -⟩ | ⟨sc, h1, -⟩ | ⟨sc, h1, -⟩
    · rw [h1] at h
      simp only [Bool.and_false, Bool.false_eq_true, if_false] at h
      split at h
      · simp at h
      · split at h
        · next i hi =>
          split at h
          · simp at h
          · next hov =>
            simp only [Prod.mk.injEq, Except.ok.injEq] at h
            obtain ⟨rfl, rfl⟩ := h
            rw [List.findIdx?_eq_some_iff_getElem] at hi
            obtain ⟨hl, he, hlt⟩ := hi
            have hl2 : i < s.data.length := by simp at hl; omega
            have hg : s.data[i] = 10 := by
              rw [List.getElem_take] at he; exact beq_iff_eq.1 he
            have htk : (s.data.take (min a BUFF)).take i = s.data.take i := by
              rw [List.take_take]; congr 1; simp at hl; omega
            refine ⟨s.data.take i, s.data.drop (i + 1), ?_, ?_, by rw [htk], rfl, rfl, ?_⟩
            · conv => lhs; rw [← List.take_append_drop i s.data]
              rw [List.drop_eq_getElem_cons hl2, hg]
            · intro hm
              obtain ⟨j, hj, hje⟩ := List.getElem_of_mem hm
              have hji : j < i := by simp at hj; omega
              have := hlt j (by omega)
              rw [List.getElem_take] at this hje
              rw [hje] at this; simp at this
            · have : (s.data.take i).length = i := by simp; omega
              rw [this]
              simpa [Nat.add_assoc] using hov
        · next hi =>
          split at h
          · simp at h
          · next hov =>
            obtain ⟨before, rest, e1, e2, e3, e4, e5, e6⟩ := ih _ _ _ _ _ h
            simp only at e1 e4 e5
            rw [List.findIdx?_eq_none_iff] at hi
            refine ⟨s.data.take (min a BUFF) ++ before, rest, ?_, ?_, by rw [e3]; simp, e4, e5, ?_⟩
            · rw [List.append_assoc, ← e1]
              have : s.data.drop (s.data.take (min a BUFF)).length = s.data.drop (min a BUFF) := by
                rw [List.length_take]
                rcases Nat.le_total (min a BUFF) s.data.length with hm | hm
                · rw [Nat.min_eq_left hm]
                · rw [Nat.min_eq_right hm, List.drop_eq_nil_of_le hm]; simp
              rw [this, List.take_append_drop]
            · rw [List.mem_append, not_or]
              refine ⟨fun hm => ?_, e2⟩
              have := hi _ hm
              simp at this
            · rw [← e6]; congr 2; simp; omega
    · rw [h1] at h; simp at h
    · rw [h1] at h; simp at h

theorem drop_take_length (d : Bytes) (n : Nat) : d.drop (d.take n).length = d.drop n := by
  rw [List.length_take]
  rcases Nat.le_total n d.length with hm | hm
  · rw [Nat.min_eq_left hm]
  · rw [Nat.min_eq_right hm, List.drop_eq_nil_of_le hm]; simp

theorem findIdx_take_none {d : Bytes} (h : (10 : UInt8) ∉ d) (n : Nat) : (d.take n).findIdx? (· == 10) = none :=
  UrlForm.findIdx?_absent (fun hm => h (List.mem_of_mem_take hm))

/-- Under a calm schedule a line that is there and fits is read. -/
theorem readLineLoop_found (cfg : Cfg) (check opt : Bool) : ∀ (f : Nat) (nb : Bool) (line : Bytes) (s : Conn) (before rest : Bytes),
    Calm s.sched → s.data = before ++ 10 :: rest → (10 : UInt8) ∉ before → before.length < f →
    (∃ sc, Calm sc ∧ (check && over cfg.lineLimit (line.length + before.length + 1)) = false ∧
      readLineLoop cfg check opt f nb line s = (.ok (stripCR (line ++ before)), ⟨rest, sc, s.out⟩)) ∨
    ((check && over cfg.lineLimit (line.length + before.length + 1)) = true ∧
      ∃ s', s'.out = s.out ∧ readLineLoop cfg check opt f nb line s = (.error .lineTooLong, s')) := by
  intro f
  induction f with
  | zero => intro nb line s before rest _ _ _ h; omega
  | succ f ih =>
    intro nb line s before rest hc hd hb hf
    obtain ⟨a, sc, h1, h2, h3⟩ := hc.poll
    have ha : 0 < a := by
      rcases h3 with h3 | h3
      · exact h3
      · rw [hd] at h3; simp at h3
    unfold readLineLoop
    rw [h1]
    simp only
    have hne : s.data.take (min a BUFF) ≠ [] := by
      rw [hd]
      have : 0 < min a BUFF := by unfold BUFF; omega
      obtain ⟨k, hk⟩ : ∃ k, min a BUFF = k + 1 := ⟨min a BUFF - 1, by omega⟩
      rw [hk]; cases before <;> simp
    rw [if_neg hne]
    have hfi := take_before (rest := rest) (n := min a BUFF) hb
    rw [← hd] at hfi
    by_cases hlt : before.length < min a BUFF
    · rw [if_pos hlt] at hfi
      rw [hfi]
      simp only
      by_cases hov : (check && over cfg.lineLimit (line.length + (before.length + 1))) = true
      · right
        refine ⟨by rw [Nat.add_assoc]; exact hov, ⟨s.data, sc, s.out⟩, rfl, by rw [if_pos hov]⟩
      · left
        refine ⟨sc, h2, by rw [Nat.add_assoc]; simpa using hov, ?_⟩
        rw [if_neg hov]
        have e1 : (s.data.take (min a BUFF)).take before.length = before := by
          rw [List.take_take, Nat.min_eq_left (by omega), hd, List.take_left']; rfl
        have e2 : s.data.drop (before.length + 1) = rest := by rw [hd]; simp
        rw [e1, e2]
    · rw [if_neg hlt] at hfi
      rw [hfi]
      simp only
      have hlen : (s.data.take (min a BUFF)).length = min a BUFF := by
        rw [List.length_take, hd]; simp; omega
      have hle : min a BUFF ≤ before.length := by omega
      have hb' : s.data.take (min a BUFF) = before.take (min a BUFF) := by rw [hd, List.take_append_of_le_length hle]
      by_cases hov : (check && over cfg.lineLimit (line.length + (s.data.take (min a BUFF)).length)) = true
      · right
        rw [if_pos hov]
        refine ⟨?_, ⟨s.data, sc, s.out⟩, rfl, rfl⟩
        simp only [Bool.and_eq_true] at hov ⊢
        exact ⟨hov.1, over_mono (by omega) hov.2⟩
      · rw [if_neg hov]
        have hpos : 0 < min a BUFF := by unfold BUFF; omega
        have hd' : s.data.drop (s.data.take (min a BUFF)).length = before.drop (min a BUFF) ++ 10 :: rest := by
          rw [hlen, hd, List.drop_append_of_le_length hle]
        have := ih false (line ++ s.data.take (min a BUFF)) { s with sched := sc, data := s.data.drop (s.data.take (min a BUFF)).length }
          (before.drop (min a BUFF)) rest h2 hd' (fun hm => hb (List.mem_of_mem_drop hm)) (by simp; omega)
        have hl2 : (line ++ s.data.take (min a BUFF)).length + (before.drop (min a BUFF)).length + 1 = line.length + before.length + 1 := by
          rw [List.length_append, hlen, List.length_drop]; omega
        have hl3 : line ++ s.data.take (min a BUFF) ++ before.drop (min a BUFF) = line ++ before := by
          rw [hb', List.append_assoc, List.take_append_drop]
        rw [hl2, hl3] at this
        exact this

/-- Under a calm schedule, without a line feed the read fails. -/
theorem readLineLoop_missing (cfg : Cfg) (check : Bool) : ∀ (f : Nat) (nb : Bool) (line : Bytes) (s : Conn),
    Calm s.sched → (10 : UInt8) ∉ s.data → s.data.length < f →
    (readLineLoop cfg check false f nb line s).1 = .error (if s.data ≠ [] ∧ (check && over cfg.lineLimit (line.length + s.data.length)) = true then .lineTooLong else .closed) := by
  intro f
  induction f with
  | zero => intro nb line s _ _ h; omega
  | succ f ih =>
    intro nb line s hc hb hf
    obtain ⟨a, sc, h1, h2, h3⟩ := hc.poll
    unfold readLineLoop
    rw [h1]
    simp only
    by_cases hnil : s.data = []
    · simp [hnil]
    · have ha : 0 < a := by
        rcases h3 with h3 | h3
        · exact h3
        · exact absurd h3 hnil
      have hpos : 0 < min a BUFF := by unfold BUFF; omega
      have hne : s.data.take (min a BUFF) ≠ [] := by
        intro h; rw [List.take_eq_nil_iff] at h; rcases h with h | h
        · omega
        · exact hnil h
      rw [if_neg hne, findIdx_take_none hb]
      simp only
      have hle : (s.data.take (min a BUFF)).length ≤ s.data.length := by simp; omega
      have hpos2 : 0 < (s.data.take (min a BUFF)).length := List.length_pos_iff.2 hne
      by_cases hov : (check && over cfg.lineLimit (line.length + (s.data.take (min a BUFF)).length)) = true
      · rw [if_pos hov]
        rw [if_pos]
        refine ⟨hnil, ?_⟩
        simp only [Bool.and_eq_true] at hov ⊢
        exact ⟨hov.1, over_mono (by omega) hov.2⟩
      · rw [if_neg hov]
        have hs' := ih false (line ++ s.data.take (min a BUFF)) { s with sched := sc, data := s.data.drop (s.data.take (min a BUFF)).length }
          h2 (fun hm => hb (List.mem_of_mem_drop hm)) (by simp only [List.length_drop]; omega)
        rw [hs']
        simp only [List.length_drop, List.length_append]
        have e : line.length + (s.data.take (min a BUFF)).length + (s.data.length - (s.data.take (min a BUFF)).length) = line.length + s.data.length := by omega
        rw [e]
        by_cases hd : s.data.drop (s.data.take (min a BUFF)).length = []
        · have : (s.data.take (min a BUFF)).length = s.data.length := by
            have := List.drop_eq_nil_iff.1 hd; omega
          rw [this] at hov
          rw [if_neg (fun h => h.1 hd), if_neg (by simp only [not_and]; intro _; exact hov)]
        · simp only [hd, hnil, ne_eq, not_false_eq_true, true_and]

theorem readLineOpt_found (cfg : Cfg) (check opt : Bool) (s : Conn) (before rest : Bytes) (hc : Calm s.sched)
    (hd : s.data = before ++ 10 :: rest) (hb : (10 : UInt8) ∉ before) (hl : (check && over cfg.lineLimit (before.length + 1)) = false) :
    ∃ sc, Calm sc ∧ readLineOpt cfg check opt s = (.ok (stripCR before), ⟨rest, sc, s.out⟩) := by
  unfold readLineOpt
  rcases readLineLoop_found cfg check opt (s.data.length + 1) true [] s before rest hc hd hb (by rw [hd]; simp; omega) with
    ⟨sc, h1, -, h3⟩ | ⟨h, -⟩
  · exact ⟨sc, h1, by simpa using h3⟩
  · simp only [List.length_nil, Nat.zero_add] at h; rw [h] at hl; cases hl

/-- A line ended by CR LF. -/
theorem readLineOpt_crlf (cfg : Cfg) (opt : Bool) (s : Conn) (l rest : Bytes) (hc : Calm s.sched)
    (hd : s.data = l ++ (13 :: 10 :: rest)) (h10 : (10 : UInt8) ∉ l) (h13 : l.getLast? ≠ some 13) :
    ∃ sc, Calm sc ∧ readLineOpt cfg false opt s = (.ok l, ⟨rest, sc, s.out⟩) := by
  obtain ⟨sc, h1, h2⟩ := readLineOpt_found cfg false opt s (l ++ [13]) rest hc (by rw [hd]; simp) (by simp [h10]) rfl
  refine ⟨sc, h1, ?_⟩
  rw [h2]
  have : stripCR (l ++ [13]) = l := by
    unfold stripCR
    simp only [List.reverse_append, List.reverse_cons, List.reverse_nil, List.nil_append, List.singleton_append, List.dropWhile_cons]
    simp only [beq_self_eq_true, if_true]
    cases hr : l.reverse with
    | nil => have := congrArg List.reverse hr; simpa using this.symm
    | cons c r =>
      have hl : l = r.reverse ++ [c] := by have := congrArg List.reverse hr; simpa using this
      have hc13 : c ≠ 13 := by rintro rfl; apply h13; rw [hl]; simp
      simp [List.dropWhile_cons, hc13, hl]
  rw [this]

/-! ## Blocks -/

/-- Blocks: whatever happens, at most the announced number of bytes is delivered, and what is
delivered is a prefix of what the peer sent. -/
theorem readBlockLoop_bound (cfg : Cfg) : ∀ (f n : Nat) (s : Conn) (r : Except HErr Unit) (s' : Conn), 0 < n →
    readBlockLoop cfg f (some n) s = (r, s') →
    ∃ ps k, s'.out = s.out ++ ps ∧ k ≤ n ∧ s'.data = s.data.drop k ∧ ps.flatten <+: s.data.take k ∧
      (r = .ok () → k = n ∧ n ≤ s.data.length ∧ ps.flatten = s.data.take n) := by
  intro f
  induction f with
  | zero =>
    intro n s r s' hn h
    simp only [readBlockLoop, Prod.mk.injEq] at h
    obtain ⟨rfl, rfl⟩ := h
    exact ⟨[], 0, by simp, by omega, by simp, by simp, by simp⟩
  | succ f ih =>
    intro n s r s' hn h
    unfold readBlockLoop at h
    rcases poll_cases s with ⟨a, sc, h1, -, -⟩ | ⟨sc, h1, -⟩ | ⟨sc, h1, -⟩
    · rw [h1] at h
      simp only [Option.map_some, Option.some.injEq] at h
      have htr : (if n > BUFF then BUFF else n) ≤ n := by split <;> omega
      generalize (if n > BUFF then BUFF else n) = tr at h htr
      split at h
      · simp only [Prod.mk.injEq] at h
        obtain ⟨rfl, rfl⟩ := h
        exact ⟨[], 0, by simp, by omega, by simp, by simp, by simp⟩
      · next hne =>
        have hk : (s.data.take (min a tr)).length ≤ n := by simp; omega
        have hkl : (s.data.take (min a tr)).length ≤ s.data.length := by simp; omega
        have hpos : 0 < (s.data.take (min a tr)).length := List.length_pos_iff.2 hne
        have htt : s.data.take (s.data.take (min a tr)).length = s.data.take (min a tr) := by
          rw [List.length_take]
          rcases Nat.le_total (min a tr) s.data.length with hm | hm
          · rw [Nat.min_eq_left hm]
          · rw [Nat.min_eq_right hm, List.take_of_length_le hm, List.take_of_length_le (Nat.le_refl _)]
        split at h
        · simp only [Prod.mk.injEq] at h
          obtain ⟨rfl, rfl⟩ := h
          exact ⟨[], (s.data.take (min a tr)).length, by simp, hk, rfl, by simp, by simp⟩
        · unfold sinkWrite at h
          simp only at h
          generalize hbuf : s.data.take (min a tr) = buff at *
          split at h
          · next e st heq =>
            split at heq
            · simp only [Prod.mk.injEq, Except.error.injEq] at heq h
              obtain ⟨-, rfl⟩ := heq
              obtain ⟨rfl, rfl⟩ := h
              exact ⟨[buff], buff.length, by simp, hk, rfl, by simp [htt], by simp⟩
            · simp at heq
          · next st heq =>
            split at heq
            · simp at heq
            · simp only [Prod.mk.injEq, true_and] at heq
              subst heq
              by_cases hz : n - buff.length = 0
              · rw [if_pos hz] at h
                simp only [Prod.mk.injEq] at h
                obtain ⟨rfl, rfl⟩ := h
                have he : buff.length = n := by omega
                rw [he] at htt hkl
                exact ⟨[buff], n, by simp, by omega, by simp [he], by simp [htt], fun _ => ⟨rfl, hkl, by simp [htt]⟩⟩
              · rw [if_neg hz] at h
                obtain ⟨ps, k, e1, e2, e3, e4, e5⟩ := ih _ _ _ _ (by omega) h
                simp only at e1 e3 e4 e5
                have hsplit : ∀ m, s.data.take (buff.length + m) = buff ++ (s.data.drop buff.length).take m := by
                  intro m
                  rw [List.take_add, htt]
                refine ⟨buff :: ps, buff.length + k, by rw [e1]; simp, by omega, by rw [e3, List.drop_drop], ?_, ?_⟩
                · rw [hsplit]
                  simp only [List.flatten_cons]
                  exact List.prefix_append_right_inj _ |>.2 e4
                · intro hr
                  obtain ⟨g1, g2, g3⟩ := e5 hr
                  simp only [List.length_drop] at g2
                  refine ⟨by omega, by omega, ?_⟩
                  have : n = buff.length + (n - buff.length) := by omega
                  rw [this, hsplit]
                  simp [g3]
    · rw [h1] at h
      simp only [Prod.mk.injEq] at h
      obtain ⟨rfl, rfl⟩ := h
      exact ⟨[], 0, by simp, by omega, by simp, by simp, by simp⟩
    · rw [h1] at h
      simp only [Prod.mk.injEq] at h
      obtain ⟨rfl, rfl⟩ := h
      exact ⟨[], 0, by simp, by omega, by simp, by simp, by simp⟩

/-- The limit allows the amount. -/
def Fits (cfg : Cfg) (n : Nat) : Prop := cfg.bodyLimit < 0 ∨ ((n : Int) ≤ cfg.bodyLimit ∧ cfg.bodyLimit < 2 ^ 31)

theorem Fits.not_over {cfg n} (h : Fits cfg n) {m : Nat} (hm : m ≤ n) : over cfg.bodyLimit m = false := by
  unfold over
  rcases h with h | h
  · have : ¬ (0 ≤ cfg.bodyLimit) := by omega
    simp [this]
  · have : ¬ ((m : Int) > cfg.bodyLimit) := by omega
    simp [this]

theorem Fits.written {cfg n} (h : Fits cfg n) {s : Conn} (hm : s.out.flatten.length ≤ n) : over cfg.bodyLimit s.written = false := by
  have : s.written ≤ s.out.flatten.length := Nat.mod_le _ _
  exact h.not_over (by omega)

/-- Under a calm schedule with a sink that takes everything, a block that is there is read. -/
theorem readBlockLoop_found (cfg : Cfg) (T : Bytes) (good : Bytes → Prop) (hgood : ∀ p, p ≠ [] → good p) (hsink : ∀ l : List Bytes, (∀ p ∈ l, good p) → l.flatten <+: T → cfg.sink l = none) : ∀ (f n : Nat) (s : Conn), 0 < n → Calm s.sched →
    n ≤ s.data.length → s.data.length < f → Fits cfg (s.out.flatten.length + n) →
    s.out.flatten ++ s.data.take n <+: T → (∀ p ∈ s.out, good p) →
    ∃ ps sc, Calm sc ∧ ps.flatten = s.data.take n ∧ (∀ p ∈ ps, p ≠ []) ∧ readBlockLoop cfg f (some n) s = (.ok (), ⟨s.data.drop n, sc, s.out ++ ps⟩) := by
  intro f
  induction f with
  | zero => intro n s _ _ _ h; omega
  | succ f ih =>
    intro n s hn hc hd hf hfit hT hout
    obtain ⟨a, sc, h1, h2, h3⟩ := hc.poll
    have ha : 0 < a := by
      rcases h3 with h3 | h3
      · exact h3
      · rw [h3] at hd; simp at hd; omega
    unfold readBlockLoop
    rw [h1]
    simp only [Option.map_some, Option.some.injEq]
    have htr : (if n > BUFF then BUFF else n) ≤ n ∧ 0 < (if n > BUFF then BUFF else n) := by unfold BUFF; split <;> omega
    generalize (if n > BUFF then BUFF else n) = tr at htr
    have hlen : (s.data.take (min a tr)).length = min a tr := by simp; omega
    have hne : s.data.take (min a tr) ≠ [] := by
      intro h; rw [h] at hlen; simp at hlen; omega
    rw [if_neg hne]
    have hbuf : ∀ m, s.data.take (min a tr + m) = s.data.take (min a tr) ++ (s.data.drop (min a tr)).take m := by
      intro m; rw [List.take_add]
    rw [if_neg (by rw [hfit.written (by simp)]; decide)]
    have hpre : (s.out ++ [s.data.take (min a tr)]).flatten <+: s.out.flatten ++ s.data.take n := by
      obtain ⟨k, hk⟩ : ∃ k, n = min a tr + k := ⟨n - min a tr, by omega⟩
      refine ⟨(s.data.drop (min a tr)).take k, ?_⟩
      rw [hk, hbuf]; simp
    have hout1 : ∀ p ∈ s.out ++ [s.data.take (min a tr)], good p := by
      intro p hp
      rcases List.mem_append.1 hp with hp | hp
      · exact hout p hp
      · rw [List.mem_singleton.1 hp]; exact hgood _ hne
    have hs1 := hsink (s.out ++ [s.data.take (min a tr)]) hout1 (hpre.trans hT)
    simp only [sinkWrite, hs1, hlen]
    by_cases hz : n - min a tr = 0
    · rw [if_pos hz]
      have : min a tr = n := by omega
      refine ⟨[s.data.take (min a tr)], sc, h2, by simp [this], by simpa using hne, by rw [this]⟩
    · rw [if_neg hz]
      obtain ⟨ps, sc', g1, g2, gne, g3⟩ := ih (n - min a tr) ⟨s.data.drop (min a tr), sc, s.out ++ [s.data.take (min a tr)]⟩ (by omega) h2
        (by simp; omega) (by simp; omega)
        (by
          have : (s.out ++ [s.data.take (min a tr)]).flatten.length + (n - min a tr) = s.out.flatten.length + n := by
            simp only [List.flatten_append, List.length_append, List.flatten_cons, List.flatten_nil, List.append_nil, hlen]; omega
          rw [this]; exact hfit)
        (by
          have e : n = min a tr + (n - min a tr) := by omega
          have : (s.out ++ [s.data.take (min a tr)]).flatten ++ (s.data.drop (min a tr)).take (n - min a tr) = s.out.flatten ++ s.data.take n := by
            conv => rhs; rw [e, hbuf]
            simp
          simp only
          rw [this]; exact hT) hout1
      refine ⟨s.data.take (min a tr) :: ps, sc', g1, ?_, List.forall_mem_cons.2 ⟨hne, gne⟩, ?_⟩
      · have e : n = min a tr + (n - min a tr) := by omega
        conv => rhs; rw [e, hbuf]
        simp [g2]
      · rw [g3]
        simp only [List.drop_drop, List.append_assoc, List.singleton_append]
        congr 3
        omega

theorem readBlockLoop_closed (cfg : Cfg) (hsink : ∀ l, cfg.sink l = none) : ∀ (f n : Nat) (s : Conn), Calm s.sched →
    s.data.length < n → s.data.length < f → Fits cfg (s.out.flatten.length + n) →
    ∃ ps sc, ps.flatten = s.data ∧ readBlockLoop cfg f (some n) s = (.error .closed, ⟨[], sc, s.out ++ ps⟩) := by
  intro f
  induction f with
  | zero => intro n s _ _ h; omega
  | succ f ih =>
    intro n s hc hd hf hfit
    obtain ⟨a, sc, h1, h2, h3⟩ := hc.poll
    unfold readBlockLoop
    rw [h1]
    simp only [Option.map_some, Option.some.injEq]
    have htr : (if n > BUFF then BUFF else n) ≤ n ∧ 0 < (if n > BUFF then BUFF else n) := by unfold BUFF; split <;> omega
    generalize (if n > BUFF then BUFF else n) = tr at htr
    by_cases hnil : s.data = []
    · exact ⟨[], sc, by simp [hnil], by simp [hnil]⟩
    · have ha : 0 < a := by
        rcases h3 with h3 | h3
        · exact h3
        · exact absurd h3 hnil
      have hdl : 0 < s.data.length := List.length_pos_iff.2 hnil
      have hne : s.data.take (min a tr) ≠ [] := by
        intro h; rw [List.take_eq_nil_iff] at h; rcases h with h | h
        · omega
        · exact hnil h
      have hpos : 0 < (s.data.take (min a tr)).length := List.length_pos_iff.2 hne
      have hle : (s.data.take (min a tr)).length ≤ s.data.length := by simp; omega
      rw [if_neg hne]
      rw [if_neg (by rw [hfit.written (by simp)]; decide)]
      simp only [sinkWrite, hsink]
      rw [if_neg (by omega)]
      obtain ⟨ps, sc', g2, g3⟩ := ih (n - (s.data.take (min a tr)).length) ⟨s.data.drop (s.data.take (min a tr)).length, sc, s.out ++ [s.data.take (min a tr)]⟩ h2
        (by simp only [List.length_drop]; omega) (by simp only [List.length_drop]; omega)
        (by
          have : (s.out ++ [s.data.take (min a tr)]).flatten.length + (n - (s.data.take (min a tr)).length) = s.out.flatten.length + n := by
            simp only [List.flatten_append, List.length_append, List.flatten_cons, List.flatten_nil, List.append_nil]; omega
          rw [this]; exact hfit)
      refine ⟨s.data.take (min a tr) :: ps, sc', ?_, ?_⟩
      · simp only [List.flatten_cons, g2, drop_take_length, List.take_append_drop]
      · rw [g3]; simp

end HttpIO
end Frpc
