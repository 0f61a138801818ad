import Verif.Model.Netcat
import Verif.Props.Url
/-! # The console: scripts (C136) and addresses (C137) -/
namespace Frpc
open Netcat

/-! ## Specification -/

/-- A line asks for something: an expression is the line itself, or the line less an asterisk at its end; a statement follows an exclamation mark; the other things are asked for by the commands of these
names (a question for help also by `-h` at the end). -/
def Spec.Netcat.Asks (text : Bytes) : Did → Prop
  | .eval e star => e ≠ [] ∧ clean text = e ++ (if star then asc "*" else [])
  | .exec code => ∃ c, (clean text = asc "!" ++ c ∨ clean text = asc "!" ++ c ++ asc "*") ∧ code = strip c
  | .connect .. => (split (clean text)).head? = some (asc "connect")
  | .connectdb .. => (split (clean text)).head? = some (asc "connectdb")
  | .imported m => split (clean text) = [asc "import", m]
  | .shell => clean text = asc "shell"
  | .spawn args => split (clean text) = asc "exec" :: args
  | .methodHelp n => split (clean text) = [asc "?", n] ∨ split (clean text) = [asc "help", n] ∨
      (∃ w ws flag, split (clean text) = w :: ws ++ [flag] ∧ flag ∈ [asc "-h", asc "--help"] ∧ n = w.takeWhile (fun x => x != 40))
  | .pythonHelp n => split (clean text) = [asc "??", n]

/-- What was done, one by one, was asked for by lines of the script in this order. -/
inductive Spec.Netcat.InOrder : List Input → List Did → Prop
  | nil : InOrder [] []
  | skip (i : Input) {is ds} : InOrder is ds → InOrder (i :: is) ds
  | take (t : Bytes) (d : Did) {is ds} : Spec.Netcat.Asks t d → InOrder is ds → InOrder (.line t :: is) (d :: ds)

open Spec.Netcat

namespace Netcat

theorem split_ne (s : Bytes) : split s ≠ [] := by
  cases s with
  | nil => simp [split]
  | cons c s =>
    unfold split
    split
    · simp
    · split <;> simp

theorem split_one {s w : Bytes} (h : split s = [w]) : s = w := by
  induction s generalizing w with
  | nil => simpa [split] using h
  | cons c s ih =>
    unfold split at h
    split at h
    · next hc => simp only [List.cons.injEq] at h; exact absurd h.2 (split_ne s)
    · split at h
      · next e => exact absurd e (split_ne s)
      · next w' ws e =>
        simp only [List.cons.injEq] at h
        obtain ⟨rfl, rfl⟩ := h
        rw [ih e]

theorem askHelp_cases (cmd : Bytes) : askHelp cmd = (cmd, split cmd) ∨ ∃ c, askHelp cmd = (asc "? " ++ c, [asc "?", c]) := by
  unfold askHelp
  simp only
  split
  · exact .inr ⟨_, rfl⟩
  · exact .inl rfl

theorem python_asks {cmd : Bytes} {d : Did} (h : python cmd = .did d) :
    (∃ e star, d = .eval e star ∧ e ≠ [] ∧ cmd = e ++ (if star then asc "*" else [])) ∨
    (∃ c, d = .exec (strip c) ∧ (cmd = asc "!" ++ c ∨ cmd = asc "!" ++ c ++ asc "*")) := by
  unfold python at h
  by_cases h0 : cmd = []
  · rw [if_pos h0] at h; cases h
  · rw [if_neg h0] at h
    simp only at h
    by_cases hs : cmd.getLast? = some 42
    · have he : cmd = cmd.dropLast ++ asc "*" := by
        obtain ⟨pre, hpre⟩ := List.getLast?_eq_some_iff.1 hs
        rw [hpre]; simp; rfl
      simp only [hs, decide_true, if_true] at h
      revert h
      generalize cmd.dropLast = p at he
      intro h
      cases p with
      | nil => cases h
      | cons x code =>
        simp only at h
        by_cases hx : x = 33
        · rw [if_pos hx] at h
          cases h
          exact .inr ⟨code, rfl, .inr (by rw [he, hx]; rfl)⟩
        · rw [if_neg hx] at h
          cases h
          exact .inl ⟨_, true, rfl, by simp, he⟩
    · simp only [hs, decide_false, Bool.false_eq_true, if_false] at h
      cases cmd with
      | nil => cases h
      | cons x code =>
        simp only at h
        by_cases hx : x = 33
        · rw [if_pos hx] at h
          cases h
          exact .inr ⟨code, rfl, .inl (by rw [hx]; rfl)⟩
        · rw [if_neg hx] at h
          cases h
          exact .inl ⟨_, false, rfl, by simp, by simp⟩

theorem help_act (W : World) (s : Settings) (c : Bytes) : actOf W s (asc "? " ++ c) [asc "?", c] = .did (.methodHelp c) := by
  have hq : asc "? " = [63, 32] := by decide
  have e1 : asc "? " ++ c ≠ asc "exit" := by rw [hq]; intro h; have := congrArg List.head? h; revert this; simp; decide
  have e2 : asc "? " ++ c ≠ asc "quit" := by rw [hq]; intro h; have := congrArg List.head? h; revert this; simp; decide
  show commandOf W s (asc "? " ++ c) (asc "?") c [asc "?", c] = _
  unfold commandOf
  rw [if_neg (fun h => absurd h.1 (by decide)), if_neg (by decide), if_neg (fun h => h.elim e1 e2), if_neg (by decide), if_neg (by decide), if_neg (by decide), if_neg (fun h => absurd h.1 (by decide)), if_neg (fun h => absurd h.1 (by decide)), if_neg (fun h => absurd h.1 (by decide)), if_neg (fun h => absurd h.1 (by decide)), if_neg (fun h => absurd h.1 (by decide)), if_neg (by decide), if_neg (by decide), if_neg (by decide), if_pos (by decide), if_pos (show [asc "?", c].length = 2 from rfl), if_neg (by decide)]

theorem head_of_headD {l : List Bytes} (hne : l ≠ []) {x : Bytes} (h : l.headD [] = x) : l.head? = some x := by
  cases l with
  | nil => exact absurd rfl hne
  | cons a l => simpa using h

theorem two_parts {l : List Bytes} (h : l.length = 2) : l = [l.headD [], l.getD 1 []] := by
  match l, h with
  | [a, b], _ => rfl

theorem one_part {l : List Bytes} (h : l.length = 1) : l = [l.headD []] := by
  match l, h with
  | [a], _ => rfl

theorem connect_did {W : World} {db : Bool} {t : Int} {ps : List Bytes} {d : Did} (h : connect W db t ps = .did d) :
    (db = true ∧ ∃ a b c e n, d = .connectdb a b c e n) ∨ (db = false ∧ ∃ a b c, d = .connect a b c) := by
  have hdb : ∀ n ps, connectDb n ps = .did d → ∃ a b c e n, d = .connectdb a b c e n := by
    intro n ps h
    unfold connectDb at h
    split at h
    · cases h
    · split at h
      · cases h; exact ⟨_, _, _, _, _, rfl⟩
      · cases h
  have hr : ∀ n ps, connectRpc t n ps = .did d → ∃ a b c, d = .connect a b c := by
    intro n ps h
    unfold connectRpc at h
    split at h
    · cases h; exact ⟨_, _, _, rfl⟩
    · cases h
  unfold connect at h
  split at h
  · cases h
  · cases db with
    | true =>
      simp only [if_true] at h
      split at h
      · exact .inl ⟨rfl, hdb _ _ h⟩
      · exact .inl ⟨rfl, hdb _ _ h⟩
    | false =>
      simp only [Bool.false_eq_true, if_false] at h
      split at h
      · exact .inr ⟨rfl, hr _ _ h⟩
      · exact .inr ⟨rfl, hr _ _ h⟩

theorem connectDb_unnamed {n : Option Bytes} {ps : List Bytes} {server : Bytes} : connectDb n ps ≠ .unnamed server := by
  unfold connectDb
  split
  · exact fun h => (by cases h)
  · split <;> exact fun h => (by cases h)

theorem act_asks (W : World) (s : Settings) (text : Bytes) :
    (∀ d, actOf W s (askHelp (clean text)).1 (askHelp (clean text)).2 = .did d → Asks text d) ∧
    (∀ server, actOf W s (askHelp (clean text)).1 (askHelp (clean text)).2 = .unnamed server → (split (clean text)).head? = some (asc "connect")) := by
  by_cases hh : (split (clean text)).length > 1 ∧ ((split (clean text)).getLast? = some (asc "-h") ∨ (split (clean text)).getLast? = some (asc "--help"))
  · have e : askHelp (clean text) = (asc "? " ++ ((split (clean text)).headD []).takeWhile (fun x => x != 40), [asc "?", ((split (clean text)).headD []).takeWhile (fun x => x != 40)]) := by
      unfold askHelp
      exact if_pos hh
    rw [e, help_act]
    refine ⟨fun d hd => ?_, fun server h => (by cases h)⟩
    cases hd
    refine .inr (.inr ?_)
    obtain ⟨h1, h2⟩ := hh
    have : ∃ flag, flag ∈ [asc "-h", asc "--help"] ∧ (split (clean text)).getLast? = some flag := by
      rcases h2 with h2 | h2
      · exact ⟨_, by simp, h2⟩
      · exact ⟨_, by simp, h2⟩
    obtain ⟨flag, hf, hl⟩ := this
    obtain ⟨pre, hpre⟩ := List.getLast?_eq_some_iff.1 hl
    cases pre with
    | nil => rw [hpre] at h1; simp at h1
    | cons w ws => exact ⟨w, ws, flag, hpre, hf, by rw [hpre]; rfl⟩
  · have e : askHelp (clean text) = (clean text, split (clean text)) := by
      unfold askHelp
      exact if_neg hh
    rw [e]
    have hne := split_ne (clean text)
    simp only
    have key : ∀ a, actOf W s (clean text) (split (clean text)) = a → (∀ d, a = .did d → Asks text d) ∧ (∀ server, a = .unnamed server → (split (clean text)).head? = some (asc "connect")) := by
      intro a h
      unfold actOf commandOf at h
      by_cases c1 : (split (clean text)).headD [] = asc "connectdb" ∧ W.mysql = false
      · rw [if_pos c1] at h; subst h; exact ⟨fun d hd => (by cases hd), fun d hd => (by cases hd)⟩
      rw [if_neg c1] at h
      by_cases c2 : ((split (clean text)).headD []).head? = some 35
      · rw [if_pos c2] at h; subst h; exact ⟨fun d hd => (by cases hd), fun d hd => (by cases hd)⟩
      rw [if_neg c2] at h
      by_cases c3 : clean text = asc "exit" ∨ clean text = asc "quit"
      · rw [if_pos c3] at h; subst h; exact ⟨fun d hd => (by cases hd), fun d hd => (by cases hd)⟩
      rw [if_neg c3] at h
      by_cases c4 : (split (clean text)).headD [] = asc "license"
      · rw [if_pos c4] at h; subst h; exact ⟨fun d hd => (by cases hd), fun d hd => (by cases hd)⟩
      rw [if_neg c4] at h
      by_cases c5 : (split (clean text)).headD [] = asc "connect"
      · rw [if_pos c5] at h
        have hc := c5
        refine ⟨fun d hd => ?_, fun d hd => head_of_headD hne hc⟩
        subst h
        rcases connect_did hd with ⟨h1, _⟩ | ⟨_, a, b, c, rfl⟩
        · cases h1
        · exact head_of_headD hne hc
      rw [if_neg c5] at h
      by_cases c6 : (split (clean text)).headD [] = asc "connectdb"
      · rw [if_pos c6] at h
        have hc := c6
        refine ⟨fun d hd => ?_, fun d hd => ?_⟩
        · subst h
          rcases connect_did hd with ⟨_, a, b, c, e, n, rfl⟩ | ⟨h1, _⟩
          · exact head_of_headD hne hc
          · cases h1
        · subst h
          unfold connect at hd
          simp only [if_true] at hd
          split at hd
          · cases hd
          · split at hd
            · exact absurd hd connectDb_unnamed
            · exact absurd hd connectDb_unnamed
      rw [if_neg c6] at h
      by_cases c7 : (split (clean text)).headD [] = asc "charset" ∧ (split (clean text)).length = 2
      · rw [if_pos c7] at h; subst h; exact ⟨fun d hd => (by cases hd), fun d hd => (by cases hd)⟩
      rw [if_neg c7] at h
      by_cases c8 : (split (clean text)).headD [] = asc "name" ∧ (split (clean text)).length = 2
      · rw [if_pos c8] at h; subst h; exact ⟨fun d hd => (by cases hd), fun d hd => (by cases hd)⟩
      rw [if_neg c8] at h
      by_cases c9 : (split (clean text)).headD [] = asc "autocommit" ∧ (split (clean text)).length = 2
      · rw [if_pos c9] at h; unfold setFlag at h; split at h <;> subst h <;> exact ⟨fun d hd => (by cases hd), fun d hd => (by cases hd)⟩
      rw [if_neg c9] at h
      by_cases c10 : (split (clean text)).headD [] = asc "autosort" ∧ (split (clean text)).length = 2
      · rw [if_pos c10] at h; unfold setFlag at h; split at h <;> subst h <;> exact ⟨fun d hd => (by cases hd), fun d hd => (by cases hd)⟩
      rw [if_neg c10] at h
      by_cases c11 : (split (clean text)).headD [] = asc "timeout" ∧ (split (clean text)).length = 2
      · rw [if_pos c11] at h; unfold setTimeout at h; split at h <;> subst h <;> exact ⟨fun d hd => (by cases hd), fun d hd => (by cases hd)⟩
      rw [if_neg c11] at h
      by_cases c12 : (split (clean text)).headD [] = asc "import"
      · rw [if_pos c12] at h
        have hc := c12
        split at h
        · next hl =>
          subst h
          refine ⟨fun d hd => ?_, fun d hd => (by cases hd)⟩
          cases hd
          have := two_parts hl
          rw [hc] at this
          exact this
        · subst h; exact ⟨fun d hd => (by cases hd), fun d hd => (by cases hd)⟩
      rw [if_neg c12] at h
      by_cases c13 : (split (clean text)).headD [] = asc "shell"
      · rw [if_pos c13] at h
        have hc := c13
        split at h
        · next hl =>
          subst h
          refine ⟨fun d hd => ?_, fun d hd => (by cases hd)⟩
          cases hd
          have := one_part hl
          rw [hc] at this
          exact split_one this
        · subst h; exact ⟨fun d hd => (by cases hd), fun d hd => (by cases hd)⟩
      rw [if_neg c13] at h
      by_cases c14 : (split (clean text)).headD [] = asc "exec"
      · rw [if_pos c14] at h
        have hc := c14
        split at h
        · next hl =>
          subst h
          refine ⟨fun d hd => ?_, fun d hd => (by cases hd)⟩
          cases hd
          show split (clean text) = asc "exec" :: (split (clean text)).drop 1
          revert hc hne
          generalize split (clean text) = l
          intro hne hc
          cases l with
          | nil => exact absurd rfl hne
          | cons a l => simp only [List.headD_cons] at hc; rw [hc]; rfl
        · subst h; exact ⟨fun d hd => (by cases hd), fun d hd => (by cases hd)⟩
      rw [if_neg c14] at h
      by_cases c15 : (split (clean text)).headD [] = asc "?" ∨ (split (clean text)).headD [] = asc "??" ∨ (split (clean text)).headD [] = asc "help"
      · rw [if_pos c15] at h
        have hc := c15
        split at h
        · next hl =>
          have ht := two_parts hl
          split at h
          · next hq =>
            subst h
            refine ⟨fun d hd => ?_, fun d hd => (by cases hd)⟩
            cases hd
            rw [hq] at ht
            exact ht
          · next hq =>
            subst h
            refine ⟨fun d hd => ?_, fun d hd => (by cases hd)⟩
            cases hd
            rcases hc with hc | hc | hc
            · rw [hc] at ht; exact .inl ht
            · exact absurd hc hq
            · rw [hc] at ht; exact .inr (.inl ht)
        · subst h; exact ⟨fun d hd => (by cases hd), fun d hd => (by cases hd)⟩
      rw [if_neg c15] at h
      · refine ⟨fun d hd => ?_, fun d hd => ?_⟩
        · subst h
          rcases python_asks hd with ⟨e, star, rfl, h1, h2⟩ | ⟨c, rfl, h1⟩
          · exact ⟨h1, h2⟩
          · exact ⟨c, h1, rfl⟩
        · subst h
          unfold python at hd
          simp only at hd
          split at hd
          · cases hd
          · split at hd
            · cases hd
            · split at hd <;> cases hd
    exact ⟨fun d hd => (key _ hd).1 d rfl, fun d hd => (key _ hd).2 d rfl⟩

/-- What a line does: at most one thing, which it asks for. -/
theorem step_asks (W : World) (tty : Bool) (s : State) (t : Bytes) :
    ((step W tty s t).1.done = s.done ∨ ∃ d, (step W tty s t).1.done = s.done ++ [d] ∧ Asks t d) ∧ (step W tty s t).1.line = s.line + 1 := by
  have h := act_asks W s.settings t
  have hf : ∀ s' : State, (failed tty s').1 = s' := fun _ => rfl
  have hc : ∀ s' : State, (ctrlC tty s').1.done = s'.done ∧ (ctrlC tty s').1.line = s'.line := by
    intro s'; unfold ctrlC; split
    · split <;> exact ⟨rfl, rfl⟩
    · exact ⟨rfl, rfl⟩
  have hp : ∀ (s' : State) d n, (perform W tty s' d n).1.done = s'.done ++ [d] ∧ (perform W tty s' d n).1.line = s'.line := by
    intro s' d n
    unfold perform
    simp only
    split
    · exact ⟨rfl, rfl⟩
    · exact ⟨rfl, rfl⟩
    · exact hc _
    · exact ⟨rfl, rfl⟩
    · exact ⟨rfl, rfl⟩
  unfold step
  simp only
  revert h
  generalize actOf W s.settings (askHelp (clean t)).1 (askHelp (clean t)).2 = a
  intro h
  cases a with
  | nothing => exact ⟨.inl rfl, rfl⟩
  | quit => exact ⟨.inl rfl, rfl⟩
  | set x => exact ⟨.inl rfl, rfl⟩
  | badValue => exact ⟨.inl rfl, rfl⟩
  | raised => exact ⟨.inl rfl, rfl⟩
  | did d => exact ⟨.inr ⟨d, (hp _ _ _).1, h.1 d rfl⟩, (hp _ _ _).2⟩
  | unnamed server => exact ⟨.inr ⟨_, (hp _ _ _).1, h.2 server rfl⟩, (hp _ _ _).2⟩

theorem ctrlC_same (tty : Bool) (s : State) : (ctrlC tty s).1.done = s.done ∧ (ctrlC tty s).1.line = s.line := by
  unfold ctrlC; split
  · split <;> exact ⟨rfl, rfl⟩
  · exact ⟨rfl, rfl⟩

theorem inOrder_nothing : ∀ is : List Input, InOrder is []
  | [] => .nil
  | i :: is => .skip i (inOrder_nothing is)

/-- How a line of a script ends the program, if it does. -/
theorem step_ends (W : World) (s : State) (t : Bytes) (e : End) (h : (step W false s t).2 = some e) :
    e = ⟨0, none⟩ ∨ e = ⟨255, some (s.line + 1)⟩ ∨ ∃ d k, e = ⟨k, none⟩ ∧ (step W false s t).1.done = s.done ++ [d] ∧ W.outcome s.done d = .exits k := by
  have hp : ∀ (s' : State) d n, s'.done = s.done → s'.line = s.line + 1 → (perform W false s' d n).2 = some e →
      e = ⟨0, none⟩ ∨ e = ⟨255, some (s.line + 1)⟩ ∨ ∃ d' k, e = ⟨k, none⟩ ∧ (perform W false s' d n).1.done = s.done ++ [d'] ∧ W.outcome s.done d' = .exits k := by
    intro s' d n h1 h2 h3
    unfold perform at h3 ⊢
    simp only at h3 ⊢
    rw [h1] at h3 ⊢
    cases ho : W.outcome s.done d with
    | ok => rw [ho] at h3; cases h3
    | failed => rw [ho] at h3; simp only [failed, Bool.false_eq_true, if_false, Option.some.injEq] at h3; rw [h2] at h3; exact .inr (.inl h3.symm)
    | interrupt => rw [ho] at h3; simp only [ctrlC, Bool.false_eq_true, if_false, Option.some.injEq] at h3; rw [h2] at h3; exact .inr (.inl h3.symm)
    | eof => rw [ho] at h3; simp only [Option.some.injEq] at h3; exact .inl h3.symm
    | exits k => rw [ho] at h3; simp only [Option.some.injEq] at h3; exact .inr (.inr ⟨d, k, h3.symm, rfl, ho⟩)
  unfold step at h ⊢
  simp only at h ⊢
  revert h
  generalize actOf W s.settings (askHelp (clean t)).1 (askHelp (clean t)).2 = a
  intro h
  cases a with
  | nothing => cases h
  | quit => simp only [Option.some.injEq] at h; exact .inl h.symm
  | set x => cases h
  | badValue => simp only [failed, Bool.false_eq_true, if_false, Option.some.injEq] at h; exact .inr (.inl h.symm)
  | raised => simp only [failed, Bool.false_eq_true, if_false, Option.some.injEq] at h; exact .inr (.inl h.symm)
  | did d => exact hp _ _ _ rfl rfl h
  | unnamed server => exact hp _ _ _ rfl rfl h

/-- A line that does not end a script has succeeded in what it did; one that ends it with status 0 too, except that Python met the end of the input or was told to exit. -/
theorem step_success (W : World) (s : State) (t : Bytes) (d : Did) (hd : (step W false s t).1.done = s.done ++ [d]) :
    ((step W false s t).2 = none → W.outcome s.done d = .ok) ∧
    ((step W false s t).2 = some ⟨0, none⟩ → W.outcome s.done d = .eof ∨ W.outcome s.done d = .exits 0) := by
  have hp : ∀ (s' : State) d' n, s'.done = s.done → (perform W false s' d' n).1.done = s.done ++ [d] →
      ((perform W false s' d' n).2 = none → W.outcome s.done d = .ok) ∧
      ((perform W false s' d' n).2 = some ⟨0, none⟩ → W.outcome s.done d = .eof ∨ W.outcome s.done d = .exits 0) := by
    intro s' d' n h1 h2
    unfold perform at h2 ⊢
    simp only [h1] at h2 ⊢
    cases ho : W.outcome s.done d' with
    | ok => rw [ho] at h2; simp only [List.append_cancel_left_eq, List.cons.injEq, and_true] at h2; subst h2; exact ⟨fun _ => ho, fun h => (by cases h)⟩
    | failed => exact ⟨fun h => (by cases h), fun h => (by cases h)⟩
    | interrupt => exact ⟨fun h => (by cases h), fun h => (by cases h)⟩
    | eof => rw [ho] at h2; simp only [List.append_cancel_left_eq, List.cons.injEq, and_true] at h2; subst h2; exact ⟨fun h => (by cases h), fun _ => .inl ho⟩
    | exits k =>
      rw [ho] at h2; simp only [List.append_cancel_left_eq, List.cons.injEq, and_true] at h2; subst h2
      refine ⟨fun h => (by cases h), fun h => ?_⟩
      simp only [Option.some.injEq, End.mk.injEq, and_true] at h
      subst h
      exact .inr ho
  unfold step at hd ⊢
  simp only at hd ⊢
  revert hd
  generalize actOf W s.settings (askHelp (clean t)).1 (askHelp (clean t)).2 = a
  intro hd
  cases a with
  | did d' => exact hp _ _ _ rfl hd
  | unnamed server => exact hp _ _ _ rfl hd
  | nothing => exact absurd (congrArg List.length hd) (by simp)
  | quit => exact absurd (congrArg List.length hd) (by simp)
  | set x => exact absurd (congrArg List.length hd) (by simp)
  | badValue => exact absurd (congrArg List.length hd) (by simp [failed])
  | raised => exact absurd (congrArg List.length hd) (by simp [failed])

end Netcat

/-! ## C136 -/

/-- **C136 (order).** Whatever is done is asked for by a line, each line asking for one thing at most, and in the order of the lines: nothing is done twice and nothing that no line asks for. -/
theorem C136_order (W : World) (tty : Bool) (s : State) (is : List Input) : ∃ ds, (run W tty s is).1.done = s.done ++ ds ∧ InOrder is ds := by
  induction is generalizing s with
  | nil => exact ⟨[], by simp [run], .nil⟩
  | cons i is ih =>
    unfold run
    cases i with
    | ctrlC =>
      obtain ⟨hd, -⟩ := ctrlC_same tty s
      show ∃ ds, (match ctrlC tty s with | (s, none) => run W tty s is | (s, some e) => (s, e)).1.done = s.done ++ ds ∧ InOrder (.ctrlC :: is) ds
      revert hd
      generalize ctrlC tty s = r
      obtain ⟨s', o⟩ := r
      intro hd
      cases o with
      | some e => exact ⟨[], by simpa using hd, inOrder_nothing _⟩
      | none =>
        obtain ⟨ds, h1, h2⟩ := ih s'
        exact ⟨ds, by rw [← show s'.done = s.done from hd]; exact h1, .skip _ h2⟩
    | line t =>
      obtain ⟨hd, -⟩ := step_asks W tty s t
      show ∃ ds, (match step W tty s t with | (s, none) => run W tty s is | (s, some e) => (s, e)).1.done = s.done ++ ds ∧ InOrder (.line t :: is) ds
      revert hd
      generalize step W tty s t = r
      obtain ⟨s', o⟩ := r
      intro hd
      rcases hd with hd | ⟨d, hd, ha⟩
      · cases o with
        | some e => exact ⟨[], by simpa using hd, inOrder_nothing _⟩
        | none =>
          obtain ⟨ds, h1, h2⟩ := ih s'
          exact ⟨ds, by rw [← show s'.done = s.done from hd]; exact h1, .skip _ h2⟩
      · cases o with
        | some e => exact ⟨[d], hd, .take t d ha (inOrder_nothing _)⟩
        | none =>
          obtain ⟨ds, h1, h2⟩ := ih s'
          refine ⟨d :: ds, ?_, .take t d ha h2⟩
          have hd : s'.done = s.done ++ [d] := hd
          show (run W tty s' is).1.done = _
          rw [h1, hd, List.append_assoc]
          rfl

/-- **C136 (a complaint).** A script that is ended by an error, with status 255, names the number of the line, and what comes after that line is not looked at: with anything else in its place the same would have been
done. -/
theorem C136_stops (W : World) (s : State) (ts : List Bytes) (st n : Nat) (h : (run W false s (ts.map .line)).2 = ⟨st, some n⟩) :
    st = 255 ∧ s.line < n ∧ n ≤ s.line + ts.length ∧
      ∀ us : List Input, run W false s ((ts.take (n - s.line)).map .line ++ us) = run W false s (ts.map .line) := by
  induction ts generalizing s with
  | nil => cases h
  | cons t ts ih =>
    have hl := (step_asks W false s t).2
    have he := step_ends W s t
    have hu : ∀ is, run W false s (.line t :: is) = match step W false s t with | (s, none) => run W false s is | (s, some e) => (s, e) := fun _ => rfl
    rw [List.map_cons, hu] at h
    revert h hl he hu
    generalize step W false s t = r
    obtain ⟨s', o⟩ := r
    intro h hl he hu
    simp only at hl
    cases o with
    | some e =>
      simp only at h
      rcases he e rfl with h1 | h1 | ⟨d, k, h1, _⟩
      · rw [h1] at h; cases h
      · rw [h1] at h
        simp only [End.mk.injEq, Option.some.injEq] at h
        obtain ⟨rfl, rfl⟩ := h
        refine ⟨rfl, by omega, by simp only [List.length_cons]; omega, fun us => ?_⟩
        have e1 : s.line + 1 - s.line = 1 := by omega
        rw [e1, List.map_cons, hu]
        simp only [List.take_succ_cons, List.take_zero, List.map_cons, List.map_nil, List.cons_append, List.nil_append]
        rw [hu]
      · rw [h1] at h; cases h
    | none =>
      simp only at h
      obtain ⟨h1, h2, h3, h4⟩ := ih s' h
      refine ⟨h1, by omega, by simp only [List.length_cons]; omega, fun us => ?_⟩
      have e1 : n - s.line = (n - s'.line) + 1 := by omega
      rw [e1, List.take_succ_cons, List.map_cons, List.map_cons, List.cons_append, hu, hu]
      exact h4 us

/-- **C136 (success).** A script whose status is 0 has succeeded: everything that was done succeeded, except that the last thing may have been a Python expression that ended the input or the program itself. -/
theorem C136_success (W : World) (s : State) (ts : List Bytes) (h : (run W false s (ts.map .line)).2.status = 0) :
    ∃ ds, (run W false s (ts.map .line)).1.done = s.done ++ ds ∧ ∀ k d, ds[k]? = some d → W.outcome (s.done ++ ds.take k) d = .ok ∨
      (k + 1 = ds.length ∧ (W.outcome (s.done ++ ds.take k) d = .eof ∨ W.outcome (s.done ++ ds.take k) d = .exits 0)) := by
  induction ts generalizing s with
  | nil => exact ⟨[], by simp [run], fun k d hk => by simp at hk⟩
  | cons t ts ih =>
    have hd := (step_asks W false s t).1
    have he := step_ends W s t
    have hs := step_success W s t
    have hu : ∀ is, run W false s (.line t :: is) = match step W false s t with | (s, none) => run W false s is | (s, some e) => (s, e) := fun _ => rfl
    rw [List.map_cons, hu] at h ⊢
    revert h hd he hs
    generalize step W false s t = r
    obtain ⟨s', o⟩ := r
    intro h hd he hs
    simp only at hd hs
    cases o with
    | some e =>
      have h : e.status = 0 := h
      have h0 : e = ⟨0, none⟩ := by
        rcases he e rfl with h1 | h1 | ⟨d, k, h1, _⟩
        · exact h1
        · rw [h1] at h; cases h
        · rw [h1] at h ⊢; simp only at h; rw [h]
      subst h0
      rcases hd with hd | ⟨d, hd, _⟩
      · exact ⟨[], by simpa using hd, fun k d hk => by simp at hk⟩
      · refine ⟨[d], hd, fun k d' hk => ?_⟩
        cases k with
        | succ k => simp at hk
        | zero =>
          simp only [List.getElem?_cons_zero, Option.some.injEq] at hk
          subst hk
          refine .inr ⟨rfl, ?_⟩
          simpa using (hs d hd).2 rfl
    | none =>
      obtain ⟨ds, h1, h2⟩ := ih s' h
      rcases hd with hd | ⟨d, hd, _⟩
      · rw [hd] at h1 h2
        exact ⟨ds, h1, h2⟩
      · rw [hd] at h1 h2
        refine ⟨d :: ds, by simpa using h1, fun k d' hk => ?_⟩
        cases k with
        | zero =>
          simp only [List.getElem?_cons_zero, Option.some.injEq] at hk
          subst hk
          exact .inl (by simpa using (hs d hd).1 rfl)
        | succ k =>
          simp only [List.getElem?_cons_succ] at hk
          have := h2 k d' hk
          simpa [List.append_assoc] using this


namespace Netcat

theorem actOf_quit (W : World) (s : Settings) (t : Bytes) (h : clean t = asc "exit" ∨ clean t = asc "quit") :
    actOf W s (askHelp (clean t)).1 (askHelp (clean t)).2 = .quit := by
  have hx : askHelp (asc "exit") = (asc "exit", [asc "exit"]) := by decide
  have hq : askHelp (asc "quit") = (asc "quit", [asc "quit"]) := by decide
  rcases h with h | h
  · rw [h, hx]
    show commandOf W s (asc "exit") (asc "exit") [] [asc "exit"] = _
    unfold commandOf
    rw [if_neg (fun h => absurd h.1 (by decide)), if_neg (by decide), if_pos (.inl rfl)]
  · rw [h, hq]
    show commandOf W s (asc "quit") (asc "quit") [] [asc "quit"] = _
    unfold commandOf
    rw [if_neg (fun h => absurd h.1 (by decide)), if_neg (by decide), if_pos (.inr rfl)]

theorem python_quit (c : Bytes) : python c ≠ .quit := by
  unfold python
  simp only
  split
  · nofun
  · split
    · nofun
    · split <;> nofun

theorem connect_quit (W : World) (db : Bool) (n : Int) (ps : List Bytes) : connect W db n ps ≠ .quit := by
  have h1 : ∀ o l, connectDb o l ≠ .quit := by
    intro o l; unfold connectDb
    split
    · nofun
    · split <;> nofun
  have h2 : ∀ o l, connectRpc n o l ≠ .quit := by
    intro o l; unfold connectRpc
    split <;> nofun
  unfold connect
  split
  · nofun
  · split
    · split
      · exact h1 _ _
      · exact h2 _ _
    · split
      · exact h1 _ _
      · exact h2 _ _

theorem setFlag_quit (v : Bytes) (f : Bool → Settings) : setFlag v f ≠ .quit := by
  unfold setFlag; split <;> nofun

theorem setTimeout_quit (W : World) (s : Settings) (v : Bytes) : setTimeout W s v ≠ .quit := by
  unfold setTimeout; split <;> nofun

theorem ite_quit {c : Prop} [Decidable c] {a b : Act} (ha : a ≠ .quit) (hb : b ≠ .quit) : (if c then a else b) ≠ .quit := by
  split
  · exact ha
  · exact hb

/-- Only these two words leave the console. -/
theorem quit_only (W : World) (s : Settings) (t : Bytes) (h : actOf W s (askHelp (clean t)).1 (askHelp (clean t)).2 = .quit) :
    clean t = asc "exit" ∨ clean t = asc "quit" := by
  rcases askHelp_cases (clean t) with e | ⟨c, e⟩
  · rw [e] at h
    unfold actOf commandOf at h
    simp only at h
    by_cases c1 : (split (clean t)).headD [] = asc "connectdb" ∧ W.mysql = false
    · rw [if_pos c1] at h; cases h
    rw [if_neg c1] at h
    by_cases c2 : ((split (clean t)).headD []).head? = some 35
    · rw [if_pos c2] at h; cases h
    rw [if_neg c2] at h
    by_cases c3 : clean t = asc "exit" ∨ clean t = asc "quit"
    · exact c3
    rw [if_neg c3] at h
    exfalso
    revert h
    repeat' (first | with_reducible exact connect_quit _ _ _ _ | with_reducible exact setFlag_quit _ _ | with_reducible exact setTimeout_quit _ _ _ | with_reducible exact python_quit _ | with_reducible refine ite_quit ?_ ?_ | (intro h; cases h; done))
  · rw [e] at h
    simp only [help_act] at h
    cases h

/-- A line on a terminal. -/
theorem step_terminal (W : World) (s : State) (t : Bytes) :
    (∀ e, (step W true s t).2 = some e → e.complains = none ∧ (((clean t = asc "exit" ∨ clean t = asc "quit") ∧ e.status = 0) ∨
      ∃ d, (step W true s t).1.done = s.done ++ [d] ∧ Asks t d ∧ ((W.outcome s.done d = .eof ∧ e.status = 0) ∨ W.outcome s.done d = .exits e.status))) ∧
    ((step W true s t).1.interrupted = true → ∃ d, (step W true s t).1.done = s.done ++ [d] ∧ W.outcome s.done d = .interrupt) := by
  have ha := act_asks W s.settings t
  have hq := quit_only W s.settings t
  have hp : ∀ (s' : State) d n, s'.done = s.done → s'.interrupted = false → Asks t d →
      (∀ e, (perform W true s' d n).2 = some e → e.complains = none ∧ (((clean t = asc "exit" ∨ clean t = asc "quit") ∧ e.status = 0) ∨
        ∃ d', (perform W true s' d n).1.done = s.done ++ [d'] ∧ Asks t d' ∧ ((W.outcome s.done d' = .eof ∧ e.status = 0) ∨ W.outcome s.done d' = .exits e.status))) ∧
      ((perform W true s' d n).1.interrupted = true → ∃ d', (perform W true s' d n).1.done = s.done ++ [d'] ∧ W.outcome s.done d' = .interrupt) := by
    intro s' d n h1 h2 h3
    unfold perform
    simp only
    rw [h1]
    cases ho : W.outcome s.done d with
    | ok => exact ⟨fun e he => (by cases he), fun hi => absurd (h2.symm.trans hi) (by decide)⟩
    | failed => exact ⟨fun e he => (by cases he), fun hi => absurd (h2.symm.trans hi) (by decide)⟩
    | interrupt =>
      simp only [ctrlC, h2, if_true, Bool.false_eq_true, if_false]
      exact ⟨fun e he => (by cases he), fun _ => ⟨d, rfl, ho⟩⟩
    | eof =>
      refine ⟨fun e he => ?_, fun hi => absurd (h2.symm.trans hi) (by decide)⟩
      cases he
      exact ⟨rfl, .inr ⟨d, rfl, h3, .inl ⟨ho, rfl⟩⟩⟩
    | exits k =>
      refine ⟨fun e he => ?_, fun hi => absurd (h2.symm.trans hi) (by decide)⟩
      cases he
      exact ⟨rfl, .inr ⟨d, rfl, h3, .inr ho⟩⟩
  unfold step
  simp only
  revert ha hq
  generalize actOf W s.settings (askHelp (clean t)).1 (askHelp (clean t)).2 = a
  intro ha hq
  cases a with
  | nothing => exact ⟨fun e he => (by cases he), fun hi => (by cases hi)⟩
  | quit => exact ⟨fun e he => (by cases he; exact ⟨rfl, .inl ⟨hq rfl, rfl⟩⟩), fun hi => (by cases hi)⟩
  | set x => exact ⟨fun e he => (by cases he), fun hi => (by cases hi)⟩
  | badValue => exact ⟨fun e he => (by cases he), fun hi => (by cases hi)⟩
  | raised => exact ⟨fun e he => (by cases he), fun hi => (by cases hi)⟩
  | did d => exact hp { s with line := s.line + 1, interrupted := false } d _ rfl rfl (ha.1 d rfl)
  | unnamed server => exact hp { s with line := s.line + 1, interrupted := false } _ _ rfl rfl (ha.2 server rfl)

end Netcat

/-- **C136 (a terminal).** On a terminal no error ends the session: it ends only at the end of the input, at a line `exit` or `quit`, at an expression that ends the input or the program itself, or at a Ctrl-C right after another one, which may have
interrupted the line before. -/
theorem C136_terminal (W : World) (s : State) (is : List Input) :
    (run W true s is).2.complains = none ∧
      ((∀ us, run W true s (is ++ us) = run W true (run W true s is).1 us) ∧ (run W true s is).2.status = 0 ∨
      ∃ pre i post, is = pre ++ i :: post ∧
        ((∃ t, i = .line t ∧ (clean t = asc "exit" ∨ clean t = asc "quit") ∧ (run W true s is).2.status = 0) ∨
         (∃ t d ds, i = .line t ∧ Asks t d ∧ (run W true s is).1.done = ds ++ [d] ∧
            ((W.outcome ds d = .eof ∧ (run W true s is).2.status = 0) ∨ W.outcome ds d = .exits (run W true s is).2.status)) ∨
         (i = .ctrlC ∧ (run W true s is).2.status = 0 ∧ ((pre = [] ∧ s.interrupted = true) ∨ pre.getLast? = some .ctrlC ∨
            ∃ t d ds, pre.getLast? = some (.line t) ∧ (run W true s is).1.done = ds ++ [d] ∧ W.outcome ds d = .interrupt)))) := by
  induction is generalizing s with
  | nil => exact ⟨rfl, .inl ⟨fun us => rfl, rfl⟩⟩
  | cons i is ih =>
    cases i with
    | ctrlC =>
      by_cases hi : s.interrupted = true
      · have hr : ∀ us, run W true s (.ctrlC :: us) = (s, ⟨0, none⟩) := by intro us; simp [run, input, ctrlC, hi]
        rw [hr]
        exact ⟨rfl, .inr ⟨[], _, is, rfl, .inr (.inr ⟨rfl, rfl, .inl ⟨rfl, hi⟩⟩)⟩⟩
      · have hr : ∀ us, run W true s (.ctrlC :: us) = run W true { s with interrupted := true } us := by intro us; simp [run, input, ctrlC, hi]
        rw [hr]
        obtain ⟨h1, h2⟩ := ih { s with interrupted := true }
        refine ⟨h1, ?_⟩
        rcases h2 with ⟨h2, h3⟩ | ⟨pre, i, post, he, h⟩
        · exact .inl ⟨fun us => by rw [List.cons_append, hr]; exact h2 us, h3⟩
        · refine .inr ⟨.ctrlC :: pre, i, post, by rw [he]; rfl, ?_⟩
          rcases h with h | h | ⟨hi, h0, h⟩
          · exact .inl h
          · exact .inr (.inl h)
          · refine .inr (.inr ⟨hi, h0, .inr ?_⟩)
            cases pre with
            | nil => exact .inl rfl
            | cons a pre =>
              rw [List.getLast?_cons_cons]
              rcases h with ⟨h, -⟩ | h
              · cases h
              · exact h
    | line t =>
      obtain ⟨he, hin⟩ := step_terminal W s t
      have hr : ∀ us, run W true s (.line t :: us) = match step W true s t with | (s, none) => run W true s us | (s, some e) => (s, e) := fun _ => rfl
      rw [hr]
      revert he hin hr
      generalize step W true s t = r
      obtain ⟨s', o⟩ := r
      intro he hin hr
      simp only at he hin
      cases o with
      | some e =>
        obtain ⟨h1, h2⟩ := he e rfl
        refine ⟨h1, .inr ⟨[], _, is, rfl, ?_⟩⟩
        rcases h2 with ⟨h2, h3⟩ | ⟨d, h2, h3, h4⟩
        · exact .inl ⟨t, rfl, h2, h3⟩
        · exact .inr (.inl ⟨t, d, s.done, rfl, h3, h2, h4⟩)
      | none =>
        simp only at hr ⊢
        obtain ⟨h1, h2⟩ := ih s'
        refine ⟨h1, ?_⟩
        rcases h2 with ⟨h2, h3⟩ | ⟨pre, i, post, he, h⟩
        · exact .inl ⟨fun us => by rw [List.cons_append, hr]; exact h2 us, h3⟩
        · refine .inr ⟨.line t :: pre, i, post, by rw [he]; rfl, ?_⟩
          rcases h with h | h | ⟨hi, h0, h⟩
          · exact .inl h
          · exact .inr (.inl h)
          · refine .inr (.inr ⟨hi, h0, .inr ?_⟩)
            cases pre with
            | nil =>
              rcases h with ⟨-, h⟩ | h | ⟨t, d, ds, h, -⟩
              · obtain ⟨d, hd, ho⟩ := hin h
                refine .inr ⟨t, d, s.done, rfl, ?_, ho⟩
                rw [he, hi]
                simp only [List.nil_append]
                have : run W true s' (.ctrlC :: post) = (s', ⟨0, none⟩) := by simp [run, input, ctrlC, h]
                rw [this]
                exact hd
              · cases h
              · cases h
            | cons a pre =>
              rw [List.getLast?_cons_cons]
              rcases h with ⟨h, -⟩ | h
              · cases h
              · exact h

/-- The words that are commands. -/
def Spec.Netcat.commands : List Bytes :=
  [asc "connect", asc "connectdb", asc "exit", asc "quit", asc "license", asc "charset", asc "name", asc "autocommit", asc "autosort", asc "timeout", asc "import", asc "shell", asc "exec", asc "?", asc "??", asc "help"]

/-- A line with an expression: its first word is no command, it is no comment and no statement and does not ask for help; with an asterisk at the end the result is to be written as Python writes it. -/
structure Spec.Netcat.Expression (t e : Bytes) (star : Bool) : Prop where
  text : clean t = e ++ (if star then asc "*" else [])
  nonempty : e ≠ []
  plain : e.head? ≠ some 33 ∧ e.head? ≠ some 35
  noStar : star = false → e.getLast? ≠ some 42
  noCommand : (split (clean t)).headD [] ∉ Spec.Netcat.commands
  noHelp : (split (clean t)).getLast? ≠ some (asc "-h") ∧ (split (clean t)).getLast? ≠ some (asc "--help")

namespace Netcat

theorem split_head (c : UInt8) (s : Bytes) : ((split (c :: s)).headD []).head? = some c ∨ ((split (c :: s)).headD []).head? = none := by
  unfold split
  split
  · exact .inr rfl
  · split
    · exact .inl rfl
    · exact .inl rfl

theorem expression_act (W : World) (s : Settings) {t e : Bytes} {star : Bool} (h : Expression t e star) :
    actOf W s (askHelp (clean t)).1 (askHelp (clean t)).2 = .did (.eval e star) := by
  have ha : askHelp (clean t) = (clean t, split (clean t)) := by
    unfold askHelp
    exact if_neg (fun hc => hc.2.elim h.noHelp.1 h.noHelp.2)
  have hn := h.noCommand
  simp only [commands, List.mem_cons, List.not_mem_nil, or_false, not_or] at hn
  obtain ⟨n1, n2, n3, n4, n5, n6, n7, n8, n9, n10, n11, n12, n13, n14, n15, n16⟩ := hn
  rw [ha]
  unfold actOf commandOf
  simp only
  have hne := h.nonempty
  have hc : ((split (clean t)).headD []).head? ≠ some 35 := by
    rw [h.text]
    cases e with
    | nil => exact absurd rfl hne
    | cons c e =>
      have h35 := h.plain.2
      simp only [List.head?_cons, ne_eq, Option.some.injEq] at h35
      rcases split_head c (e ++ (if star then asc "*" else [])) with hh | hh
      · rw [List.cons_append, hh]; simpa using h35
      · rw [List.cons_append, hh]; nofun
  have hx : ¬ (clean t = asc "exit" ∨ clean t = asc "quit") := by
    rintro (hh | hh)
    · rw [hh] at n3; exact n3 (by decide)
    · rw [hh] at n4; exact n4 (by decide)
  rw [if_neg (fun hh => n2 hh.1), if_neg hc, if_neg hx, if_neg n5, if_neg n1, if_neg n2, if_neg (fun hh => n6 hh.1), if_neg (fun hh => n7 hh.1), if_neg (fun hh => n8 hh.1), if_neg (fun hh => n9 hh.1), if_neg (fun hh => n10 hh.1),
    if_neg n11, if_neg n12, if_neg n13, if_neg (fun hh => hh.elim n14 (fun hh => hh.elim n15 n16)), h.text]
  have h33 := h.plain.1
  cases star with
  | true =>
    unfold python
    have h1 : (e ++ asc "*").getLast? = some 42 := by rw [List.getLast?_append]; rfl
    have h2 : (e ++ asc "*").dropLast = e := by rw [show asc "*" = [42] from by decide, List.dropLast_concat]
    simp only [if_true, h1, h2, decide_true]
    rw [if_neg (by simp [hne])]
    cases e with
    | nil => exact absurd rfl hne
    | cons c e => simp only; rw [if_neg (by simpa using h33)]
  | false =>
    unfold python
    have h1 : ¬ e.getLast? = some 42 := h.noStar rfl
    simp only [Bool.false_eq_true, if_false, List.append_nil, h1, decide_false]
    rw [if_neg hne]
    cases e with
    | nil => exact absurd rfl hne
    | cons c e => simp only; rw [if_neg (by simpa using h33)]

end Netcat

/-- **C136 (every line).** A script of expressions, each of which succeeds, is evaluated line by line: each expression once, as it was written, in order. -/
theorem C136_every (W : World) (tty : Bool) (s : State) (ls : List (Bytes × Bytes × Bool)) (h : ∀ l ∈ ls, Spec.Netcat.Expression l.1 l.2.1 l.2.2)
    (ho : ∀ ds d, W.outcome ds d = .ok) :
    (run W tty s (ls.map fun l => .line l.1)).1.done = s.done ++ ls.map (fun l => .eval l.2.1 l.2.2) ∧ (run W tty s (ls.map fun l => .line l.1)).2 = ⟨0, none⟩ := by
  induction ls generalizing s with
  | nil => exact ⟨by simp [run], rfl⟩
  | cons l ls ih =>
    have ha := expression_act W s.settings (h l (by simp))
    have hs : ∃ s', step W tty s l.1 = (s', none) ∧ s'.done = s.done ++ [.eval l.2.1 l.2.2] := by
      unfold step
      simp only [ha, perform, ho]
      exact ⟨_, rfl, rfl⟩
    obtain ⟨s', h1, h2⟩ := hs
    have hr : run W tty s ((l :: ls).map fun l => .line l.1) = run W tty s' (ls.map fun l => .line l.1) := by
      rw [List.map_cons]
      show (match step W tty s l.1 with | (s, none) => run W tty s _ | (s, some e) => (s, e)) = _
      rw [h1]
    rw [hr]
    obtain ⟨h3, h4⟩ := ih s' (fun x hx => h x (by simp [hx]))
    exact ⟨by rw [h3, h2]; simp, h4⟩

/-- **C136 (leaving).** `exit` and `quit` leave with status 0, on a terminal and in a script, and nothing after them is read. -/
theorem C136_exit (W : World) (tty : Bool) (s : State) (t : Bytes) (is : List Input) (h : clean t = asc "exit" ∨ clean t = asc "quit") :
    (run W tty s (.line t :: is)).2 = ⟨0, none⟩ ∧ (run W tty s (.line t :: is)).1.done = s.done := by
  have hs : step W tty s t = ({ s with line := s.line + 1, interrupted := false }, some ⟨0, none⟩) := by
    unfold step
    simp only [actOf_quit W s.settings t h]
  show (match step W tty s t with | (s, none) => run W tty s is | (s, some e) => (s, e)).2 = _ ∧ _
  rw [show run W tty s (.line t :: is) = (match step W tty s t with | (s, none) => run W tty s is | (s, some e) => (s, e)) from rfl, hs]
  exact ⟨rfl, rfl⟩

/-- A world in which Python takes no expression of two words and nothing else fails; the only numbers are 8080 and 500. -/
def strict : World where
  int t := if t = asc "8080" then some 8080 else if t = asc "500" then some 500 else none
  mysql := false
  outcome _ d := match d with
    | .eval e _ => if 32 ∈ e then .failed else .ok
    | _ => .ok

/-- The help says `exit [RESULT]`, with which a script would leave with a status of its own: the line is taken for an expression of Python, which refuses it. -/
theorem C136_exit_violated : ¬ ∀ (W : World) (s : State), (∀ ds, W.outcome ds (.eval (asc "exit 3") false) = .failed) → (run W false s [.line (asc "exit 3")]).2.status = 3 := by
  intro h
  exact absurd (h strict (start (asc "1") (asc "utf8") false) (fun ds => (rfl : (if 32 ∈ asc "exit 3" then Outcome.failed else .ok) = .failed))) (by decide)

/-- The help says `timeout {MILLISECONDS}`: `timeout 500` makes clients that wait for five hundred seconds. -/
theorem C136_timeout_violated : ¬ ∀ (W : World) (s : State), W.int (asc "500") = some 500 → (run W false s [.line (asc "timeout 500")]).1.settings.timeout = 500 := by
  intro h
  exact absurd (h strict (start (asc "1") (asc "utf8") false) (by decide)) (by decide)

/-- A script: a client is made, two calls are made, a third expression fails on line 5 and the last line is not read. -/
def script : List Bytes :=
  [asc "connect 0 8080\n", asc "# two calls", asc " client1.add(1,2) \r\n", asc "client1.list()*", asc "client1 add", asc "client1.stop()"]

example : run strict false (start (asc "1") (asc "utf8") false) (script.map .line) =
    (⟨⟨60000, true, true, asc "utf8", asc "1"⟩,
      [.connect (asc "http://127.0.0.1:8080/RPC2") 60000 (asc "client" ++ dec 1), .eval (asc "client1.add(1,2)") false, .eval (asc "client1.list()") true, .eval (asc "client1 add") false], 1, 5, false⟩, ⟨255, some 5⟩) := by
  decide +kernel

/-- On a terminal the same goes on. -/
example : (run strict true (start (asc "1") (asc "utf8") false) (script.map .line)).1.done.length = 5 ∧ (run strict true (start (asc "1") (asc "utf8") false) (script.map .line)).2 = ⟨0, none⟩ := by
  decide +kernel

/-- Two interrupts with a line between them do not end it, two in a row do. -/
example : (run strict true (start (asc "1") (asc "utf8") false) [.ctrlC, .line (asc "a"), .ctrlC, .line (asc "b")]).1.done.length = 2 ∧
    (run strict true (start (asc "1") (asc "utf8") false) [.line (asc "a"), .ctrlC, .ctrlC, .line (asc "b")]).1.done.length = 1 := by
  decide +kernel

example : Spec.Netcat.Expression (asc " client.add(1, 2) * \n") (asc "client.add(1, 2) ") true := by
  refine ⟨by decide, by decide, ⟨by decide, by decide⟩, by decide, by decide, ⟨by decide, by decide⟩⟩

end Frpc
