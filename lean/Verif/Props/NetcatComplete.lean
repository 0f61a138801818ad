import Verif.Model.NetcatComplete
/-!
# C149: completion offers the names that begin with what was typed
-/
namespace Frpc
open NetcatComplete

namespace CompleteSpec

/-- The names a server's list gives: those before the first row that is no text, outside the group `system`. -/
def Given (client : Bytes) (rows : List (Option Bytes)) (w : Bytes) : Prop :=
  ∃ before row after, rows = before ++ some row :: after ∧ (∀ r ∈ before, r ≠ none) ∧ w = client ++ asc "." ++ row ∧
    ¬ (row = asc "system" ∨ asc "system." <+: row)

/-- What readline does on a tab: it asks for the first name, the second, …; the answers to the first `n` questions. -/
def answers (c : Console) (text : Bytes) : Nat → List (Option Bytes)
  | 0 => []
  | n + 1 => answers c text n ++ [(complete (after c ((List.range n).map (Event.ask text))) text n).2]

/-- The names that the events of a session make known. -/
def Known (events : List Event) (w : Bytes) : Prop :=
  (∃ client rows, Event.connected client rows ∈ events ∧ Given client rows w) ∨
  (∃ client, Event.database client ∈ events ∧ w ∈ [client ++ asc ".execute", client ++ asc ".begin()", client ++ asc ".commit()", client ++ asc ".rollback()"])

end CompleteSpec
open CompleteSpec

namespace NetcatComplete

theorem take_prefix (text w : Bytes) : w.take text.length = text ↔ text <+: w := by
  constructor
  · intro h; rw [← h]; exact List.take_prefix _ _
  · rintro ⟨r, rfl⟩; simp

theorem globalMatches_eq (text : Bytes) : ∀ ws : List Bytes, globalMatches text ws = ws.filter fun w => text.isPrefixOf w
  | [] => rfl
  | w :: ws => by
    rw [globalMatches, globalMatches_eq text ws]
    by_cases h : text <+: w
    · rw [if_pos ((take_prefix _ _).2 h), List.filter_cons_of_pos (by simpa using h)]
    · rw [if_neg (fun e => h ((take_prefix _ _).1 e)), List.filter_cons_of_neg (by simpa using h)]

theorem group_system (row : Bytes) : group row = asc "system" ↔ row = asc "system" ∨ asc "system." <+: row := by
  have e1 : asc "system." = asc "system" ++ [46] := by decide
  have hall : ∀ c ∈ asc "system", c ≠ 46 := by decide
  unfold group
  constructor
  · intro h
    have hr := List.takeWhile_append_dropWhile (p := fun c : UInt8 => decide (c ≠ 46)) (l := row)
    cases hd : row.dropWhile (fun c : UInt8 => decide (c ≠ 46)) with
    | nil => rw [hd, List.append_nil, h] at hr; exact .inl hr.symm
    | cons x xs =>
      right
      have hx := List.head_dropWhile_not (fun c : UInt8 => decide (c ≠ 46)) (l := row) (by rw [hd]; simp)
      simp only [hd, List.head_cons, decide_eq_false_iff_not, ne_eq, Decidable.not_not] at hx
      rw [hd, h, hx] at hr
      rw [e1]
      exact ⟨xs, by rw [← hr]; simp⟩
  · have ht : ∀ q : Bytes, (asc "system" ++ 46 :: q).takeWhile (fun c : UInt8 => decide (c ≠ 46)) = asc "system" := by
      intro q
      rw [List.takeWhile_append_of_pos (by simpa using hall)]
      simp
    rintro (rfl | ⟨q, rfl⟩)
    · decide
    · rw [e1, List.append_assoc]; exact ht q

theorem listed_mem (client : Bytes) (w : Bytes) : ∀ (rows : List (Option Bytes)) (names : List Bytes),
    w ∈ listed client names rows ↔ w ∈ names ∨ Given client rows w
  | [], names => by
    rw [listed]
    constructor
    · exact .inl
    · rintro (h | ⟨b, r, a, e, _⟩)
      · exact h
      · simp at e
  | none :: rows, names => by
    rw [listed]
    constructor
    · exact .inl
    · rintro (h | ⟨b, r, a, e, hb, _⟩)
      · exact h
      · cases b with
        | nil => simp at e
        | cons x b => simp at e; exact absurd e.1.symm (hb x (by simp))
  | some row :: rows, names => by
    have hsplit : Given client (some row :: rows) w ↔ (w = client ++ asc "." ++ row ∧ ¬ (row = asc "system" ∨ asc "system." <+: row)) ∨ Given client rows w := by
      constructor
      · rintro ⟨b, r, a, e, hb, hw, hs⟩
        cases b with
        | nil =>
          simp only [List.nil_append, List.cons.injEq, Option.some.injEq] at e
          left; rw [e.1]; exact ⟨hw, hs⟩
        | cons x b =>
          simp only [List.cons_append, List.cons.injEq] at e
          exact .inr ⟨b, r, a, e.2, fun y hy => hb y (by simp [hy]), hw, hs⟩
      · rintro (⟨hw, hs⟩ | ⟨b, r, a, e, hb, hw, hs⟩)
        · exact ⟨[], row, rows, rfl, by simp, hw, hs⟩
        · refine ⟨some row :: b, r, a, by rw [e]; rfl, ?_, hw, hs⟩
          intro y hy
          rcases List.mem_cons.1 hy with rfl | hy
          · simp
          · exact hb y hy
    rw [listed, hsplit]
    by_cases h : group row = asc "system"
    · rw [if_neg (by simpa using h), listed_mem client w rows names]
      have := (group_system row).1 h
      simp [this]
    · rw [if_pos h, listed_mem client w rows]
      have hs : ¬ (row = asc "system" ∨ asc "system." <+: row) := fun hh => h ((group_system row).2 hh)
      simp only [List.mem_append, List.mem_singleton, hs, not_false_eq_true, and_true, or_assoc]

theorem after_names (w : Bytes) : ∀ (es : List Event) (c : Console), w ∈ (after c es).names ↔ w ∈ c.names ∨ Known es w
  | [], c => by simp [after, Known]
  | e :: es, c => by
    rw [after, after_names w es]
    cases e with
    | ask text state =>
      have : (step c (.ask text state)).1.names = c.names := by
        simp only [step, complete]; split <;> rfl
      rw [this]
      simp [Known]
    | connected client rows =>
      simp only [step, listed_mem, Known, List.mem_cons, Event.connected.injEq, reduceCtorEq, false_or]
      constructor
      · rintro ((h | h) | ⟨a, b, h, g⟩ | ⟨a, h, g⟩)
        · exact .inl h
        · exact .inr (.inl ⟨client, rows, .inl ⟨rfl, rfl⟩, h⟩)
        · exact .inr (.inl ⟨a, b, .inr h, g⟩)
        · exact .inr (.inr ⟨a, h, g⟩)
      · rintro (h | ⟨a, b, (⟨rfl, rfl⟩ | h), g⟩ | ⟨a, h, g⟩)
        · exact .inl (.inl h)
        · exact .inl (.inr g)
        · exact .inr (.inl ⟨a, b, h, g⟩)
        · exact .inr (.inr ⟨a, h, g⟩)
    | database client =>
      simp only [step, Known, List.mem_cons, List.mem_append, Event.database.injEq, reduceCtorEq, false_or]
      constructor
      · rintro ((h | h) | ⟨a, b, h, g⟩ | ⟨a, h, g⟩)
        · exact .inl h
        · exact .inr (.inr ⟨client, .inl rfl, h⟩)
        · exact .inr (.inl ⟨a, b, h, g⟩)
        · exact .inr (.inr ⟨a, .inr h, g⟩)
      · rintro (h | ⟨a, b, h, g⟩ | ⟨a, (rfl | h), g⟩)
        · exact .inl (.inl h)
        · exact .inr (.inl ⟨a, b, h, g⟩)
        · exact .inl (.inr g)
        · exact .inr (.inr ⟨a, h, g⟩)

theorem after_append (c : Console) : ∀ (es es' : List Event), after c (es ++ es') = after (after c es) es' := by
  intro es
  induction es generalizing c with
  | nil => intro es'; rfl
  | cons e es ih => intro es'; exact ih _ _

theorem after_asks (c : Console) (text : Bytes) : ∀ n, after c ((List.range (n + 1)).map (Event.ask text)) = { c with matched := globalMatches text c.names }
  | 0 => by simp [List.range_succ, after, step, complete]
  | n + 1 => by
    rw [List.range_succ, List.map_append, after_append, after_asks c text n]
    simp [after, step, complete]

end NetcatComplete

/-- **C149.** On a tab the answers are the known names that begin with the typed text, in the order in which they became known, and then
none: whatever was asked before. -/
theorem C149_offers (c : Console) (text : Bytes) (n : Nat) :
    answers c text n = (List.range n).map fun i => (c.names.filter fun w => text.isPrefixOf w)[i]? := by
  induction n with
  | zero => rfl
  | succ n ih =>
    rw [answers, ih, List.range_succ, List.map_append]
    congr 1
    cases n with
    | zero => simp [after, complete, globalMatches_eq]
    | succ n => rw [after_asks]; simp [complete, globalMatches_eq]

/-- **C149.** After any session the known names are the words of the console and those of all servers it was connected to: for each method the
server lists outside the group `system` the name of the client, a dot and the method. -/
theorem C149_known (rows : Option (List (Option Bytes))) (events : List Event) (w : Bytes) :
    w ∈ (after (start rows) events).names ↔
      w ∈ words ∨ Given (asc "client") (rows.getD []) w ∨ Known events w := by
  rw [after_names]
  simp only [start, List.mem_append, listed_mem, List.not_mem_nil, false_or]
  constructor
  · rintro ((h | h) | h)
    · exact .inr (.inl h)
    · exact .inl h
    · exact .inr (.inr h)
  · rintro (h | h | h)
    · exact .inl (.inr h)
    · exact .inl (.inl h)
    · exact .inr h

/-- **C149.** A new client adds its server's methods behind all other names, in the order and number in which the server lists them. -/
theorem C149_order (c : Console) (client : Bytes) (rows : List (Option Bytes)) :
    (step c (.connected client rows)).1.names = c.names ++
      (((rows.takeWhile Option.isSome).filterMap id).filter fun row => !(row == asc "system" || (asc "system.").isPrefixOf row)).map fun row => client ++ asc "." ++ row := by
  show listed client c.names rows = _
  generalize c.names = names
  induction rows generalizing names with
  | nil => simp [listed]
  | cons r rows ih =>
    cases r with
    | none => simp [listed]
    | some row =>
      rw [listed, List.takeWhile_cons_of_pos (by rfl), List.filterMap_cons_some (by rfl)]
      by_cases h : group row = asc "system"
      · rw [if_neg (by simpa using h), ih, List.filter_cons_of_neg]
        have := (group_system row).1 h
        rw [Bool.not_eq_true, Bool.not_eq_false', Bool.or_eq_true, beq_iff_eq, List.isPrefixOf_iff_prefix]
        exact this
      · rw [if_pos h, ih, List.filter_cons_of_pos]
        · simp
        · have : ¬ (row = asc "system" ∨ asc "system." <+: row) := fun hh => h ((group_system row).2 hh)
          rw [← List.isPrefixOf_iff_prefix, ← beq_iff_eq, ← Bool.or_eq_true, Bool.not_eq_true] at this
          rw [this]; rfl

/-- **C149.** Names never become unknown, and asking changes nothing that is offered later. -/
theorem C149_stays (c : Console) (events : List Event) :
    ∃ more, (after c events).names = c.names ++ more ∧ ((∀ e ∈ events, ∃ t s, e = .ask t s) → more = []) := by
  have hl : ∀ (client : Bytes) (rows : List (Option Bytes)) (names : List Bytes), ∃ more, listed client names rows = names ++ more := by
    intro client rows
    induction rows with
    | nil => intro names; exact ⟨[], by simp [listed]⟩
    | cons r rows ih =>
      intro names
      cases r with
      | none => exact ⟨[], by simp [listed]⟩
      | some row =>
        rw [listed]
        split
        · obtain ⟨m, e⟩ := ih (names ++ [client ++ asc "." ++ row]); exact ⟨_ :: m, by rw [e, List.append_assoc]; rfl⟩
        · exact ih names
  induction events generalizing c with
  | nil => exact ⟨[], by simp [after], fun _ => rfl⟩
  | cons e es ih =>
    obtain ⟨m, hm, hn⟩ := ih (step c e).1
    rw [after, hm]
    cases e with
    | ask text state =>
      have : (step c (.ask text state)).1.names = c.names := by
        simp only [step, complete]; split <;> rfl
      rw [this]
      exact ⟨m, rfl, fun h => hn fun e he => h e (by simp [he])⟩
    | connected client rows =>
      obtain ⟨m', e'⟩ := hl client rows c.names
      refine ⟨m' ++ m, ?_, fun h => ?_⟩
      · simp only [step]; rw [e', List.append_assoc]
      · obtain ⟨_, _, hh⟩ := h (.connected client rows) (by simp); cases hh
    | database client =>
      refine ⟨[client ++ asc ".execute", client ++ asc ".begin()", client ++ asc ".commit()", client ++ asc ".rollback()"] ++ m, ?_, fun h => ?_⟩
      · simp only [step]; rw [List.append_assoc]
      · obtain ⟨_, _, hh⟩ := h (.database client) (by simp); cases hh

/-- A server with three methods; the console was asked for something else before. -/
example : answers (after (start (some [some (asc "add"), some (asc "system.listMethods"), some (asc "systems.all")])) [.ask (asc "c") 0, .connected (asc "b") [some (asc "x"), none, some (asc "y")]]) (asc "client.") 3 =
    [some (asc "client.add"), some (asc "client.systems.all"), none] := by decide

example : Given (asc "client") [some (asc "system.listMethods"), some (asc "add"), none] (asc "client.add") ∧
    ¬ Given (asc "client") [some (asc "system.listMethods"), some (asc "add"), none] (asc "client.system.listMethods") := by
  constructor
  · exact ⟨[some (asc "system.listMethods")], asc "add", [none], rfl, by decide, by decide, by decide⟩
  · rw [show Given (asc "client") [some (asc "system.listMethods"), some (asc "add"), none] (asc "client.system.listMethods") ↔ _ from
      ⟨fun h => (listed_mem _ _ _ []).2 (.inr h), fun h => ((listed_mem _ _ _ []).1 h).resolve_left (by simp)⟩]
    decide

end Frpc
