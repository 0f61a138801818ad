import Verif.Model.DbConn
/-!
# C141: the database clients of the console

`autocommit on` is the console's default. A user relies on it that every statement is then a transaction of its
own: done for good when its result is printed.
-/
namespace Frpc
open DbConn

/-- A statement that is none of transactions. -/
def DbConn.Plain (q : Bytes) : Prop := q ≠ asc "BEGIN WORK" ∧ q ≠ asc "COMMIT" ∧ q ≠ asc "ROLLBACK"

/-- What statements make of the data, one after another, each of them all or nothing. -/
def DbConn.effect {δ} (S : Server δ) : δ → List Bytes → δ
  | d, [] => d
  | d, q :: qs => effect S (match S.apply q d with | .ok (_, d') => d' | .error _ => d) qs

/-- What is printed for a statement. -/
def DbConn.printed {δ} (S : Server δ) (q : Bytes) (d : δ) : Result :=
  match S.apply q d with
  | .ok (some rows, _) => .rows rows
  | .ok (none, _) => .text (asc "OK")
  | .error m => .text (asc "Error: " ++ m)

namespace DbConn
variable {δ : Type}

theorem sql_plain (S : Server δ) {q : Bytes} (h : Plain q) (d : Data δ) :
    answer (sql S q d).1 = printed S q d.working ∧ (sql S q d).2 = ⟨d.committed, effect S d.working [q]⟩ := by
  unfold sql printed
  rw [if_neg (by rintro (e | e); exact h.1 e; exact h.2.1 e), if_neg (show ¬ q = ROLLBACK from h.2.2)]
  simp only [effect]
  cases S.apply q d.working with
  | error m => exact ⟨rfl, rfl⟩
  | ok p =>
    obtain ⟨r, d'⟩ := p
    cases r <;> exact ⟨rfl, rfl⟩

theorem statement_calm (S : Server δ) {q : Bytes} (h : Plain q) (c v : δ) :
    statement S q ⟨⟨c, v⟩, []⟩ = (printed S q v, ⟨⟨c, effect S v [q]⟩, []⟩) := by
  have := sql_plain S h ⟨c, v⟩
  simp only [statement, cursor, this.1, this.2]

theorem execute_on (S : Server δ) (n : Nat) {q : Bytes} (h : Plain q) (c v : δ) :
    execute S true (n + 1) q ⟨⟨c, v⟩, []⟩ = (printed S q v, ⟨⟨v, effect S v [q]⟩, []⟩) := by
  have e : cursor S BEGIN ⟨⟨c, v⟩, []⟩ = (.done none, ⟨⟨v, v⟩, []⟩) := rfl
  simp only [execute, if_true, e, begun, after, Result.escapes, Bool.false_eq_true, if_false]
  exact statement_calm S h v v

theorem execute_off (S : Server δ) (n : Nat) {q : Bytes} (h : Plain q) (c v : δ) :
    execute S false (n + 1) q ⟨⟨c, v⟩, []⟩ = (printed S q v, ⟨⟨c, effect S v [q]⟩, []⟩) := by
  simp only [execute, Bool.false_eq_true, if_false]
  exact statement_calm S h c v

/-- **C141 (what is printed).** Over a connection that holds, a statement is run once on the data of the session, with or
without `autocommit`: its rows are printed, or `OK`, or the error of the server, and it never ends with an exception. -/
theorem _root_.Frpc.C141_printed (S : Server δ) (auto : Bool) (n : Nat) (q : Bytes) (h : Plain q) (c v : δ) :
    (execute S auto (n + 1) q ⟨⟨c, v⟩, []⟩).1 = printed S q v ∧
    (execute S auto (n + 1) q ⟨⟨c, v⟩, []⟩).2.data.working = effect S v [q] := by
  cases auto
  · rw [execute_off S n h]; exact ⟨rfl, rfl⟩
  · rw [execute_on S n h]; exact ⟨rfl, rfl⟩

/-- What a transaction is: begun with what everybody sees, it is everybody's at `begin` and `commit`, gone at `rollback`. -/
def _root_.Frpc.DbConn.transactions (S : Server δ) : δ × δ → List Op → δ × δ
  | d, [] => d
  | d, .execute q :: ops => transactions S (d.1, effect S d.2 [q]) ops
  | d, .begin :: ops => transactions S (d.2, d.2) ops
  | d, .commit :: ops => transactions S (d.2, d.2) ops
  | d, .rollback :: ops => transactions S (d.1, d.1) ops

/-- **C141 (`autocommit off`).** Over a connection that holds, every history of statements, `begin`, `commit` and `rollback`
does to the data what transactions are to do. -/
theorem _root_.Frpc.C141_off (S : Server δ) (n : Nat) (ops : List Op) (hops : ∀ q, .execute q ∈ ops → Plain q) (c v : δ) :
    run S false (n + 1) ⟨⟨c, v⟩, []⟩ ops = ⟨⟨(transactions S (c, v) ops).1, (transactions S (c, v) ops).2⟩, []⟩ := by
  induction ops generalizing c v with
  | nil => rfl
  | cons op ops ih =>
    have ih := fun c v => ih (fun q hq => hops q (.tail _ hq)) c v
    show run S false (n + 1) (step S false (n + 1) ⟨⟨c, v⟩, []⟩ op).2 ops = _
    cases op with
    | execute q =>
      show run S false (n + 1) (execute S false (n + 1) q ⟨⟨c, v⟩, []⟩).2 ops = _
      rw [execute_off S n (hops q (.head _))]
      exact ih _ _
    | begin => exact ih v v
    | commit => exact ih v v
    | rollback => exact ih c c

theorem effect_append (S : Server δ) (d : δ) (a b : List Bytes) : effect S d (a ++ b) = effect S (effect S d a) b := by
  induction a generalizing d with
  | nil => rfl
  | cons q a ih => exact ih _

theorem run_on (S : Server δ) (n : Nat) (qs : List Bytes) (hqs : ∀ q ∈ qs, Plain q) (v : δ) :
    ∀ c, ∃ c', run S true (n + 1) ⟨⟨c, v⟩, []⟩ (qs.map Op.execute) = ⟨⟨c', effect S v qs⟩, []⟩ ∧
      (qs = [] → c' = c) ∧ (qs ≠ [] → c' = effect S v qs.dropLast) := by
  induction qs generalizing v with
  | nil => intro c; exact ⟨c, rfl, fun _ => rfl, fun h => absurd rfl h⟩
  | cons q qs ih =>
    intro c
    obtain ⟨c', h1, h2, h3⟩ := ih (fun p hp => hqs p (.tail _ hp)) (effect S v [q]) v
    refine ⟨c', ?_, fun h => absurd h (by simp), fun _ => ?_⟩
    · show run S true (n + 1) (execute S true (n + 1) q ⟨⟨c, v⟩, []⟩).2 (qs.map Op.execute) = _
      rw [execute_on S n (hqs q (.head _)), h1]
      rfl
    · by_cases hq : qs = []
      · subst hq; rw [h2 rfl]; rfl
      · rw [h3 hq, List.dropLast_cons_of_ne_nil hq]; rfl

/-- **C141 (`autocommit on`), partial.** Over a connection that holds, after any number of statements everybody sees what all
of them but the last have done; the last one is seen in the session. Missing: the last one (`C141_violated`). -/
theorem _root_.Frpc.C141_on_partial (S : Server δ) (n : Nat) (qs : List Bytes) (q : Bytes) (hqs : ∀ p ∈ qs ++ [q], Plain p) (d : δ) :
    let w := run S true (n + 1) ⟨⟨d, d⟩, []⟩ ((qs ++ [q]).map Op.execute)
    close w = effect S d qs ∧ w.data.working = effect S d (qs ++ [q]) := by
  obtain ⟨c', h1, -, h3⟩ := run_on S n (qs ++ [q]) hqs d d
  intro w
  have e : w = ⟨⟨c', effect S d (qs ++ [q])⟩, []⟩ := h1
  rw [e, h3 (by simp)]
  simp [close]

/-- **C141, violated.** With `autocommit on`, a statement whose result was printed is lost when the console ends, whenever it
changed anything; `rollback()` undoes it; and only `commit()`, or the next statement, makes it last. And a transaction
begun by the user cannot be taken back: `rollback()` takes only its last statement. -/
theorem _root_.Frpc.C141_violated (S : Server δ) (n : Nat) (q : Bytes) (hq : Plain q) (d : δ) :
    close (run S true (n + 1) ⟨⟨d, d⟩, []⟩ [.execute q]) = d ∧
    (run S true (n + 1) ⟨⟨d, d⟩, []⟩ [.execute q, .rollback]).data.working = d ∧
    close (run S true (n + 1) ⟨⟨d, d⟩, []⟩ [.execute q, .commit]) = effect S d [q] ∧
    ∀ p, Plain p → close (run S true (n + 1) ⟨⟨d, d⟩, []⟩ [.begin, .execute q, .execute p, .rollback]) = effect S d [q] := by
  refine ⟨?_, ?_, ?_, fun p hp => ?_⟩
  · show close (execute S true (n + 1) q ⟨⟨d, d⟩, []⟩).2 = d
    rw [execute_on S n hq]; rfl
  · show (rollback S (execute S true (n + 1) q ⟨⟨d, d⟩, []⟩).2).2.data.working = d
    rw [execute_on S n hq]; rfl
  · show close (commit S (execute S true (n + 1) q ⟨⟨d, d⟩, []⟩).2).2 = _
    rw [execute_on S n hq]; rfl
  · show close (rollback S (execute S true (n + 1) p (execute S true (n + 1) q ⟨⟨d, d⟩, []⟩).2).2).2 = _
    rw [execute_on S n hq, execute_on S n hp]; rfl

theorem begun_done (S : Server δ) (w : World δ) (m : Bytes) (es : List Ev) (h : w.events = .lost m :: es) (hm : unreachable m = false)
    (exec : World δ → Result × World δ) :
    begun exec (cursor S BEGIN w).1 (cursor S BEGIN w).2 = (.text (errorText m), ⟨⟨w.data.committed, w.data.committed⟩, es⟩) := by
  simp only [cursor, h, begun, hm, Bool.false_eq_true, if_false]

/-- **C141 (failures).** A connection that fails at a statement gives its error as a text, not as an exception, and Ctrl-C
ends it with `KeyboardInterrupt`; in both cases the statement does nothing and what everybody sees stays. When it fails at
the `BEGIN WORK` before the statement, with another error than that of a server that cannot be reached, nothing of it is
said: the statement is run, and its result printed. -/
theorem _root_.Frpc.C141_failures (S : Server δ) (n : Nat) (q : Bytes) (c v : δ) (m : Bytes) (es : List Ev) :
    execute S false (n + 1) q ⟨⟨c, v⟩, .lost m :: es⟩ = (.text (asc "Error: " ++ m), ⟨⟨c, c⟩, es⟩) ∧
    execute S false (n + 1) q ⟨⟨c, v⟩, .interrupt :: es⟩ = (.interrupted, ⟨⟨c, v⟩, es⟩) ∧
    execute S true (n + 1) q ⟨⟨c, v⟩, .interrupt :: es⟩ = (.interrupted, ⟨⟨c, v⟩, es⟩) ∧
    (Plain q → unreachable m = false → execute S true (n + 1) q ⟨⟨c, v⟩, [.lost m]⟩ = (printed S q c, ⟨⟨c, effect S c [q]⟩, []⟩)) := by
  refine ⟨rfl, rfl, rfl, fun hq hm => ?_⟩
  simp only [execute, if_true]
  rw [begun_done S ⟨⟨c, v⟩, [.lost m]⟩ m [] rfl hm]
  simp only [after, Result.escapes, Bool.false_eq_true, if_false]
  exact statement_calm S hq c c

/-- **C141 (a server that went away).** When the server cannot be reached at `BEGIN WORK` the class connects again, and
the statement is run in the new session, whatever was open in the old one being gone; if it cannot connect, the exception
leaves `execute` and nothing is run. -/
theorem _root_.Frpc.C141_again (S : Server δ) (n : Nat) (q : Bytes) (c v : δ) (m m' : Bytes) (hm : unreachable m = true) :
    (Plain q → execute S true (n + 2) q ⟨⟨c, v⟩, [.lost m]⟩ = (printed S q c, ⟨⟨c, effect S c [q]⟩, []⟩)) ∧
    ∀ es, execute S true (n + 2) q ⟨⟨c, v⟩, .lost m :: .lost m' :: es⟩ = (.raised m', ⟨⟨c, c⟩, es⟩) := by
  have e : ∀ es, cursor S BEGIN ⟨⟨c, v⟩, .lost m :: es⟩ = (.raised m, ⟨⟨c, c⟩, es⟩) := fun _ => rfl
  constructor
  · intro hq
    rw [execute]
    simp only [if_true, e, begun, hm, connect]
    have g : execute S true (n + 1) BEGIN ⟨⟨c, c⟩, []⟩ = (.text (asc "OK"), ⟨⟨c, c⟩, []⟩) := rfl
    rw [g]
    simp only [after, Result.escapes, Bool.false_eq_true, if_false]
    exact statement_calm S hq c c
  · intro es
    rw [execute]
    simp only [if_true, e, begun, hm, connect, after, Result.escapes]

/-! A database that is a list of the statements done. -/
def logServer : Server (List Bytes) := ⟨fun q d => if q = asc "bad" then .error (asc "1064") else .ok (some d, d ++ [q])⟩

example : Plain (asc "a") := by unfold Plain; decide
example : effect logServer [] [asc "a", asc "bad", asc "b"] = [asc "a", asc "b"] := by decide
example : close (run logServer true 9 ⟨⟨[], []⟩, []⟩ [.execute (asc "a"), .execute (asc "b")]) = [asc "a"] := by decide
example : close (run logServer false 9 ⟨⟨[], []⟩, []⟩ [.begin, .execute (asc "a"), .commit, .execute (asc "b"), .rollback]) = [asc "a"] := by decide
example : unreachable (asc "(2003, \"Can't connect\")") = true ∧ unreachable (asc "(2013, 'Lost connection')") = false := by decide
example : effect logServer [] [asc "a"] ≠ [] := by decide

end DbConn
end Frpc
