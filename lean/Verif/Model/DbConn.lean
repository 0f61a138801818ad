import Verif.Basic.Bytes
/-!
# The database clients of the console (`netcat/fastrpc-netcat3:82-161`)

The database is a parameter: what a statement makes of the data, and what is sent back. The library opens its
sessions without automatic commits, so that what a statement did is seen by others only after `COMMIT`, or
after the next `BEGIN WORK`, and is gone with the session. Simplified: only the three statements that the
class itself sends are those of transactions; statements that commit by themselves (of the schema) are not
in the model; `parms` is part of the statement. Whether the connection holds is a schedule of events.
-/
namespace Frpc
namespace DbConn

/-- The database server: what a statement does to the data, with the rows (`none` when there are none to fetch, which raises), or the text of the error. -/
structure Server (δ : Type) where
  apply : Bytes → δ → Except Bytes (Option (List Bytes) × δ)

/-- The data that everybody sees and those of this session. -/
structure Data (δ : Type) where
  committed : δ
  working : δ

/-- What happens to one `cursor.execute` or `pymysql.connect`: it is carried out; the connection fails with a text; the user presses Ctrl-C. -/
inductive Ev where
  | fine
  | lost (msg : Bytes)
  | interrupt
deriving DecidableEq, Repr

/-- The session and the events to come; after them everything is carried out. -/
structure World (δ : Type) where
  data : Data δ
  events : List Ev

/-- How a call into the library ends. -/
inductive Out where
  | done (rows : Option (List Bytes))
  | raised (msg : Bytes)
  | interrupted
deriving DecidableEq, Repr

/-- What a method of the class gives to the program. -/
inductive Result where
  | nothing
  | rows (l : List Bytes)
  | text (t : Bytes)
  | raised (msg : Bytes)
  | interrupted
deriving DecidableEq, Repr

/-- `BEGIN WORK` (`netcat/fastrpc-netcat3:114`). -/
def BEGIN : Bytes := asc "BEGIN WORK"
/-- `COMMIT` (`netcat/fastrpc-netcat3:125`). -/
def COMMIT : Bytes := asc "COMMIT"
/-- `ROLLBACK` (`netcat/fastrpc-netcat3:133`). -/
def ROLLBACK : Bytes := asc "ROLLBACK"

/-- A statement on the server. `BEGIN WORK` commits what is open. -/
def sql {δ} (S : Server δ) (q : Bytes) (d : Data δ) : Out × Data δ :=
  if q = BEGIN ∨ q = COMMIT then (.done none, ⟨d.working, d.working⟩)
  else if q = ROLLBACK then (.done none, ⟨d.committed, d.committed⟩)
  else match S.apply q d.working with
    | .ok (rows, w) => (.done rows, ⟨d.committed, w⟩)
    | .error m => (.raised m, d)

/-- `cursor.execute` (`netcat/fastrpc-netcat3:114,125,133,143`): a lost connection takes the open transaction with it. -/
def cursor {δ} (S : Server δ) (q : Bytes) (w : World δ) : Out × World δ :=
  match w.events with
  | [] => ((sql S q w.data).1, ⟨(sql S q w.data).2, []⟩)
  | .fine :: es => ((sql S q w.data).1, ⟨(sql S q w.data).2, es⟩)
  | .lost m :: es => (.raised m, ⟨⟨w.data.committed, w.data.committed⟩, es⟩)
  | .interrupt :: es => (.interrupted, ⟨w.data, es⟩)

/-- `connect` (`netcat/fastrpc-netcat3:101-110`): a new session, and `SET NAMES`, which changes no data (the second event). -/
def connect {δ} (w : World δ) : Out × World δ :=
  let fresh : Data δ := ⟨w.data.committed, w.data.committed⟩
  match w.events with
  | [] => (.done none, ⟨fresh, []⟩)
  | .lost m :: es => (.raised m, ⟨fresh, es⟩)
  | .interrupt :: es => (.interrupted, ⟨fresh, es⟩)
  | .fine :: [] => (.done none, ⟨fresh, []⟩)
  | .fine :: .fine :: es => (.done none, ⟨fresh, es⟩)
  | .fine :: .lost m :: es => (.raised m, ⟨fresh, es⟩)
  | .fine :: .interrupt :: es => (.interrupted, ⟨fresh, es⟩)

/-- `'2003' in str(ex)` (`netcat/fastrpc-netcat3:118`): the server could not be reached. -/
def unreachable : Bytes → Bool
  | [] => false
  | c :: s => (asc "2003").isPrefixOf (c :: s) || unreachable s

/-- `"Error: {}".format(ex)` (`netcat/fastrpc-netcat3:121,129,137,158`). -/
def errorText (m : Bytes) : Bytes := asc "Error: " ++ m

/-- What `commit` and `rollback` make of it (`netcat/fastrpc-netcat3:123-137`). -/
def quiet : Out → Result
  | .done _ => .nothing
  | .raised m => .text (errorText m)
  | .interrupted => .interrupted

/-- `commit` (`netcat/fastrpc-netcat3:123-129`). -/
def commit {δ} (S : Server δ) (w : World δ) : Result × World δ := (quiet (cursor S COMMIT w).1, (cursor S COMMIT w).2)

/-- `rollback` (`netcat/fastrpc-netcat3:131-137`). -/
def rollback {δ} (S : Server δ) (w : World δ) : Result × World δ := (quiet (cursor S ROLLBACK w).1, (cursor S ROLLBACK w).2)

/-- What `execute` makes of it (`netcat/fastrpc-netcat3:142-158`). Every way through the `try` returns, so that its `else` (`:159-161`), the commit, is never reached. -/
def answer : Out → Result
  | .done (some l) => .rows l
  | .done none => .text (asc "OK")
  | .raised m => .text (errorText m)
  | .interrupted => .interrupted

/-- The statement itself (`netcat/fastrpc-netcat3:142-161`). -/
def statement {δ} (S : Server δ) (q : Bytes) (w : World δ) : Result × World δ := (answer (cursor S q w).1, (cursor S q w).2)

/-- Does the method end with an exception? -/
def Result.escapes : Result → Bool
  | .raised _ => true
  | .interrupted => true
  | _ => false

/-- `execute` after `begin` has given `r` (`netcat/fastrpc-netcat3:140-143`): what `begin` returns is not looked at. -/
def after {δ} (S : Server δ) (q : Bytes) (r : Result × World δ) : Result × World δ :=
  if r.1.escapes then r else statement S q r.2

/-- `begin` when its statement ended so (`netcat/fastrpc-netcat3:115-121`); `exec` is `self.execute("BEGIN WORK")`. -/
def begun {δ} (exec : World δ → Result × World δ) (o : Out) (w : World δ) : Result × World δ :=
  match o with
  | .done _ => (.nothing, w)
  | .interrupted => (.interrupted, w)
  | .raised m =>
    if unreachable m then
      match connect w with
      | (.done _, w) => exec w
      | (.raised m, w) => (.raised m, w)
      | (.interrupted, w) => (.interrupted, w)
    else (.text (errorText m), w)

/-- `begin` (`netcat/fastrpc-netcat3:112-121`) and `execute` (`netcat/fastrpc-netcat3:139-161`), which call one another. The number is what Python leaves of its recursion limit. -/
def execute {δ} (S : Server δ) (autocommit : Bool) : Nat → Bytes → World δ → Result × World δ
  | 0, _, w => (.raised (asc "maximum recursion depth exceeded"), w)
  | n + 1, q, w =>
    if autocommit then
      after S q (begun (execute S autocommit n BEGIN) (cursor S BEGIN w).1 (cursor S BEGIN w).2)
    else statement S q w

/-- `begin` called by the user (`netcat/fastrpc-netcat3:112-121`). -/
def begin {δ} (S : Server δ) (autocommit : Bool) (n : Nat) (w : World δ) : Result × World δ :=
  begun (execute S autocommit n BEGIN) (cursor S BEGIN w).1 (cursor S BEGIN w).2

/-- What the user types. -/
inductive Op where
  | begin
  | execute (q : Bytes)
  | commit
  | rollback
deriving DecidableEq, Repr

/-- One of them. -/
def step {δ} (S : Server δ) (autocommit : Bool) (n : Nat) (w : World δ) : Op → Result × World δ
  | .begin => begin S autocommit n w
  | .execute q => execute S autocommit n q w
  | .commit => commit S w
  | .rollback => rollback S w

/-- All of them. -/
def run {δ} (S : Server δ) (autocommit : Bool) (n : Nat) (w : World δ) (ops : List Op) : World δ :=
  ops.foldl (fun w op => (step S autocommit n w op).2) w

/-- The end of the console: the session is closed. -/
def close {δ} (w : World δ) : δ := w.data.committed

end DbConn
end Frpc
