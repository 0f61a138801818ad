import Verif.Basic.Bytes
/-!
# Completion of names at the console (`netcat/fastrpc-netcat3:164-183`, `466-498`, `638-663`, `722-733`)

The list of known names is one object that the completer shares with the console, so names appended later are offered too. Texts are
their UTF-8 bytes: a text begins with another one if its bytes do. The names added by `import` are not modelled.
-/
namespace Frpc
namespace NetcatComplete

/-- `Completer` (`netcat/fastrpc-netcat3:164-167`) and the list it shares. -/
structure Console where
  names : List Bytes
  matched : List Bytes

/-- `global_matches` (`netcat/fastrpc-netcat3:177-183`): `word[:n] == text`. -/
def globalMatches (text : Bytes) : List Bytes → List Bytes
  | [] => []
  | w :: ws => if w.take text.length = text then w :: globalMatches text ws else globalMatches text ws

/-- `complete` (`netcat/fastrpc-netcat3:169-175`): `None` stands for no more names. -/
def complete (c : Console) (text : Bytes) (state : Nat) : Console × Option Bytes :=
  if state = 0 then ({ c with matched := globalMatches text c.names }, (globalMatches text c.names)[0]?)
  else (c, c.matched[state]?)

/-- `_row.split('.')[0]` (`netcat/fastrpc-netcat3:471,652`). -/
def group (row : Bytes) : Bytes := row.takeWhile (· ≠ 46)

/-- The loop over what `system.listMethods` gave (`netcat/fastrpc-netcat3:469-472,650-653`): `none` is a row that is no text; the exception it
raises is caught outside the loop, so the rows before it stay. -/
def listed (client : Bytes) (names : List Bytes) : List (Option Bytes) → List Bytes
  | [] => names
  | none :: _ => names
  | some row :: rows =>
    if group row ≠ asc "system" then listed client (names ++ [client ++ asc "." ++ row]) rows else listed client names rows

/-- The words of the console (`netcat/fastrpc-netcat3:481-494`). -/
def words : List Bytes :=
  [asc "FILE", asc "exit", asc "help", asc "DateTime", asc "Boolean", asc "connect", asc "connectdb", asc "timeout", asc "charset",
   asc "autocommit", asc "autosort", asc "name", asc "shell", asc "?"]

/-- The start on a terminal (`netcat/fastrpc-netcat3:463-495`): what the server on the command line lists, `none` if there is none or
if it cannot be asked. -/
def start (rows : Option (List (Option Bytes))) : Console := ⟨listed (asc "client") [] (rows.getD []) ++ words, []⟩

/-- What happens at a terminal: a question of readline, or a new client. -/
inductive Event where
  | ask (text : Bytes) (state : Nat)
  | connected (client : Bytes) (rows : List (Option Bytes))
  | database (client : Bytes)

/-- One of them (`netcat/fastrpc-netcat3:638-642,648-653`). -/
def step (c : Console) : Event → Console × Option Bytes
  | .ask text state => complete c text state
  | .connected client rows => ({ c with names := listed client c.names rows }, none)
  | .database client =>
    ({ c with names := c.names ++ [client ++ asc ".execute", client ++ asc ".begin()", client ++ asc ".commit()", client ++ asc ".rollback()"] }, none)

/-- The console after some events. -/
def after (c : Console) : List Event → Console
  | [] => c
  | e :: es => after (step c e).1 es

end NetcatComplete
end Frpc
