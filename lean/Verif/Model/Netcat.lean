import Verif.Model.Url
/-!
# The console (`netcat/fastrpc-netcat3`)

The loop over the lines of a script or of a terminal, the commands, and the address a client is made for. What Python does with an expression, a statement, an import or a help request, what
the constructor of a client does and how a spawned program ends are parameters (`World`). Texts are bytes. MySQL clients are only seen as one more thing that may be done. Not modelled: the tab
completion, the texts printed by `help` and `license`, the measuring of time.
-/
namespace Frpc
namespace Netcat

/-- `str.split(' ')` (`netcat/fastrpc-netcat3:562`): there is always a first part. -/
def split : Bytes → List Bytes
  | [] => [[]]
  | c :: s =>
    if c = 32 then [] :: split s
    else match split s with
      | [] => [[c]]
      | w :: ws => (c :: w) :: ws

/-- `.replace('\n', '').replace('\r', '').strip(' ')` (`netcat/fastrpc-netcat3:554,557-561`). -/
def clean (s : Bytes) : Bytes :=
  let t := s.filter (fun c => c != 10 && c != 13)
  (((t.dropWhile (fun c => c == 32)).reverse).dropWhile (fun c => c == 32)).reverse

/-- What the user can set. `timeout` is given to the constructor of a client, in milliseconds. -/
structure Settings where
  timeout : Int
  autocommit : Bool
  autosort : Bool
  charset : Bytes
  name : Bytes
deriving DecidableEq, Repr

/-- What a line makes the console do outside itself. -/
inductive Did where
  /-- An expression evaluated; its result is printed, as Python writes it if the line ended with an asterisk. -/
  | eval (expr : Bytes) (pyOut : Bool)
  | exec (code : Bytes)
  /-- A client made for a server, with a timeout, under a name. -/
  | connect (server : Bytes) (timeout : Int) (name : Bytes)
  | connectdb (host db user passwd : Bytes) (name : Option Bytes)
  | imported (module : Bytes)
  | shell
  | spawn (args : List Bytes)
  | methodHelp (name : Bytes)
  | pythonHelp (name : Bytes)
deriving DecidableEq, Repr

/-- How it ends: a fault, a protocol error and every other exception that is an `Exception` are `failed`. `exits` is `SystemExit`, which `exit(3)` as an expression raises. -/
inductive Outcome where
  | ok
  | failed
  | interrupt
  | eof
  | exits (status : Nat)
deriving DecidableEq, Repr

/-- The world outside: `int()`, whether the libraries are there, and what comes of everything done, which may depend on all that was done before. -/
structure World where
  int : Bytes → Option Int
  mysql : Bool
  outcome : List Did → Did → Outcome

/-- What a line asks for. -/
inductive Act where
  | nothing
  | quit
  | set (s : Settings)
  /-- A bad value for a setting: ends a script, ignored on a terminal. -/
  | badValue
  /-- An exception before anything was done. -/
  | raised
  | did (d : Did)
  /-- A client without a name of its own. -/
  | unnamed (server : Bytes)
deriving DecidableEq, Repr

/-- `s.find(pat) != -1`. -/
def contains (pat : Bytes) : Bytes → Bool
  | [] => pat.isEmpty
  | c :: s => pat.isPrefixOf (c :: s) || contains pat s

/-- `str.strip()`, of ASCII white space. -/
def strip (s : Bytes) : Bytes := (((s.dropWhile isSpace).reverse).dropWhile isSpace).reverse

/-- The address of a host, with the port if it was given (`netcat/fastrpc-netcat3:437-450,611-636`). -/
def address (host : Bytes) (port : Option Bytes) : Bytes :=
  let server :=
    if 47 ∈ host then host
    else (if host = asc "0" then asc "127.0.0.1" else host) ++ asc ":" ++ port.getD (asc "80") ++ asc "/RPC2"
  if contains (asc "://") server then server else asc "http://" ++ server

/-- The address on the command line, less the name of the program (`netcat/fastrpc-netcat3:434-450`). -/
def fromArgs : List Bytes → Option Bytes
  | [host] => some (address host none)
  | [host, port] => some (address host (some port))
  | _ => none

/-- Whether the second part of `connect` is a name (`netcat/fastrpc-netcat3:599-605`). -/
def hasName (W : World) (parts : List Bytes) : Bool :=
  decide (parts.length > 3) || (decide (parts.length = 3) && !((parts[2]?.bind W.int).isSome))

/-- `connectdb` (`netcat/fastrpc-netcat3:611-666`), with the parts from the one before the host on. -/
def connectDb (name : Option Bytes) (ps : List Bytes) : Act :=
  if 47 ∈ ps.getD 1 [] then .raised
  else if ps.length = 4 ∨ ps.length = 5 then
    .did (.connectdb (if ps.getD 1 [] = asc "0" then asc "127.0.0.1" else ps.getD 1 []) (ps.getD 2 []) (ps.getD 3 []) (ps.getD 4 []) name)
  else .raised

/-- `connect` (`netcat/fastrpc-netcat3:611-636,668-716`), with the parts from the one before the host on. -/
def connectRpc (timeout : Int) (name : Option Bytes) (ps : List Bytes) : Act :=
  match name with
  | some n => .did (.connect (address (ps.getD 1 []) (if ps.length = 3 then ps[2]? else none)) timeout n)
  | none => .unnamed (address (ps.getD 1 []) (if ps.length = 3 then ps[2]? else none))

/-- `connect` and `connectdb` (`netcat/fastrpc-netcat3:579-586,596-716`). `parts` begins with the command. -/
def connect (W : World) (db : Bool) (timeout : Int) (parts : List Bytes) : Act :=
  if parts.length < 2 then .raised
  else if hasName W parts then
    if db then connectDb (parts.drop 1).head? (parts.drop 1) else connectRpc timeout (parts.drop 1).head? (parts.drop 1)
  else if db then connectDb none parts
  else connectRpc timeout none parts

/-- A value of `autocommit` and `autosort` (`netcat/fastrpc-netcat3:722-737`). -/
def onOff (v : Bytes) : Option Bool :=
  if v ∈ [asc "1", asc "on", asc "true"] then some true
  else if v ∈ [asc "0", asc "off", asc "false"] then some false
  else none

/-- A line that is no command (`netcat/fastrpc-netcat3:830-842`). -/
def python (cmd : Bytes) : Act :=
  if cmd = [] then .nothing
  else
    let star := decide (cmd.getLast? = some 42)
    let c := if star then cmd.dropLast else cmd
    match c with
    | [] => .nothing
    | x :: code => if x = 33 then .did (.exec (strip code)) else .did (.eval c star)

/-- `method -h` (`netcat/fastrpc-netcat3:567-573`): the command and its parts. -/
def askHelp (cmd : Bytes) : Bytes × List Bytes :=
  let parts := split cmd
  if parts.length > 1 ∧ (parts.getLast? = some (asc "-h") ∨ parts.getLast? = some (asc "--help")) then
    let c := (parts.headD []).takeWhile (fun x => x != 40)
    (asc "? " ++ c, [asc "?", c])
  else (cmd, parts)

/-- A setting with a value of two kinds. -/
def setFlag (v : Bytes) (f : Bool → Settings) : Act :=
  match onOff v with
  | some b => .set (f b)
  | none => .badValue

/-- `timeout` (`netcat/fastrpc-netcat3:738-744`). -/
def setTimeout (W : World) (s : Settings) (v : Bytes) : Act :=
  match W.int v with
  | some n => .set { s with timeout := 1000 * n }
  | none => .badValue

/-- What a line asks for (`netcat/fastrpc-netcat3:574-842`). `parts` are those of `cmd`, `first` and `second` the first two of them. -/
def commandOf (W : World) (s : Settings) (cmd first second : Bytes) (parts : List Bytes) : Act :=
  if first = asc "connectdb" ∧ W.mysql = false then .raised
  else if first.head? = some 35 then .nothing
  else if cmd = asc "exit" ∨ cmd = asc "quit" then .quit
  else if first = asc "license" then .nothing
  else if first = asc "connect" then connect W false s.timeout parts
  else if first = asc "connectdb" then connect W true s.timeout parts
  else if first = asc "charset" ∧ parts.length = 2 then .set { s with charset := second }
  else if first = asc "name" ∧ parts.length = 2 then .set { s with name := second }
  else if first = asc "autocommit" ∧ parts.length = 2 then setFlag second (fun b => { s with autocommit := b })
  else if first = asc "autosort" ∧ parts.length = 2 then setFlag second (fun b => { s with autosort := b })
  else if first = asc "timeout" ∧ parts.length = 2 then setTimeout W s second
  else if first = asc "import" then if parts.length = 2 then .did (.imported second) else .nothing
  else if first = asc "shell" then if parts.length = 1 then .did .shell else .nothing
  else if first = asc "exec" then if parts.length ≥ 2 then .did (.spawn (parts.drop 1)) else .nothing
  else if first = asc "?" ∨ first = asc "??" ∨ first = asc "help" then
    if parts.length = 2 then if first = asc "??" then .did (.pythonHelp second) else .did (.methodHelp second) else .nothing
  else python cmd

/-- The same. -/
def actOf (W : World) (s : Settings) (cmd : Bytes) (parts : List Bytes) : Act := commandOf W s cmd (parts.headD []) (parts.getD 1 []) parts

/-- The variables of the loop. -/
structure State where
  settings : Settings
  /-- Everything done, oldest first. -/
  done : List Did
  clients : Nat
  line : Nat
  interrupted : Bool
deriving DecidableEq, Repr

/-- How the program ends: with a status; a line number if it complained of a line. -/
structure End where
  status : Nat
  complains : Option Nat
deriving DecidableEq, Repr

/-- An exception in a line (`netcat/fastrpc-netcat3:865-874,890-894`): it ends a script with `exit(-1)`, which is the status 255. -/
def failed (tty : Bool) (s : State) : State × Option End := (s, if tty then none else some ⟨255, some s.line⟩)

/-- Ctrl-C (`netcat/fastrpc-netcat3:876-887`). -/
def ctrlC (tty : Bool) (s : State) : State × Option End :=
  if tty then if s.interrupted then (s, some ⟨0, none⟩) else ({ s with interrupted := true }, none)
  else (s, some ⟨255, some s.line⟩)

/-- Something done and what becomes of it (`netcat/fastrpc-netcat3:865-894`). `n`: the clients without names if it succeeds. -/
def perform (W : World) (tty : Bool) (s : State) (d : Did) (n : Nat) : State × Option End :=
  let s' := { s with done := s.done ++ [d] }
  match W.outcome s.done d with
  | .ok => ({ s' with clients := n }, none)
  | .failed => failed tty s'
  | .interrupt => ctrlC tty s'
  | .eof => (s', some ⟨0, none⟩)
  | .exits k => (s', some ⟨k, none⟩)

/-- A line (`netcat/fastrpc-netcat3:552-894`). The number of clients counts those without a name that could be made; on a terminal the methods of a new one are listed, which is not modelled. -/
def step (W : World) (tty : Bool) (s0 : State) (text : Bytes) : State × Option End :=
  let s := { s0 with line := s0.line + 1, interrupted := false }
  let q := askHelp (clean text)
  match actOf W s.settings q.1 q.2 with
  | .nothing => (s, none)
  | .quit => (s, some ⟨0, none⟩)
  | .set t => ({ s with settings := t }, none)
  | .badValue => failed tty s
  | .raised => failed tty s
  | .did d => perform W tty s d s.clients
  | .unnamed server => perform W tty s (.connect server s.settings.timeout (asc "client" ++ dec (s.clients + 1))) (s.clients + 1)

/-- What comes from the keyboard or the script. -/
inductive Input where
  | line (text : Bytes)
  | ctrlC
deriving DecidableEq, Repr

/-- One input. -/
def input (W : World) (tty : Bool) (s : State) : Input → State × Option End
  | .line t => step W tty s t
  | .ctrlC => ctrlC tty s

/-- The loop (`netcat/fastrpc-netcat3:551-896`): the state at the end and how it ended; the end of the input is `EOFError` (`netcat/fastrpc-netcat3:888-889`). -/
def run (W : World) (tty : Bool) : State → List Input → State × End
  | s, [] => (s, ⟨0, none⟩)
  | s, i :: is =>
    match input W tty s i with
    | (s, none) => run W tty s is
    | (s, some e) => (s, e)

/-- The variables at the beginning (`netcat/fastrpc-netcat3:384-386,413-421,427,517-531`): with the address of a server on the command line a client is there. The name of the console is the number of the process. -/
def start (pid charset : Bytes) (hasClient : Bool) : State := ⟨⟨60000, true, true, charset, pid⟩, [], if hasClient then 1 else 0, 0, false⟩

end Netcat
end Frpc
