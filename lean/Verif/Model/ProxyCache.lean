import Verif.Model.Url
import Verif.Model.Struct
/-!
# `ProxyCache_t` (`src/frpcserverproxy.cc:262-453`)

The proxies kept are of any type `α`. Every entry of the map is linked into exactly one timer queue from the moment `move_into` has
made it until it is erased, and both are changed under one lock; so the map is here the union of the queues. `std::multimap::find`
gives any of the entries with an equivalent key: which one is a parameter of the operation. Times are milliseconds; the calls of
`gettimeofday` are parameters too.
-/
namespace Frpc
namespace ProxyCache
open Url (Url)

/-- `LessURL_t` (`src/frpcserverproxy.cc:270-282`); `std::string::operator<` is the order of bytes. -/
def less (a b : Url) : Bool :=
  if a.port = b.port ∧ a.path = b.path then keyLt a.host b.host
  else if a.port = b.port then keyLt a.path b.path
  else decide (a.port < b.port)

/-- Keys that the map takes for the same. -/
def equiv (a b : Url) : Bool := !less a b && !less b a

/-- `TimeoutListHead` of an entry (`src/frpcserverproxy.cc:299-332`) with its key in the map. -/
structure Entry (α : Type) where
  key : Url
  impl : α
  next : Nat
  final : Nat

/-- A timer queue: `next_setoff_time` of its head and the entries in order. -/
structure Queue (α : Type) where
  head : Nat
  items : List (Entry α)

/-- `timeouts` (`src/frpcserverproxy.cc:452`). -/
abbrev Cache (α : Type) := Nat → Queue α

variable {α : Type}

/-- `TIMEOUT_QUEUES` (`src/frpcserverproxy.cc:289`). -/
def QUEUES : Nat := 20

/-- The cache before its first use: the heads' times are 0 (`src/frpcserverproxy.cc:330`). -/
def empty : Cache α := fun _ => ⟨0, []⟩

/-- Assignment to one of the queues. -/
def setQueue (c : Cache α) (i : Nat) (q : Queue α) : Cache α := fun j => if j = i then q else c j

/-- The loop of `schedule` that finds the queue (`src/frpcserverproxy.cc:341-351`): from the `i`-th on, for what is left of the
timeout; `n` turns are left. The result is the queue and, unless it is the last one, the delay. -/
def findQueue : Nat → Nat → Nat → Nat × Option Nat
  | 0, i, _ => (i, none)
  | n + 1, i, timeout =>
    if timeout / 2 = 0 then (i, some (2 ^ i)) else findQueue n (i + 1) (timeout / 2)

/-- When an entry put into the queue is looked at next. -/
def setoff (now : Nat) (final : Nat) : Option Nat → Nat
  | some d => now + d
  | none => final

/-- `schedule` (`src/frpcserverproxy.cc:334-362`) of an entry that has been delinked. The subtraction is on `uint64_t`. -/
def schedule (e : Entry α) (now : Nat) (c : Cache α) : Cache α :=
  let r := findQueue (QUEUES - 1) 0 ((2 ^ 64 + e.final - now) % 2 ^ 64)
  let next := setoff now e.final r.2
  let q := c r.1
  setQueue c r.1 ⟨if q.head > next then next else q.head, q.items ++ [{ e with next := next }]⟩

/-- The `while` of `perform_upkeep_locked` (`src/frpcserverproxy.cc:378-394`) for queue `i`; at most `n` turns. An entry that has
time left is delinked and scheduled again, others are erased. -/
def drain (now i : Nat) : Nat → Cache α → Cache α
  | 0, c => c
  | n + 1, c =>
    match (c i).items with
    | [] => c
    | e :: es =>
      if e.next > now then setQueue c i ⟨e.next, e :: es⟩
      else if e.final > now then drain now i n (schedule e now (setQueue c i ⟨(c i).head, es⟩))
      else drain now i n (setQueue c i ⟨(c i).head, es⟩)

/-- One turn of the `for` (`src/frpcserverproxy.cc:373-395`). Entries put back by the `while` are not due, so it ends when it has
seen each entry of the queue once and perhaps one more. -/
def upkeepOne (now i : Nat) (c : Cache α) : Cache α :=
  if (c i).head > now then c else drain now i ((c i).items.length + 1) c

/-- `perform_upkeep_locked` (`src/frpcserverproxy.cc:370-396`). -/
def upkeep (now : Nat) (c : Cache α) : Cache α := (List.range QUEUES).foldl (fun c i => upkeepOne now i c) c

/-- Where an entry is: the queue, the entries before it, itself, the entries after it. -/
structure Place (α : Type) where
  queue : Nat
  before : List (Entry α)
  entry : Entry α
  after : List (Entry α)

/-- The places of matching entries in a queue. -/
def placesIn (url : Url) (i : Nat) : List (Entry α) → List (Entry α) → List (Place α)
  | _, [] => []
  | pre, e :: es => (if equiv e.key url then [⟨i, pre, e, es⟩] else []) ++ placesIn url i (pre ++ [e]) es

/-- The places of all the entries that `map.find(url)` may give. -/
def places (url : Url) (c : Cache α) : List (Place α) := (List.range QUEUES).flatMap (fun i => placesIn url i [] (c i).items)

/-- `map.find(url)`: any one of the entries with that key. -/
def find (pick : Nat) (url : Url) (c : Cache α) : Option (Place α) :=
  let ps := places url c
  ps[pick % ps.length]?

/-- `timeout * 1000` as `uint32_t` (`src/frpcserverproxy.cc:445`). The product is one of `int`s: beyond 2^31 it is undefined. -/
def msec (timeout : Int) : Nat := u32 (timeout * 1000)

/-- `lookup` (`src/frpcserverproxy.cc:411-431`) without the settings of the proxy, see `Proxy.adopt`. -/
def lookup (timeout : Int) (now pick : Nat) (url : Url) (c : Cache α) : Option α × Cache α :=
  if timeout = 0 then (none, c)
  else
    let c := upkeep now c
    match find pick url c with
    | none => (none, c)
    | some p => (some p.entry.impl, setQueue c p.queue ⟨(c p.queue).head, p.before ++ p.after⟩)

/-- `move_into` (`src/frpcserverproxy.cc:433-446`): the clock is read twice. -/
def moveInto (timeout : Int) (now now' : Nat) (url : Url) (impl : α) (c : Cache α) : Cache α :=
  if timeout = 0 then c
  else schedule ⟨url, impl, 0, (now' + msec timeout) % 2 ^ 64⟩ now' (upkeep now c)

/-- One use of the cache: a lookup, which `pick`s, or a proxy handed back. -/
inductive Use (α : Type) where
  | take (now pick : Nat) (url : Url)
  | give (now now' : Nat) (url : Url) (impl : α)

/-- A history, and what each lookup in it gave. -/
def history (timeout : Int) : Cache α → List (Use α) → List (Option α) × Cache α
  | c, [] => ([], c)
  | c, .take now pick url :: us =>
    let r := lookup timeout now pick url c
    let q := history timeout r.2 us
    (r.1 :: q.1, q.2)
  | c, .give now now' url impl :: us => history timeout (moveInto timeout now now' url impl c) us

end ProxyCache
end Frpc
