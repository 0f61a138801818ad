import Verif.Model.Clone
import Verif.Model.Descriptors
/-!
# Values as objects: `Pool_t` (`src/frpcpool.h`, `src/frpcpool.cc`), pointers between values, `clone`, `TreeBuilder_t` at work

The other models take a value for a tree. Here it is what it is in C++: an object that a pool owns, with pointers to other objects, which `append` and its kin store without copying
(`src/frpcarray.cc:114-130`, `src/frpcstruct.cc:71-132`).

Simplifications: every object has an address of its own, so that a dangling pointer is always seen to dangle; allocation does not fail; the bytes that a `StringView_t` or a `BinaryRef_t` refers to are part of
the object.
-/
namespace Frpc
namespace Heap
open Descriptors (Act)
open TreeBuilder (Cfg)

/-- An object: a scalar, `Array_t::arrayData`, `Struct_t::structData` in order, the pointer of a `SecretValue_t`. -/
inductive Node where
  | leaf (v : Value)
  | arr (ps : List Nat)
  | str (ms : List (Bytes × Nat))
  | secret (p : Nat)

/-- The objects alive, the next address, `pointerStorage` of every pool, and what was created and deleted, in order. -/
structure Mem where
  node : Nat → Option Node
  next : Nat
  pool : Nat → List Nat
  log : List Act

/-- Address of `Null_t::staticValue` (`src/frpcnull.cc`), which no pool owns. -/
def nullAt : Nat := 0

/-- Before anything is created. -/
def start : Mem := ⟨fun x => if x = nullAt then some (.leaf .null) else none, 1, fun _ => [], []⟩

/-- `new`, and `pointerStorage.push_back` (`src/frpcpool.cc:67-73` and so on). -/
def alloc (p : Nat) (n : Node) (m : Mem) : Mem × Nat :=
  (⟨fun x => if x = m.next then some n else m.node x, m.next + 1, fun q => if q = p then m.pool p ++ [m.next] else m.pool q, m.log ++ [.made m.next]⟩, m.next)

/-- An object changes. -/
def set (x : Nat) (n : Node) (m : Mem) : Mem := { m with node := fun y => if y = x then some n else m.node y }

/-- `Array_t::push_back`, `append` (`src/frpcarray.cc:114-124`). -/
def push (a x : Nat) (m : Mem) : Mem × Except Err Nat :=
  match m.node a with
  | some (.arr ps) => (set a (.arr (ps ++ [x])) m, .ok a)
  | _ => (m, .error .ub)

/-- `Array_t::replace` (`src/frpcarray.cc:126-133`). -/
def replace (a i x : Nat) (m : Mem) : Mem × Except Err Nat :=
  match m.node a with
  | some (.arr ps) => if i ≥ ps.length then (m, .error .index) else (set a (.arr (ps.set i x)) m, .ok a)
  | _ => (m, .error .ub)

/-- `Struct_t::append(key, value)` (`src/frpcstruct.cc:119-132`). -/
def append (s : Nat) (k : Bytes) (x : Nat) (m : Mem) : Mem × Except Err Nat :=
  match m.node s with
  | some (.str ms) =>
    match SMap.appendChecked k x ms with
    | .ok ms => (set s (.str ms) m, .ok s)
    | .error e => (m, .error e)
  | _ => (m, .error .ub)

/-- `Struct_t::insert` (`src/frpcstruct.cc:71-80`). -/
def insert (s : Nat) (k : Bytes) (x : Nat) (m : Mem) : Mem × Except Err Nat :=
  match m.node s with
  | some (.str ms) => (set s (.str (SMap.insert k x ms).1) m, .ok s)
  | _ => (m, .error .ub)

/-- `Struct_t::erase` (`src/frpcstruct.cc:197-199`). -/
def erase (s : Nat) (k : Bytes) (m : Mem) : Mem × Except Err Nat :=
  match m.node s with
  | some (.str ms) => (set s (.str (SMap.erase k ms).1) m, .ok s)
  | _ => (m, .error .ub)

/-- `clear` of an array or a struct (`src/frpcarray.cc:99-102`, `src/frpcstruct.cc:192-195`). -/
def clear (x : Nat) (m : Mem) : Mem × Except Err Nat :=
  match m.node x with
  | some (.arr _) => (set x (.arr []) m, .ok x)
  | some (.str _) => (set x (.str []) m, .ok x)
  | _ => (m, .error .ub)

/-- Creating a scalar; `Pool_t::Null` gives the static object (`src/frpcpool.cc:434-436`). -/
def scalar (p : Nat) (v : Value) (m : Mem) : Mem × Nat :=
  match v with
  | .null => (m, nullAt)
  | v => alloc p (.leaf v) m

/-- The loop of `Array_t::clone` (`src/frpcarray.cc:55-56`), given how an item is cloned. -/
def cloneItems (c : Nat → Mem → Mem × Except Err Nat) (a : Nat) : List Nat → Mem → Mem × Except Err Nat
  | [], m => (m, .ok a)
  | x :: xs, m =>
    match c x m with
    | (m, .error e) => (m, .error e)
    | (m, .ok y) =>
      match push a y m with
      | (m, .error e) => (m, .error e)
      | (m, .ok _) => cloneItems c a xs m

/-- The loop of `Struct_t::clone` (`src/frpcstruct.cc:59-62`), given how a member is cloned. -/
def cloneMembers (c : Nat → Mem → Mem × Except Err Nat) (s : Nat) : List (Bytes × Nat) → Mem → Mem × Except Err Nat
  | [], m => (m, .ok s)
  | (k, x) :: xs, m =>
    match c x m with
    | (m, .error e) => (m, .error e)
    | (m, .ok y) =>
      match insert s k y m with
      | (m, .error e) => (m, .error e)
      | (m, .ok _) => cloneMembers c s xs m

/-- `clone(pool)` (`src/frpcarray.cc:51-59`, `src/frpcstruct.cc:56-65`, `src/frpcsecret.cc:39-41`; scalars as in `Model/Clone`). The number bounds the depth of the recursion; `fuel` says it was reached. -/
def clone (cfg : Cfg) (p : Nat) : Nat → Nat → Mem → Mem × Except Err Nat
  | 0, _, m => (m, .error .fuel)
  | f + 1, x, m =>
    match m.node x with
    | none => (m, .error .ub)
    | some (.leaf v) =>
      match Clone.clone cfg v with
      | .error e => (m, .error e)
      | .ok w => let q := scalar p w m; (q.1, .ok q.2)
    | some (.secret y) =>
      match clone cfg p f y m with
      | (m, .error e) => (m, .error e)
      | (m, .ok z) => let q := alloc p (.secret z) m; (q.1, .ok q.2)
    | some (.arr xs) => let q := alloc p (.arr []) m; cloneItems (clone cfg p f) q.2 xs q.1
    | some (.str xs) => let q := alloc p (.str []) m; cloneMembers (clone cfg p f) q.2 xs q.1

/-- The items of an array, given how one is walked. -/
def readItems (r : Nat → Except Err Value) : List Nat → Except Err (List Value)
  | [] => .ok []
  | x :: xs =>
    match r x with
    | .error e => .error e
    | .ok v =>
      match readItems r xs with
      | .error e => .error e
      | .ok vs => .ok (v :: vs)

/-- The members of a struct, given how one is walked. -/
def readMembers (r : Nat → Except Err Value) : List (Bytes × Nat) → Except Err (List (Bytes × Value))
  | [] => .ok []
  | (k, x) :: xs =>
    match r x with
    | .error e => .error e
    | .ok v =>
      match readMembers r xs with
      | .error e => .error e
      | .ok vs => .ok ((k, v) :: vs)

/-- The tree that a walk from an object meets: what the feeder (`src/frpctreefeeder.h`), `dumpValue`, comparison and so on do their work on. Objects that are no more are undefined behaviour; the number
bounds the depth. -/
def read (m : Mem) : Nat → Nat → Except Err Value
  | 0, _ => .error .fuel
  | f + 1, x =>
    match m.node x with
    | none => .error .ub
    | some (.leaf v) => .ok v
    | some (.secret y) =>
      match read m f y with
      | .error e => .error e
      | .ok v => .ok (.secret v)
    | some (.arr xs) =>
      match readItems (read m f) xs with
      | .error e => .error e
      | .ok vs => .ok (.array vs)
    | some (.str xs) =>
      match readMembers (read m f) xs with
      | .error e => .error e
      | .ok vs => .ok (.struct vs)

/-- `Pool_t::free` and the destructor (`src/frpcpool.cc:57-65`). -/
def free (p : Nat) (m : Mem) : Mem :=
  ⟨fun x => if x ∈ m.pool p then none else m.node x, m.next, fun q => if q = p then [] else m.pool q, m.log ++ (m.pool p).map .delete⟩

/-- `steal_pointers` (`src/frpcpool.h:447-452`); with itself the loop copies the pointers behind themselves and `clear` drops them all. -/
def steal (p o : Nat) (m : Mem) : Mem := { m with pool := fun q => if q = o then [] else if q = p then m.pool p ++ m.pool o else m.pool q }

/-- Move assignment (`src/frpcpool.h:73`) and move construction (`:72`, when there was no pool at `p`): the vector of the other, which is left empty. -/
def move (p o : Nat) (m : Mem) : Mem := { m with pool := fun q => if q = o then [] else if q = p then m.pool o else m.pool q }

/-- What a user can do. -/
inductive Op where
  | scalar (p : Nat) (v : Value)
  | array (p : Nat) (items : List Nat)
  | struct (p : Nat) (members : List (Bytes × Nat))
  | secret (p x : Nat)
  | push (a x : Nat)
  | replace (a i x : Nat)
  | append (s : Nat) (k : Bytes) (x : Nat)
  | insert (s : Nat) (k : Bytes) (x : Nat)
  | erase (s : Nat) (k : Bytes)
  | clear (x : Nat)
  | clone (x p : Nat)
  | free (p : Nat)
  | steal (p o : Nat)
  | move (p o : Nat)

/-- The members that `Pool_t::Struct(key1, item1, ...)` inserts (`src/frpcpool.cc:354-432`). -/
def members (ms : List (Bytes × Nat)) : List (Bytes × Nat) := ms.foldl (fun a km => (SMap.insert km.1 km.2 a).1) []

/-- One of them (`depth` bounds the recursion of `clone`); the address of what was made. -/
def step (cfg : Cfg) (depth : Nat) (m : Mem) : Op → Mem × Except Err Nat
  | .scalar p v => let q := scalar p v m; (q.1, .ok q.2)
  | .array p xs => let q := alloc p (.arr xs) m; (q.1, .ok q.2)
  | .struct p ms => let q := alloc p (.str (members ms)) m; (q.1, .ok q.2)
  | .secret p x => let q := alloc p (.secret x) m; (q.1, .ok q.2)
  | .push a x => push a x m
  | .replace a i x => replace a i x m
  | .append s k x => append s k x m
  | .insert s k x => insert s k x m
  | .erase s k => erase s k m
  | .clear x => clear x m
  | .clone x p => clone cfg p depth x m
  | .free p => (free p m, .ok nullAt)
  | .steal p o => (steal p o m, .ok nullAt)
  | .move p o => (move p o m, .ok nullAt)

/-- One after another. -/
def history (cfg : Cfg) (depth : Nat) (m : Mem) (ops : List Op) : Mem := ops.foldl (fun m op => (step cfg depth m op).1) m

/-! ## The tree builder -/

/-- Members of `TreeBuilder_t` (`src/frpctreebuilder.h:137-146`) with pointers; the innermost of `entityStorage` comes first. What kind an entity is, its object tells. -/
structure HB where
  first : Bool
  ret : Option Nat
  memberName : Bytes
  methodName : Bytes
  errNum : Int
  errMsg : Bytes
  stack : List Nat

/-- Constructor (`src/frpctreebuilder.h:61-63`). -/
def HB.init : HB := ⟨true, none, [], [], -500, [], []⟩

/-- `isMember` and `isFirst` (`src/frpctreebuilder.h:89-114`). -/
def put (x : Nat) (b : HB) (m : Mem) : Except Err (Mem × HB) :=
  match b.stack with
  | [] => if b.first then .ok (m, { b with ret := some x, first := false }) else .error .stream
  | a :: _ =>
    match m.node a with
    | some (.arr _) =>
      match push a x m with
      | (m, .ok _) => .ok (m, b)
      | (_, .error e) => .error e
    | _ =>
      match append a b.memberName x m with
      | (m, .ok _) => .ok (m, b)
      | (_, .error e) => .error e

/-- A scalar (`src/frpctreebuilder.cc:200-330`). -/
def buildScalar (p : Nat) (v : Value) (b : HB) (m : Mem) : Except Err (Mem × HB) :=
  let q := scalar p v m
  put q.2 b q.1

/-- `openArray`, `openStruct` (`src/frpctreebuilder.cc:352-373`). -/
def openNode (p : Nat) (n : Node) (b : HB) (m : Mem) : Except Err (Mem × HB) :=
  let q := alloc p n m
  match put q.2 b q.1 with
  | .error e => .error e
  | .ok (m, b) => .ok (m, { b with stack := q.2 :: b.stack })

/-- `closeArray`, `closeStruct` (`src/frpctreebuilder.cc:342-350`). -/
def closeNode (b : HB) (m : Mem) : Except Err (Mem × HB) :=
  match b.stack with
  | [] => .error .ub
  | _ :: s => .ok (m, { b with stack := s })

/-- One builder call (`src/frpctreebuilder.cc:200-373`) into the pool. After an exception the memory is that before the call: the object the call had made, which hangs nowhere and which the pool owns, is left out. -/
def build (cfg : Cfg) (p : Nat) (s : Mem × HB) : Event → Except Err (Mem × HB)
  | .int n => buildScalar p (.int n) s.2 s.1
  | .bool x => buildScalar p (.bool x) s.2 s.1
  | .double x => buildScalar p (.double x) s.2 s.1
  | .null => buildScalar p .null s.2 s.1
  | .string x => if cfg.strOk x then buildScalar p (.string x) s.2 s.1 else .error .type
  | .binary x => buildScalar p (.binary x) s.2 s.1
  | .dateTime d => buildScalar p (.dateTime (cfg.date d)) s.2 s.1
  | .member k => .ok (s.1, { s.2 with memberName := k })
  | .openArray _ => openNode p (.arr []) s.2 s.1
  | .openStruct _ => openNode p (.str []) s.2 s.1
  | .closeArray => closeNode s.2 s.1
  | .closeStruct => closeNode s.2 s.1
  | .methodCall name =>
    let q := alloc p (.arr []) s.1
    .ok (q.1, { s.2 with methodName := name, first := true, ret := some q.2, stack := q.2 :: s.2.stack })
  | .methodResponse => .ok s
  | .fault code msg => .ok (s.1, { s.2 with errNum := code, errMsg := msg, ret := none, first := true })

/-- The tree builder as a builder. -/
def builder (cfg : Cfg) (p : Nat) : BinUnMarshaller.Builder (Mem × HB) := ⟨build cfg p⟩

end Heap
end Frpc
