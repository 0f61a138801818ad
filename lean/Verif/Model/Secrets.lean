import Verif.Model.TreeBuilder
import Verif.Basic.Decimal
/-!
# Secret values: pointers and `ExtTreeBuilder_t`

Pointers to secret values are gathered when a tree is fed (`src/frpctreefeeder.cc:71-166,242-340`) and given to the builder that rebuilds the
tree (`src/frpctreebuilder.cc:46-195,375-768`).
-/
namespace Frpc
namespace Secrets
open BinUnMarshaller (Builder)
open TreeBuilder (Cfg)

/-- `escape_segment` (`src/frpctreefeeder.cc:75-94`). -/
def escapeSegment : Bytes → Bytes
  | [] => []
  | c :: s => (if c = 44 then [126, 50] else if c = 47 then [126, 49] else if c = 126 then [126, 48] else [c]) ++ escapeSegment s

/-- `unescape_segment` (`src/frpctreebuilder.cc:168-195`); it throws `std::runtime_error`. -/
def unescapeSegment : Bytes → Except Err Bytes
  | [] => .ok []
  | 126 :: 48 :: s => do return 126 :: (← unescapeSegment s)
  | 126 :: 49 :: s => do return 47 :: (← unescapeSegment s)
  | 126 :: 50 :: s => do return 44 :: (← unescapeSegment s)
  | 126 :: _ => .error .other
  | c :: s => do return c :: (← unescapeSegment s)

/-- An item of `Secrets_t::pointer`: `std::variant<std::string, std::size_t>` (`src/frpctreefeeder.cc:144`). -/
inductive Seg where
  | key (k : Bytes)
  | index (i : Nat)
deriving DecidableEq, Repr

/-- The text of an item. -/
def Seg.text : Seg → Bytes
  | .key k => escapeSegment k
  | .index i => dec i

/-- `Secrets_t::str` (`src/frpctreefeeder.cc:124-141`). -/
def str (pointer : List Seg) : Bytes :=
  let result := pointer.flatMap fun s => 47 :: s.text
  if result = [] then [47] else result

mutual
/-- `feedValueImpl` with `Secrets_t` (`src/frpctreefeeder.cc:277-360`): the pointers, when no call of the marshaller throws. Simplified: arrays
have less than 2^32 elements (`auto i = 0u`). -/
def gather (pointer : List Seg) : Value → List Bytes
  | .secret v => str pointer :: gather pointer v
  | .array vs => gatherItems pointer 0 vs
  | .struct ms => gatherMembers pointer ms
  | _ => []
/-- The loop of `packArray` (`src/frpctreefeeder.cc:262-273`). -/
def gatherItems (pointer : List Seg) (i : Nat) : List Value → List Bytes
  | [] => []
  | v :: vs => gather (pointer ++ [.index i]) v ++ gatherItems pointer (i + 1) vs
/-- The loop of `packStruct` (`src/frpctreefeeder.cc:245-258`). -/
def gatherMembers (pointer : List Seg) : List (Bytes × Value) → List Bytes
  | [] => []
  | (k, v) :: ms => gather (pointer ++ [.key k]) v ++ gatherMembers pointer ms
end

/-- `feedValueAndGatherSecrets` (`src/frpctreefeeder.cc:342-360,377-386`), the pointers. -/
def gatherSecrets (v : Value) : List Bytes := gather [] v

/-! ## The tree of secrets -/

/-- What a `unique_ptr<SecretNode_t>` points to (`src/frpctreebuilder.cc:118-163`). -/
inductive STree where
  | null
  | node (edges : List (Bytes × STree))

/-- `SecretNode_t::edges`; of a `SecretKey_t` the string, the number is computed from it. -/
abbrev Edges := List (Bytes × STree)

/-- `SecretKey_t::to_int` (`src/frpctreebuilder.cc:83-100`) at position `i`; overflow of `int64_t` is undefined. -/
def toIntAt (i : Nat) (result : Int) : Bytes → Except Err Int
  | [] => .ok result
  | c :: s =>
    if 49 ≤ c ∧ c ≤ 57 then
      if result * 10 + c.toNat > 2 ^ 63 - 1 then .error .ub else toIntAt (i + 1) (result * 10 + c.toNat - 48) s
    else if c = 48 ∧ i = 0 then toIntAt (i + 1) result s
    else .ok (-1)

/-- `SecretKey_t::to_int`. -/
def toInt (s : Bytes) : Except Err Int := toIntAt 0 0 s

/-- `int_value == rhs` (`src/frpctreebuilder.cc:112-116`). Keys whose number overflows are not made. -/
def isIndex (k : Bytes) (i : Nat) : Bool :=
  match toInt k with
  | .ok n => n == i
  | .error _ => false

/-- `SecretNode_t::find` with a string (`src/frpctreebuilder.cc:136-143,106-110`). -/
def findKey (k : Bytes) : Edges → Option STree
  | [] => none
  | (k', t) :: es => if k' = k then some t else findKey k es

/-- `SecretNode_t::find` with a number. -/
def findIndex (i : Nat) : Edges → Option STree
  | [] => none
  | (k', t) :: es => if isIndex k' i then some t else findIndex i es

/-- `SecretNode_t::add` (`src/frpctreebuilder.cc:128-133`) and then the change of what the edge points to by `f`. -/
def addThen (k : Bytes) (f : STree → STree) : Edges → Edges
  | [] => [(k, f .null)]
  | (k', t) :: es => if k' = k then (k', f t) :: es else (k', t) :: addThen k f es

/-- The edges of the node an edge leads to, which is made if there is none (`src/frpctreebuilder.cc:642-644`). -/
def STree.edges : STree → Edges
  | .null => []
  | .node es => es

/-- The inner loop of `build_secret_tree` with the keys of the pointer (`src/frpctreebuilder.cc:634-645`). -/
def addPointer : List Bytes → Edges → Edges
  | [], es => es
  | [k], es => addThen k id es
  | k :: k' :: ks, es => addThen k (fun t => .node (addPointer (k' :: ks) t.edges)) es

/-- The segments from a position on: `next_key` until the end is reached (`src/frpctreebuilder.cc:610-622,636-641`). A slash at the end of the
pointer is the end. `seg` is the segment read so far. -/
def segments (seg : Bytes) : Bytes → List Bytes
  | [] => [seg]
  | 47 :: [] => [seg]
  | 47 :: c :: s => seg :: segments [] (c :: s)
  | c :: s => segments (seg ++ [c]) s

/-- The keys of the segments; the constructor of `SecretKey_t` computes the number. -/
def keysOf : List Bytes → Except Err (List Bytes)
  | [] => .ok []
  | s :: ss => do
    let k ← unescapeSegment s
    let _ ← toInt k
    return k :: (← keysOf ss)

/-- The keys of a pointer that begins with a slash. -/
def pointerKeys (pointer : Bytes) : Except Err (List Bytes) :=
  if pointer = [] then .ok [] else keysOf (segments [] pointer)

/-- `build_secret_tree` (`src/frpctreebuilder.cc:624-649`). `secret[0]` of an empty string is NUL. -/
def buildTree : Edges → List Bytes → Except Err Edges
  | es, [] => .ok es
  | es, (47 :: p) :: ps => do
    let ks ← pointerKeys p
    buildTree (addPointer ks es) ps
  | es, _ :: ps => buildTree es ps

/-! ## The builder -/

/-- Where an open container hangs. -/
inductive Hang where
  | child           -- in the array, call or response below it
  | key (k : Bytes) -- in the struct below it
  | lost            -- nowhere: a struct got a value without a name
deriving DecidableEq, Repr

/-- `Node_t` (`src/frpctreebuilder.cc:57-64`). As in `TreeBuilder`, an open container is put into its parent when it is closed. `secret`: the
parent gets it wrapped in a `SecretValue_t`. -/
inductive Node where
  | fault (code : Int) (msg : Bytes)
  | call (name : Bytes) (args : List Value)
  | response (v : Option Value)
  | member (name : Bytes)
  | arr (secret : Bool) (hang : Hang) (vs : List Value)
  | str (secret : Bool) (hang : Hang) (ms : List (Bytes × Value))

/-- `PNode_t` (`src/frpctreebuilder.cc:651-654`). -/
structure PNode where
  node : Node
  secrets : Option Edges

/-- `Pimpl_t` (`src/frpctreebuilder.cc:656-659`); the top of `path` comes first. -/
structure XB where
  tree : Edges
  path : List PNode

/-- Constructor (`src/frpctreebuilder.cc:378-380`). -/
def new (secrets : List Bytes) : Except Err XB := do return ⟨← buildTree [] secrets, []⟩

/-- `return {!edge->second, edge->second.get()}` (`src/frpctreebuilder.cc:425-427`). -/
def found : Option STree → Bool × Option Edges
  | none => (false, none)
  | some .null => (true, none)
  | some (.node es) => (false, some es)

/-- `match_secret` (`src/frpctreebuilder.cc:415-459`). -/
def matchSecret : List PNode → Except Err (Bool × Option Edges)
  | [] => .ok (false, none)
  | ⟨_, none⟩ :: _ => .ok (false, none)
  | ⟨.fault _ _, some _⟩ :: _ => .ok (false, none)
  | ⟨.call _ args, some es⟩ :: _ => .ok (found (findIndex args.length es))
  | ⟨.response _, some _⟩ :: _ => .ok (false, none)
  | ⟨.arr _ _ vs, some es⟩ :: _ => .ok (found (findIndex vs.length es))
  | ⟨.str _ _ _, some _⟩ :: _ => .error .other
  | ⟨.member k, some es⟩ :: _ => .ok (found (findKey k es))

/-- `pool.Secret` if it is secret (`src/frpctreebuilder.cc:469-472`). -/
def wrap (secret : Bool) (v : Value) : Value := if secret then .secret v else v

/-- Puts a value into the node on top (`src/frpctreebuilder.cc:474-512`). -/
def put (v : Value) : List PNode → Except Err (List PNode)
  | [] => .error .ub
  | ⟨.fault _ _, _⟩ :: _ => .error .other
  | ⟨.call name args, n⟩ :: r => .ok (⟨.call name (args ++ [v]), n⟩ :: r)
  | ⟨.response none, n⟩ :: r => .ok (⟨.response (some v), n⟩ :: r)
  | ⟨.response (some _), _⟩ :: _ => .error .other
  | ⟨.arr s h vs, n⟩ :: r => .ok (⟨.arr s h (vs ++ [v]), n⟩ :: r)
  | ⟨.str s h ms, n⟩ :: r => .ok (⟨.str s h ms, n⟩ :: r)
  | ⟨.member k, _⟩ :: ⟨.str s h ms, n⟩ :: r => do return ⟨.str s h (← SMap.appendChecked k v ms), n⟩ :: r
  | ⟨.member _, _⟩ :: _ => .error .other

/-- The same for a container, which is not in yet: where it will hang. -/
def hang : List PNode → Except Err (Hang × List PNode)
  | [] => .error .ub
  | ⟨.fault _ _, _⟩ :: _ => .error .other
  | ⟨.response (some _), _⟩ :: _ => .error .other
  | ⟨.str s h ms, n⟩ :: r => .ok (.lost, ⟨.str s h ms, n⟩ :: r)
  | ⟨.member k, _⟩ :: ⟨.str s h ms, n⟩ :: r => if k.length > 255 then .error .len else .ok (.key k, ⟨.str s h ms, n⟩ :: r)
  | ⟨.member _, _⟩ :: _ => .error .other
  | p => .ok (.child, p)

/-- `build_node` with a value that is no container (`src/frpctreebuilder.cc:465-519`). -/
def buildLeaf (v : Except Err Value) (b : XB) : Except Err XB := do
  let m ← matchSecret b.path
  let v ← v
  return { b with path := ← put (wrap m.1 v) b.path }

/-- `build_node` with a container. -/
def buildOpen (mk : Bool → Hang → Node) (b : XB) : Except Err XB := do
  let m ← matchSecret b.path
  let h ← hang b.path
  return { b with path := ⟨mk m.1 h.1, m.2⟩ :: h.2 }

/-- Puts a finished container where it hangs. -/
def attach (v : Value) : Hang → List PNode → List PNode
  | .child, ⟨.call name args, n⟩ :: r => ⟨.call name (args ++ [v]), n⟩ :: r
  | .child, ⟨.response _, n⟩ :: r => ⟨.response (some v), n⟩ :: r
  | .child, ⟨.arr s h vs, n⟩ :: r => ⟨.arr s h (vs ++ [v]), n⟩ :: r
  | .key k, ⟨.str s h ms, n⟩ :: r => ⟨.str s h (SMap.append k v ms), n⟩ :: r
  | _, p => p

/-- `pop<Array_t *>` (`src/frpctreebuilder.cc:529-534`). -/
def popArray : List PNode → Except Err (List PNode)
  | ⟨.arr s h vs, _⟩ :: r => .ok (attach (wrap s (.array vs)) h r)
  | _ => .error .other

/-- `pop<Struct_t *>`. -/
def popStruct : List PNode → Except Err (List PNode)
  | ⟨.str s h ms, _⟩ :: r => .ok (attach (wrap s (.struct ms)) h r)
  | _ => .error .other

/-- `push` (`src/frpctreebuilder.cc:523-525`); `path.back()` of an empty path is undefined. -/
def pushName (k : Bytes) : List PNode → Except Err (List PNode)
  | [] => .error .ub
  | ⟨n, s⟩ :: r => .ok (⟨.member k, s⟩ :: ⟨n, s⟩ :: r)

/-- One call of the builder (`src/frpctreebuilder.cc:540-564,668-752`). -/
def build (cfg : Cfg) (b : XB) : Event → Except Err XB
  | .int n => buildLeaf (.ok (.int n)) b
  | .bool n => buildLeaf (.ok (.bool n)) b
  | .double n => buildLeaf (.ok (.double n)) b
  | .null => buildLeaf (.ok .null) b
  | .string s => buildLeaf (if cfg.strOk s then .ok (.string s) else .error .type) b
  | .binary s => buildLeaf (.ok (.binary s)) b
  | .dateTime d => buildLeaf (.ok (.dateTime (cfg.date d))) b
  | .openArray _ => buildOpen (fun s h => .arr s h []) b
  | .openStruct _ => buildOpen (fun s h => .str s h []) b
  | .closeArray => do return { b with path := ← popArray b.path }
  | .closeStruct => do return { b with path := ← popStruct b.path }
  | .member k => do return { b with path := ← pushName k b.path }
  | .methodCall name => if b.path.isEmpty then .ok { b with path := [⟨.call name [], some b.tree⟩] } else .error .other
  | .methodResponse => if b.path.isEmpty then .ok { b with path := [⟨.response none, some b.tree⟩] } else .error .other
  | .fault code msg => .ok { b with path := [⟨.fault code msg, none⟩] }

/-- The builder. -/
def builder (cfg : Cfg) : Builder XB := ⟨build cfg⟩

/-- What is in the node at the bottom, with the containers that are still open. -/
def bottom : Nat → List PNode → Option Node
  | _, [] => none
  | _, [p] => some p.node
  | 0, _ => none
  | n + 1, ⟨.arr s h vs, _⟩ :: r => bottom n (attach (wrap s (.array vs)) h r)
  | n + 1, ⟨.str s h ms, _⟩ :: r => bottom n (attach (wrap s (.struct ms)) h r)
  | n + 1, _ :: r => bottom n r

/-- `getMethodCall` (`src/frpctreebuilder.cc:754-758`). -/
def getMethodCall (b : XB) : Except Err (Bytes × List Value) :=
  match bottom b.path.length b.path with
  | some (.call name args) => .ok (name, args)
  | _ => .error .other

/-- `getMethodResponse` (`src/frpctreebuilder.cc:760-764`). -/
def getMethodResponse (b : XB) : Except Err (Option Value) :=
  match bottom b.path.length b.path with
  | some (.response v) => .ok v
  | _ => .error .other

/-- `getFault` (`src/frpctreebuilder.cc:766-768`). -/
def getFault (b : XB) : Option (Int × Bytes) :=
  match bottom b.path.length b.path with
  | some (.fault code msg) => some (code, msg)
  | _ => none

end Secrets
end Frpc
