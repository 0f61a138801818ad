import Verif.Model.Struct
import Verif.Model.BinUnmarshaller
/-!
# `TreeBuilder_t` (`src/frpctreebuilder.h`, `src/frpctreebuilder.cc:198-373`)

The C++ attaches a container to its parent when it is opened and keeps filling
it through a pointer.  The model keeps the open containers on a stack together
with the place they hang at, and attaches them when they are closed;
`TreeBuilder.data` gives what `getUnMarshaledData` sees at any time.
-/
namespace Frpc
namespace TreeBuilder

/-- Where an open container hangs in its parent. -/
inductive Slot where
  | root            -- it is `*retValue`
  | item            -- element of the array below it on the stack
  | key (k : Bytes) -- member of the struct below it on the stack
  | lost            -- `retValue` was changed by `buildFault` or `buildMethodCall` since
deriving DecidableEq, Inhabited

/-- Contents of an open container. -/
inductive Cont where
  | arr (vs : List Value)
  | str (ms : List (Bytes × Value))

/-- The container as a value. -/
def Cont.val : Cont → Value
  | .arr vs => .array vs
  | .str ms => .struct ms

/-- Library configuration seen by the builder: `strOk` is the outcome of
`String_t::validateBytes`; `mktime` is `none` when the date-time validation policy
is off, else the `mktime`/`localtime_r` result (unix time, week day) for the
calendar fields (`src/frpcdatetime.cc:45-67`; the policy is on by default,
`src/frpcconfig.cc:53-55`). -/
structure Cfg where
  strOk : Bytes → Bool
  mktime : Option (Int → Int → Int → Int → Int → Int → Int × Int)

/-- Constructor of `DateTime_t` used by `Pool_t::DateTime`
(`src/frpcdatetime.cc:45-67`). -/
def Cfg.date (cfg : Cfg) (d : DateTime) : DateTime :=
  match cfg.mktime with
  | none => d
  | some f =>
    let r := f d.year d.month d.day d.hour d.minute d.sec
    { d with unixTime := r.1, weekDay := r.2 }

/-- Members of `TreeBuilder_t` (`src/frpctreebuilder.h:137-146`). `frames` has
the innermost open container first. -/
structure TB where
  first : Bool
  ret : Option Value
  memberName : Bytes
  methodName : Bytes
  errNum : Int
  errMsg : Bytes
  frames : List (Slot × Cont)

/-- Constructor (`src/frpctreebuilder.h:61-63`). -/
def init : TB :=
  { first := true, ret := none, memberName := [], methodName := [], errNum := -500, errMsg := [], frames := [] }

/-- Adds a finished value to the container on top: `isMember`
(`src/frpctreebuilder.h:97-114`) with `Struct_t::append(key, value)`
(`src/frpcstruct.cc:119-132`) for structs. -/
def addTo (k : Bytes) (v : Value) : Cont → Except Err Cont
  | .arr vs => .ok (.arr (vs ++ [v]))
  | .str ms => do return .str (← SMap.appendChecked k v ms)

/-- A value built: `if (!isMember(v)) if (!isFirst(v)) throw StreamError_t`
(e.g. `src/frpctreebuilder.cc:200-206`). -/
def place (tb : TB) (v : Value) : Except Err TB :=
  match tb.frames with
  | (s, c) :: fs => do
      let c' ← addTo tb.memberName v c
      return { tb with frames := (s, c') :: fs }
  | [] => if tb.first then .ok { tb with ret := some v, first := false } else .error .stream

/-- Opening a container (`openArray`, `openStruct`,
`src/frpctreebuilder.cc:352-373`). The member name length check of
`Struct_t::append` happens here. -/
def openC (tb : TB) (c : Cont) : Except Err TB :=
  match tb.frames with
  | (_, .arr _) :: _ => .ok { tb with frames := (.item, c) :: tb.frames }
  | (_, .str _) :: _ =>
      if tb.memberName.length > 255 then .error .len
      else .ok { tb with frames := (.key tb.memberName, c) :: tb.frames }
  | [] => if tb.first then .ok { tb with first := false, frames := [(.root, c)] } else .error .stream

/-- Fixes the final content of a container where it hangs. -/
def attach (v : Value) : Slot → Option Value → List (Slot × Cont) → Option Value × List (Slot × Cont)
  | .root, _, fs => (some v, fs)
  | .lost, r, fs => (r, fs)
  | .item, r, (s, .arr vs) :: fs => (r, (s, .arr (vs ++ [v])) :: fs)
  | .key k, r, (s, .str ms) :: fs => (r, (s, .str (SMap.append k v ms)) :: fs)
  | _, r, fs => (r, fs)

/-- `closeArray` / `closeStruct` (`src/frpctreebuilder.cc:342-350`); `pop_back` on
an empty vector is undefined behaviour. -/
def close (tb : TB) : Except Err TB :=
  match tb.frames with
  | [] => .error .ub
  | (s, c) :: fs =>
    let r := attach c.val s tb.ret fs
    .ok { tb with ret := r.1, frames := r.2 }

/-- `retValue` points elsewhere from now on. -/
def loseRoot (f : Slot × Cont) : Slot × Cont := (if f.1 = .root then .lost else f.1, f.2)

/-- One builder call (`src/frpctreebuilder.cc:200-373`). -/
def build (cfg : Cfg) (tb : TB) : Event → Except Err TB
  | .int n => place tb (.int n)
  | .bool b => place tb (.bool b)
  | .double x => place tb (.double x)
  | .null => place tb .null
  | .string s => if cfg.strOk s then place tb (.string s) else .error .type
  | .binary s => place tb (.binary s)
  | .dateTime d => place tb (.dateTime (cfg.date d))
  | .member k => .ok { tb with memberName := k }
  | .openArray _ => openC tb (.arr [])
  | .openStruct _ => openC tb (.str [])
  | .closeArray => close tb
  | .closeStruct => close tb
  | .methodCall name =>
      .ok { tb with methodName := name, ret := none, first := true, frames := (.root, .arr []) :: tb.frames.map loseRoot }
  | .methodResponse => .ok tb
  | .fault code msg =>
      .ok { tb with errNum := code, errMsg := msg, ret := none, first := true
                    frames := tb.frames.map loseRoot }

/-- The tree builder as a builder. -/
def builder (cfg : Cfg) : BinUnMarshaller.Builder TB := ⟨build cfg⟩

/-- Value of the open containers collapsed into the root. -/
def collapse : Nat → Option Value → List (Slot × Cont) → Option Value
  | 0, r, _ => r
  | _ + 1, r, [] => r
  | n + 1, r, (s, c) :: fs => let q := attach c.val s r fs; collapse n q.1 q.2

/-- `getUnMarshaledDataPtr` (`src/frpctreebuilder.h:123`): the tree as built so far. -/
def data (tb : TB) : Option Value := collapse tb.frames.length tb.ret tb.frames

/-- `getUnMarshaledData` (`src/frpctreebuilder.h:116-131`). -/
def getData (tb : TB) : Except Err Value :=
  match data tb with
  | some v => .ok v
  | none => .error (.fault tb.errNum
      (if tb.errMsg ≠ [] then tb.errMsg else asc "No data unmarshalled"))

end TreeBuilder
end Frpc
