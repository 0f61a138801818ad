import Verif.Model.Sax
import Verif.Model.Base64
import Verif.Model.IsoDate
import Verif.Model.BinUnmarshaller
/-!
# `XmlUnMarshaller_t` (`src/frpcxmlunmarshaller.cc`)

The XML parser (libxml2) is a parameter: the callbacks it makes for each chunk and whether it reports an error. `strtod` and
the state of `errno` are parameters too. Builders that know null only (`TreeBuilder_t` and the like).
-/
namespace Frpc
namespace XmlUnMarshaller
open BinUnMarshaller (Builder Req)

/-- `internalType` and the results of `getValueType` (`src/frpcinternals.h:73-91`). -/
inductive Ty where
  | none | int | bool | double | string | dateTime | binary | struct | array | null
  | call | response | fault | methodName | memberName
deriving DecidableEq, Repr

/-- `getValueType` (`src/frpcxmlunmarshaller.cc:325-450`). The nested `switch`es on single characters lead to these comparisons. -/
def getValueType (name : Bytes) : Ty :=
  if name = asc "int" ∨ name = asc "i4" ∨ name = asc "i8" then .int
  else if name = asc "double" then .double
  else if name = asc "dateTime.iso8601" then .dateTime
  else if name = asc "string" then .string
  else if name = asc "struct" then .struct
  else if name = asc "base64" then .binary
  else if name = asc "boolean" then .bool
  else if name = asc "array" then .array
  else if name = asc "name" then .memberName
  else if name = asc "nil" then .null
  else if name = asc "methodName" then .methodName
  else if name = asc "methodCall" then .call
  else if name = asc "methodResponse" then .response
  else if name = asc "fault" then .fault
  else if name = asc "value" then .string
  else .none

/-- What is outside: `strtod` (the number and how many characters it used), whether `errno` is `ERANGE` before `strtol` (the code
does not clear it). -/
structure Env where
  strtod : Bytes → BitVec 64 × Nat
  erange : Bool

/-- Members of the unmarshaller (`src/frpcxmlunmarshaller.h:71-94`). `main` is one of none, call, response, fault. -/
structure X where
  exc : Option Err
  buf : Bytes
  ty : Ty
  main : Ty
  faultCode : Int
  faultString : Bytes
  ver : Version
  check : Bool
deriving DecidableEq, Repr

/-- Constructor (`src/frpcxmlunmarshaller.cc:232-256`); the default version is 2.1 (`src/frpcinternals.h:63-64`). -/
def init : X := ⟨none, [], .none, .none, 0, [], ⟨2, 1⟩, true⟩

/-- A builder call within the unmarshaller. -/
def call {β} (B : Builder β) (b : β) (e : Event) : β × Option Err :=
  match B.build b e with
  | .ok b => (b, none)
  | .error e => (b, some e)

/-- `buildMethodResponse` before the first element inside a response (`src/frpcxmlunmarshaller.cc:467-470`). -/
def beginResponse {β} (B : Builder β) (u : X) (b : β) : X × β × Option Err :=
  if u.main = .response then
    match call B b .methodResponse with
    | (b, none) => ({ u with main := .none }, b, none)
    | (b, some e) => (u, b, some e)
  else (u, b, none)

/-- Whether the main type is the wanted one (`src/frpcxmlunmarshaller.cc:492-501`); `none`: type `NONE`, as `finish` wants. -/
def wanted (want : Option Req) (t : Ty) : Bool :=
  match want, t with
  | some .any, _ => true
  | some .call, .call => true
  | some .response, .response => true
  | some .response, .fault => true
  | some .fault, .fault => true
  | _, _ => false

/-- `setValueType` (`src/frpcxmlunmarshaller.cc:454-508`). -/
def setValueType {β} (B : Builder β) (want : Option Req) (name : Bytes) (u : X) (b : β) : X × β × Option Err :=
  match getValueType name with
  | .struct =>
    match beginResponse B u b with
    | (u, b, some e) => (u, b, some e)
    | (u, b, none) =>
      if u.main = .fault then (u, b, none)
      else
        match call B b (.openStruct 0) with
        | (b, some e) => (u, b, some e)
        | (b, none) => ({ u with ty := .none }, b, none)
  | .array =>
    match beginResponse B u b with
    | (u, b, some e) => (u, b, some e)
    | (u, b, none) =>
      match call B b (.openArray 0) with
      | (b, some e) => (u, b, some e)
      | (b, none) => ({ u with ty := .none }, b, none)
  | .fault => if wanted want .fault then ({ u with main := .fault }, b, none) else ({ u with main := .fault }, b, some .stream)
  | .call => if wanted want .call then ({ u with main := .call }, b, none) else ({ u with main := .call }, b, some .stream)
  | .response =>
    if wanted want .response then ({ u with main := .response }, b, none) else ({ u with main := .response }, b, some .stream)
  | t =>
    match beginResponse B u b with
    | (u, b, some e) => (u, b, some e)
    | (u, b, none) => ({ u with ty := t }, b, none)

/-- `c_str()`. -/
def cstr (s : Bytes) : Bytes := s.takeWhile (· ≠ 0)

/-- The sign that `strtol` takes. -/
def sign : Bytes → Bool × Bytes
  | 45 :: s => (true, s)
  | 43 :: s => (false, s)
  | s => (false, s)

/-- `strtol(s, &end, 10)`: the number, whether `*end` is NUL, whether it sets `ERANGE`. Without digits the result is 0 and
`end` is the beginning. -/
def strtol (s : Bytes) : Int × Bool × Bool :=
  let t := sign ((cstr s).dropWhile isSpace)
  let ds := t.2.takeWhile isDigit
  if ds = [] then (0, (cstr s).isEmpty, false)
  else
    let v : Int := if t.1 then -(atoi ds : Int) else atoi ds
    let rest := t.2.drop ds.length
    if v > 2 ^ 63 - 1 then (2 ^ 63 - 1, rest.isEmpty, true)
    else if v < -2 ^ 63 then (-2 ^ 63, rest.isEmpty, true)
    else (v, rest.isEmpty, false)

/-- A builder call and then `internalType = NONE`. -/
def callNone {β} (B : Builder β) (u : X) (b : β) (e : Event) : X × β × Option Err :=
  match call B b e with
  | (b, none) => ({ u with ty := .none }, b, none)
  | (b, some e) => (u, b, some e)

/-- The case `INT` of `setValueData` (`src/frpcxmlunmarshaller.cc:539-557`). -/
def setInt {β} (env : Env) (B : Builder β) (u : X) (b : β) (data : Bytes) : X × β × Option Err :=
  match strtol data with
  | (_, false, _) => (u, b, some .stream)
  | (v, true, range) =>
    if (v = -2 ^ 63 ∨ v = 2 ^ 63 - 1) ∧ (range = true ∨ env.erange = true) then (u, b, some .stream)
    else if u.main = .fault then ({ u with faultCode := v, ty := .none }, b, none)
    else callNone B u b (.int v)

/-- `setValueData` (`src/frpcxmlunmarshaller.cc:510-608`). -/
def setValueData {β} (env : Env) (B : Builder β) (u : X) (b : β) (data : Bytes) : X × β × Option Err :=
  match u.ty with
  | .methodName =>
    match call B b (.methodCall data) with
    | (b, none) => ({ u with main := .none, ty := .none }, b, none)
    | (b, some e) => (u, b, some e)
  | .memberName => if u.main = .fault then ({ u with ty := .none }, b, none) else callNone B u b (.member data)
  | .double =>
    let r := env.strtod (cstr data)
    if r.2 = (cstr data).length then callNone B u b (.double r.1) else (u, b, some .stream)
  | .int => setInt env B u b data
  | .string => if u.main = .fault then ({ u with faultString := data, ty := .none }, b, none) else callNone B u b (.string data)
  | .binary => callNone B u b (.binary (Base64.process [] data).1)
  | .bool => callNone B u b (.bool (decide (data.head? = some 49)))
  | .null => callNone B u b .null
  | .dateTime =>
    match IsoDate.parse data with
    | .error e => (u, b, some e)
    | .ok f => callNone B u b (.dateTime ⟨f.year, f.month, f.day, f.hour, f.minute, f.sec, -1, -1, f.tz⟩)
  | _ => (u, b, none)

/-- `closeEntity` (`src/frpcxmlunmarshaller.cc:609-633`); `static_cast<int>(faultCode)`. -/
def closeEntity {β} (B : Builder β) (name : Bytes) (u : X) (b : β) : X × β × Option Err :=
  let u := { u with ty := .none }
  if u.main = .fault then
    if getValueType name = .fault then
      match call B b (.fault (i32 (u32 u.faultCode)) u.faultString) with
      | (b, none) => ({ u with faultCode := 0, faultString := [] }, b, none)
      | (b, some e) => (u, b, some e)
    else (u, b, none)
  else
    match getValueType name with
    | .struct => let q := call B b .closeStruct; (u, q.1, q.2)
    | .array => let q := call B b .closeArray; (u, q.1, q.2)
    | _ => (u, b, none)

/-- What the handlers in the callbacks remember of an exception (`src/frpcxmlunmarshaller.cc:62-71,87-95`): a stream error, or
an unknown one, which becomes `Error_t`. -/
def remember : Err → Err
  | .stream => .stream
  | .ub => .ub
  | .fuel => .fuel
  | _ => .other

/-- A callback whose body was done. -/
def caught {β} (q : X × β × Option Err) : X × β :=
  match q with
  | (u, b, none) => (u, b)
  | (u, b, some e) => ({ u with exc := some (remember e) }, b)

/-- `startElementXML` (`src/frpcxmlunmarshaller.cc:52-73`). -/
def onStart {β} (B : Builder β) (want : Option Req) (name : Bytes) (u : X) (b : β) : X × β × Option Err :=
  match setValueType B want name u b with
  | (u, b, none) => ({ u with buf := [] }, b, none)
  | q => q

/-- `endElementXML` (`src/frpcxmlunmarshaller.cc:75-98`). -/
def onStop {β} (env : Env) (B : Builder β) (name : Bytes) (u : X) (b : β) : X × β × Option Err :=
  match setValueData env B u b u.buf with
  | (u, b, none) => closeEntity B name u b
  | q => q

/-- One callback (`src/frpcxmlunmarshaller.cc:52-119`). -/
def sax {β} (env : Env) (B : Builder β) (want : Option Req) (u : X) (b : β) (ev : Sax) : X × β :=
  match u.exc with
  | some _ => (u, b)
  | none =>
    match ev with
    | .start name => caught (onStart B want name u b)
    | .stop name => caught (onStop env B name u b)
    | .text s => ({ u with buf := u.buf ++ s }, b)

/-- The callbacks of one chunk. -/
def saxAll {β} (env : Env) (B : Builder β) (want : Option Req) : X → β → List Sax → X × β
  | u, b, [] => (u, b)
  | u, b, ev :: evs => let q := sax env B want u b ev; saxAll env B want q.1 q.2 evs

/-- `buffer.find(versionStr)`. -/
def findSub (pat : Bytes) : Bytes → Option Nat
  | [] => if pat.isEmpty then some 0 else none
  | c :: s => if pat.isPrefixOf (c :: s) then some 0 else (findSub pat s).map (· + 1)

/-- `buffer.at(i) - 0x30`. -/
def digitAt (buffer : Bytes) (i : Nat) : Except Err UInt8 :=
  match buffer[i]? with
  | some c => .ok (c - 48)
  | none => .error .other

/-- The version in the first chunk (`src/frpcxmlunmarshaller.cc:279-293`); `at` throws `std::out_of_range`. After the first `at`
has thrown nothing is assigned; after the second the major version is. -/
def sniff (data : Bytes) (u : X) : X × Option Err :=
  if data ≠ [] ∧ u.check = true then
    let pat := asc "protocolVersion=\""
    let buffer := data.take 80
    match findSub pat buffer with
    | none => ({ u with check := false }, none)
    | some i =>
      if i + pat.length + 2 < data.length then
        match digitAt buffer (i + pat.length), digitAt buffer (i + pat.length + 2) with
        | .ok a, .ok b => ({ u with ver := ⟨a, b⟩, check := false }, none)
        | .ok a, .error e => ({ u with ver := ⟨a, u.ver.minor⟩ }, some e)
        | .error e, _ => (u, some e)
      else ({ u with check := false }, none)
  else (u, none)

/-- The parser: the chunks it got before and this one, to the callbacks it makes and whether it reports an error. An empty chunk
tells it to terminate. The number of the error is left out here: `Model/XmlErrors.lean` has it, with what the table of messages does. -/
abbrev Parser := List Bytes → Bytes → List Sax × Bool

/-- `unMarshall` (`src/frpcxmlunmarshaller.cc:272-321`), after the chunks `prev`. -/
def unMarshall {β} (env : Env) (P : Parser) (B : Builder β) (want : Option Req) (prev : List Bytes) (u : X) (b : β) (data : Bytes) :
    X × β × Option Err :=
  match sniff data u with
  | (u, some e) => (u, b, some e)
  | (u, none) =>
    let r := P prev data
    let q := saxAll env B want u b r.1
    if r.2 then (q.1, q.2, some .stream) else (q.1, q.2, q.1.exc)

/-- Chunks in order until one throws. -/
def unMarshallAll {β} (env : Env) (P : Parser) (B : Builder β) (want : Req) : List Bytes → X → β → List Bytes → X × β × Option Err
  | _, u, b, [] => (u, b, none)
  | prev, u, b, d :: ds =>
    match unMarshall env P B (some want) prev u b d with
    | (u, b, none) => unMarshallAll env P B want (prev ++ [d]) u b ds
    | q => q

/-- `finish` (`src/frpcxmlunmarshaller.cc:262-266`). -/
def finish {β} (env : Env) (P : Parser) (B : Builder β) (prev : List Bytes) (u : X) (b : β) : X × β × Option Err :=
  match unMarshall env P B none prev u b [] with
  | (u, b, some e) => (u, b, some e)
  | (u, b, none) => if u.ty ≠ .none then (u, b, some .stream) else (u, b, none)

/-- A new unmarshaller, the chunks, `finish`. -/
def run {β} (env : Env) (P : Parser) (B : Builder β) (want : Req) (b : β) (ds : List Bytes) : X × β × Option Err :=
  match unMarshallAll env P B want [] init b ds with
  | (u, b, none) => finish env P B ds u b
  | q => q

end XmlUnMarshaller
end Frpc
