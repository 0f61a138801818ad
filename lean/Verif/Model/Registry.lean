import Verif.Model.Array
import Verif.Model.Struct
import Verif.Model.TreeBuilder
import Verif.Model.BinMarshaller
import Verif.Model.TreeFeeder
import Verif.Basic.Decimal
/-!
# The method registry (`src/frpcmethodregistry.cc`)

Methods, the default method and the state they share are the user's: a method is a function from
the state and the arguments to a value or an exception, and a new state. Callbacks are recorded.
Validation of strings is off, as by default, so that `pool.String` does not throw.
-/
namespace Frpc
namespace Registry

/-- What a method may throw: the library's exceptions with their messages (`src/frpc*error.h`), a
fault, a protocol (HTTP) error, another `std::exception`, anything else. `fuel`: the bound on nested
multicalls of the model. -/
inductive Exn where
  | type (m : Bytes) | len (m : Bytes) | key (m : Bytes) | index (m : Bytes) | stream (m : Bytes)
  | fault (code : Int) (m : Bytes)
  | protocol (code : Int) (m : Bytes)
  | std (what : Bytes)
  | unknown
  | fuel
deriving DecidableEq, Repr

/-- `vsnprintf(buf, 1024, …)` of an expanded format (`src/frpcfault.cc:38-53` and the like). -/
def fmt (s : Bytes) : Bytes := s.take 1023

/-- A `std::string` seen through `c_str()`. -/
def cstr (s : Bytes) : Bytes := s.takeWhile (fun c => c != 0)

/-- `FRPC_INTERNAL_ERROR` … (`src/frpcmethodregistry.h:57-68`). -/
def INTERNAL : Int := -500
def TYPE_ERROR : Int := -501
def INDEX_ERROR : Int := -502
def PARSE_ERROR : Int := -503
def NO_SUCH_METHOD : Int := -506

/-- `getTypeName` of the value classes. -/
def typeName : Value → Bytes
  | .int _ => asc "int"
  | .bool _ => asc "bool"
  | .double _ => asc "double"
  | .string _ => asc "string"
  | .dateTime _ => asc "dateTime"
  | .binary _ => asc "binary"
  | .struct _ => asc "struct"
  | .array _ => asc "array"
  | .null => asc "null"
  | .binaryRef _ => asc "binaryref"
  | .stringView _ => asc "string_view"
  | .secret _ => asc "secret_value"

/-- A method's outcome. -/
abbrev Res (σ : Type) := Except Exn Value × σ

/-- What is registered under a name: a user's method or one of the built-in ones. -/
inductive Handler (σ : Type) where
  | user (f : σ → List Value → Res σ)
  | listMethods | methodHelp | methodSignature | multicall

/-- `RegistryEntry_t` (`src/frpcmethodregistry.h:70-78`). -/
structure Entry (σ : Type) where
  handler : Handler σ
  signature : Bytes
  help : Bytes

/-- `MethodRegistry_t` (`src/frpcmethodregistry.h:211-219`); `callbacks`: whether there are any. -/
structure Reg (σ : Type) where
  methods : List (Bytes × Entry σ)
  default : Option (σ → Bytes → List Value → Res σ)
  callbacks : Bool

/-- `registerMethod` (`src/frpcmethodregistry.cc:116-131`). -/
def registerMethod {σ} (r : Reg σ) (name : Bytes) (e : Entry σ) : Reg σ :=
  let ins := SMap.insert name e r.methods
  { r with methods := if ins.2 then ins.1 else SMap.assign name e ins.1 }

/-- `registerDefaultMethod` (`src/frpcmethodregistry.cc:133-136`). -/
def registerDefault {σ} (r : Reg σ) (d : Option (σ → Bytes → List Value → Res σ)) : Reg σ := { r with default := d }

/-- The constructor (`src/frpcmethodregistry.cc:95-114`). -/
def new (σ : Type) (callbacks introspection : Bool) : Reg σ :=
  let r : Reg σ := ⟨[], none, callbacks⟩
  if introspection then
    registerMethod (registerMethod (registerMethod (registerMethod r
      (asc "system.listMethods") ⟨.listMethods, asc "A:", asc "List all registered methods"⟩)
      (asc "system.methodHelp") ⟨.methodHelp, asc "s:s", asc "Return given method help"⟩)
      (asc "system.methodSignature") ⟨.methodSignature, asc "A:s", asc "Return given method signature"⟩)
      (asc "system.multicall") ⟨.multicall, asc "A:A", asc "Call given methods"⟩
  else r

/-- "Method %s not found". -/
def noSuchMethod (name : Bytes) : Exn := .fault NO_SUCH_METHOD (fmt (asc "Method " ++ cstr name ++ asc " not found"))

/-- "Method required … argument(s) but %zd argumet(s) given". -/
def wrongCount (required : Bytes) (n : Nat) : Exn :=
  .fault TYPE_ERROR (fmt (asc "Method required " ++ required ++ asc " but " ++ dec n ++ asc " argumet(s) given"))

/-- `checkItems` of one letter on one argument (`src/frpcarray.cc:161-238`, see `Arr.checkItems`):
"Parameter 1 must be … not …". -/
def check1 (letter : UInt8) (name : Bytes) (v : Value) : Except Exn Unit :=
  match Arr.checkItems [letter] [v] with
  | .ok _ => .ok ()
  | .error _ => .error (.type (fmt (asc "Parameter 1 must be " ++ name ++ asc " not " ++ typeName v ++ asc ".")))

/-- `String(v).getString()` (`src/frpcstring.h:169-180`). -/
def asString : Value → Except Exn Bytes
  | .string s => .ok s
  | v => .error (.type (fmt (asc "Type is " ++ typeName v ++ asc " but not string")))

/-- `Array(v)` (`src/frpcarray.h:234-241`). -/
def asArray : Value → Except Exn (List Value)
  | .array vs => .ok vs
  | v => .error (.type (fmt (asc "Type is " ++ typeName v ++ asc " but not array")))

/-- `strct[key]` (`src/frpcstruct.cc:174-181`). -/
def member (k : Bytes) (ms : List (Bytes × Value)) : Except Exn Value :=
  match SMap.find? k ms with
  | some v => .ok v
  | none => .error (.key (fmt (asc "Key \"" ++ k ++ asc "\" does not exist.")))

/-- `listMethods` (`src/frpcmethodregistry.cc:387-404`). -/
def listMethods {σ} (r : Reg σ) (params : List Value) : Except Exn Value :=
  if params.length ≠ 0 then .error (wrongCount (asc "0 arguments") params.length)
  else .ok (.array (r.methods.map (fun m => .string m.1)))

/-- The entry for the only argument of `methodHelp` and `methodSignature`
(`src/frpcmethodregistry.cc:406-424,429-445`). -/
def entryFor {σ} (r : Reg σ) (params : List Value) : Except Exn (Entry σ) :=
  match params with
  | [v] =>
    match check1 115 (asc "string") v with
    | .error e => .error e
    | .ok _ =>
      match asString v with
      | .error e => .error e
      | .ok name =>
        match SMap.find? name r.methods with
        | none => .error (noSuchMethod name)
        | some e => .ok e
  | _ => .error (wrongCount (asc "1 argument") params.length)

/-- `methodHelp` (`src/frpcmethodregistry.cc:406-427`). -/
def methodHelp {σ} (r : Reg σ) (params : List Value) : Except Exn Value :=
  match entryFor r params with
  | .error e => .error e
  | .ok e => .ok (.string e.help)

/-- The `switch` of `methodSignature` (`src/frpcmethodregistry.cc:454-489`): `none` begins a new
signature, `some none` is skipped. -/
def signatureLetter (c : UInt8) : Option (Option Bytes) :=
  if c = 44 then none
  else if c = 65 then some (some (asc "array"))
  else if c = 83 then some (some (asc "struct"))
  else if c = 66 then some (some (asc "binary"))
  else if c = 68 then some (some (asc "dateTime"))
  else if c = 98 then some (some (asc "bool"))
  else if c = 100 then some (some (asc "double"))
  else if c = 105 then some (some (asc "int"))
  else if c = 115 then some (some (asc "string"))
  else some none

/-- The loop of `methodSignature` (`src/frpcmethodregistry.cc:447-492`): finished signatures and the
actual one. The terminating NUL, which the loop also visits, is skipped by it. -/
def signatureLoop : List (List Value) → List Value → Bytes → List (List Value)
  | done, actual, [] => done ++ [actual]
  | done, actual, c :: s =>
    match signatureLetter c with
    | none => signatureLoop (done ++ [actual]) [] s
    | some none => signatureLoop done actual s
    | some (some t) => signatureLoop done (actual ++ [.string t]) s

/-- `methodSignature` (`src/frpcmethodregistry.cc:429-493`). -/
def methodSignature {σ} (r : Reg σ) (params : List Value) : Except Exn Value :=
  match entryFor r params with
  | .error e => .error e
  | .ok e => .ok (.array ((signatureLoop [] [] e.signature).map .array))

/-- `pool.Struct("faultCode", …, "faultString", …)`. -/
def faultStruct (code : Int) (m : Bytes) : Value := .struct [(asc "faultCode", .int code), (asc "faultString", .string m)]

/-- What the handlers of `multicall` make of an exception (`src/frpcmethodregistry.cc:547-577`):
`none` leaves `multicall`. -/
def multicallCatch : Exn → Option Value
  | .type m => some (faultStruct TYPE_ERROR m)
  | .len m => some (faultStruct TYPE_ERROR m)
  | .key m => some (faultStruct INDEX_ERROR m)
  | .index m => some (faultStruct INDEX_ERROR m)
  | .fault c m => some (faultStruct c m)
  | _ => none

/-- The method call inside `multicall` (`src/frpcmethodregistry.cc:508-544`). -/
def multicallOne {σ} (r : Reg σ) (call : Handler σ → σ → List Value → Res σ) (st : σ) (ms : List (Bytes × Value)) : Res σ :=
  match member (asc "methodName") ms with
  | .error e => (.error e, st)
  | .ok nv =>
    match asString nv with
    | .error e => (.error e, st)
    | .ok name =>
      match SMap.find? name r.methods, r.default with
      | none, none => (.error (noSuchMethod name), st)
      | none, some d =>
        match member (asc "params") ms with
        | .error e => (.error e, st)
        | .ok pv =>
          match asArray pv with
          | .error e => (.error e, st)
          | .ok ps => d st name ps
      | some e, _ =>
        match member (asc "params") ms with
        | .error e => (.error e, st)
        | .ok pv =>
          match asArray pv with
          | .error e => (.error e, st)
          | .ok ps => call e.handler st ps

/-- The loop of `multicall` (`src/frpcmethodregistry.cc:506-578`). -/
def multicallLoop {σ} (r : Reg σ) (call : Handler σ → σ → List Value → Res σ) : σ → List Value → List Value → Res σ
  | st, acc, [] => (.ok (.array acc), st)
  | st, acc, .struct ms :: vs =>
    match multicallOne r call st ms with
    | (.ok v, st) => multicallLoop r call st (acc ++ [v]) vs
    | (.error e, st) =>
      match multicallCatch e with
      | some v => multicallLoop r call st (acc ++ [v]) vs
      | none => (.error e, st)
  | st, acc, _ :: vs => multicallLoop r call st (acc ++ [faultStruct TYPE_ERROR (asc "Parameter must be struct")]) vs

/-- `multicall` (`src/frpcmethodregistry.cc:494-581`). -/
def multicall {σ} (r : Reg σ) (call : Handler σ → σ → List Value → Res σ) (st : σ) (params : List Value) : Res σ :=
  match params with
  | [v] =>
    match check1 65 (asc "array") v with
    | .error e => (.error e, st)
    | .ok _ =>
      match asArray v with
      | .error e => (.error e, st)
      | .ok vs => multicallLoop r call st [] vs
  | _ => (.error (wrongCount (asc "1 argument") params.length), st)

/-- `method->call(pool, params)`. A multicall may call itself; the bound is on the nesting. -/
def callHandler {σ} (r : Reg σ) : Nat → Handler σ → σ → List Value → Res σ
  | _, .user f, st, params => f st params
  | _, .listMethods, st, params => (listMethods r params, st)
  | _, .methodHelp, st, params => (methodHelp r params, st)
  | _, .methodSignature, st, params => (methodSignature r params, st)
  | 0, .multicall, st, _ => (.error .fuel, st)
  | f + 1, .multicall, st, params => multicall r (callHandler r f) st params

mutual
/-- Depth of a value, the bound on nested multicalls. -/
def depth : Value → Nat
  | .array vs => depthItems vs + 1
  | .struct ms => depthMembers ms + 1
  | .secret v => depth v + 1
  | _ => 0
/-- Elements. -/
def depthItems : List Value → Nat
  | [] => 0
  | v :: vs => max (depth v) (depthItems vs)
/-- Members. -/
def depthMembers : List (Bytes × Value) → Nat
  | [] => 0
  | (_, v) :: ms => max (depth v) (depthMembers ms)
end

/-- A call of the callbacks. -/
inductive Cb where
  | pre (name : Bytes) (params : List Value)
  | postOk (name : Bytes) (params : List Value) (result : Value)
  | postFault (name : Bytes) (params : List Value) (code : Int) (m : Bytes)

/-- The handlers of `processCall` that turn exceptions into faults (`src/frpcmethodregistry.cc:255-274`). -/
def toFault : Exn → Exn
  | .type m => .fault TYPE_ERROR m
  | .len m => .fault TYPE_ERROR m
  | .key m => .fault INDEX_ERROR m
  | .index m => .fault INDEX_ERROR m
  | .stream m => .fault PARSE_ERROR m
  | e => e

/-- The look-up and the call (`src/frpcmethodregistry.cc:225-253`), without the callbacks. -/
def dispatch {σ} (r : Reg σ) (st : σ) (name : Bytes) (params : List Value) : Res σ :=
  match SMap.find? name r.methods with
  | some e => callHandler r (depthItems params + 1) e.handler st params
  | none =>
    match r.default with
    | none => (.error (noSuchMethod name), st)
    | some d => d st name params

/-- `processCall` to a value (`src/frpcmethodregistry.cc:217-278`): the outcome, the state, the
callbacks called. -/
def processCall {σ} (r : Reg σ) (st : σ) (name : Bytes) (params : List Value) : Except Exn Value × σ × List Cb :=
  let pre := if r.callbacks then [Cb.pre name params] else []
  match dispatch r st name params with
  | (.ok v, st) => (.ok v, st, pre ++ if r.callbacks then [.postOk name params v] else [])
  | (.error e, st) => (.error (toFault e), st, pre)

/-- The message of an exception of the marshaller, which the model does not keep. -/
abbrev ErrText := Err → Bytes

/-- What a marshaller's exception is to the handlers of `processCall`. -/
def ofErr (txt : ErrText) : Err → Exn
  | .stream => .stream (txt .stream)
  | .fault c m => .fault c m
  | .http => .protocol 0 (txt .http)
  | e => .std (txt e)

/-- The fault that an exception becomes in `processCall` to a writer
(`src/frpcmethodregistry.cc:172-212`), and whether it does: protocol errors are thrown further. -/
def answerFault : Exn → Option (Int × Bytes)
  | .stream m => some (PARSE_ERROR, m)
  | .fault c m => some (c, m)
  | .protocol _ _ => none
  | .unknown => some (INTERNAL, asc "Caught unknown exception while dispatching method call.")
  | .fuel => none
  | .type m => some (INTERNAL, fmt (asc "Caught std::exception<" ++ cstr m ++ asc "> while dispatching method call."))
  | .len m => some (INTERNAL, fmt (asc "Caught std::exception<" ++ cstr m ++ asc "> while dispatching method call."))
  | .key m => some (INTERNAL, fmt (asc "Caught std::exception<" ++ cstr m ++ asc "> while dispatching method call."))
  | .index m => some (INTERNAL, fmt (asc "Caught std::exception<" ++ cstr m ++ asc "> while dispatching method call."))
  | .std m => some (INTERNAL, fmt (asc "Caught std::exception<" ++ cstr m ++ asc "> while dispatching method call."))

/-- What `processCall` to a writer did: the writes, what it threw, the state, the callbacks. -/
structure Answer (σ : Type) where
  writes : List Bytes
  thrown : Option Exn
  state : σ
  cbs : List Cb

/-- Handling of an exception, after the writes `ws` (`src/frpcmethodregistry.cc:172-212`). -/
def answerExn {σ} (strOk : Bytes → Bool) (ver : Version) (txt : ErrText) (callbacks : Bool) (name : Bytes) (params : List Value)
    (ws : List Bytes) (st : σ) (cbs : List Cb) (e : Exn) : Answer σ :=
  match answerFault e with
  | none => ⟨ws, some e, st, cbs⟩
  | some (code, m) =>
    let cbs := cbs ++ if callbacks then [.postFault name params code m] else []
    match BinMarshaller.run strOk ver [.packFault code (cstr m)] with
    | (ws', none) => ⟨ws ++ ws', none, st, cbs⟩
    | (ws', some e) => ⟨ws ++ ws', some (ofErr txt e), st, cbs⟩

/-- `processCall` to a writer, in the binary protocol (`src/frpcmethodregistry.cc:148-215`). -/
def processCallOut {σ} (r : Reg σ) (strOk : Bytes → Bool) (ver : Version) (txt : ErrText) (st : σ) (name : Bytes) (params : List Value) : Answer σ :=
  match processCall r st name params with
  | (.error e, st, cbs) => answerExn strOk ver txt r.callbacks name params [] st cbs e
  | (.ok v, st, cbs) =>
    match BinMarshaller.run strOk ver (.packMethodResponse :: feed v) with
    | (ws, none) => ⟨ws, none, st, cbs⟩
    | (ws, some e) => answerExn strOk ver txt r.callbacks name params ws st cbs (ofErr txt e)

/-- `getProtocolVersion` of a binary unmarshaller after it was given these bytes, whether or not it
accepted them (`src/frpcbinunmarshaller.cc:441-449`; the initial one `src/frpcinternals.h:63-64`). -/
def versionSeen : Bytes → Version
  | 0xCA :: 0x11 :: a :: b :: _ => ⟨a, b⟩
  | _ => ⟨2, 1⟩

/-- The fault answer of the two handlers of `processCall` from a reader
(`src/frpcmethodregistry.cc:345-362`), after the writes `ws`. The constructor of the marshaller throws
`Error_t` when it does not know the version. -/
def faultAnswer {σ} (strOk : Bytes → Bool) (ver : Version) (txt : ErrText) (ws : List Bytes) (st : σ) (cbs : List Cb) (code : Int) (m : Bytes) : Answer σ :=
  if BinMarshaller.accepts ver then
    match BinMarshaller.run strOk ver [.packFault code (cstr m)] with
    | (ws', none) => ⟨ws ++ ws', none, st, cbs⟩
    | (ws', some e) => ⟨ws ++ ws', some (ofErr txt e), st, cbs⟩
  else ⟨ws, some (.std (asc "Not supported protocol version")), st, cbs⟩

/-- What becomes of an exception there: only these two kinds are caught. -/
def readerExn {σ} (strOk : Bytes → Bool) (ver : Version) (txt : ErrText) (ws : List Bytes) (st : σ) (cbs : List Cb) : Exn → Answer σ
  | .stream m => faultAnswer strOk ver txt ws st cbs PARSE_ERROR m
  | .fault c m => faultAnswer strOk ver txt ws st cbs c m
  | e => ⟨ws, some e, st, cbs⟩

/-- `processCall` from a reader to a writer, binary protocol both ways
(`src/frpcmethodregistry.cc:310-365`). `ps`: the results of `reader.read`. -/
def processCallReader {σ} (r : Reg σ) (cfg : TreeBuilder.Cfg) (txt : ErrText) (st : σ) (ps : List Bytes) : Answer σ :=
  let u := BinUnMarshaller.unMarshallAll (TreeBuilder.builder cfg) .call BinUnMarshaller.init TreeBuilder.init ps
  let ver := versionSeen ps.flatten
  match u.2.2 with
  | some e => readerExn cfg.strOk ver txt [] st [] (ofErr txt e)
  | none =>
    if BinMarshaller.accepts ver then
      match TreeBuilder.getData u.2.1 with
      | .error e => readerExn cfg.strOk ver txt [] st [] (ofErr txt e)
      | .ok d =>
        match asArray d with
        | .error e => readerExn cfg.strOk ver txt [] st [] e
        | .ok params =>
          match processCall r st u.2.1.methodName params with
          | (.error e, st, cbs) => readerExn cfg.strOk ver txt [] st cbs e
          | (.ok v, st, cbs) =>
            match BinMarshaller.run cfg.strOk ver (.packMethodResponse :: feed v) with
            | (ws, none) => ⟨ws, none, st, cbs⟩
            | (ws, some e) => readerExn cfg.strOk ver txt ws st cbs (ofErr txt e)
    else ⟨[], some (.std (asc "Not supported protocol version")), st, []⟩

/-- `processCall` from a reader to a value, binary protocol (`src/frpcmethodregistry.cc:280-308`). The
only handler is that of stream errors. `ps`: the results of `reader.read`. -/
def processCallValue {σ} (r : Reg σ) (cfg : TreeBuilder.Cfg) (txt : ErrText) (st : σ) (ps : List Bytes) : Except Exn Value × σ × List Cb :=
  let u := BinUnMarshaller.unMarshallAll (TreeBuilder.builder cfg) .call BinUnMarshaller.init TreeBuilder.init ps
  let caught := fun e => match e with
    | Exn.stream m => Exn.fault PARSE_ERROR m
    | e => e
  match u.2.2 with
  | some e => (.error (caught (ofErr txt e)), st, [])
  | none =>
    match TreeBuilder.getData u.2.1 with
    | .error e => (.error (caught (ofErr txt e)), st, [])
    | .ok d =>
      match asArray d with
      | .error e => (.error (caught e), st, [])
      | .ok params =>
        match processCall r st u.2.1.methodName params with
        | (.error e, st, cbs) => (.error (caught e), st, cbs)
        | (.ok v, st, cbs) => (.ok v, st, cbs)

/-- A call that changes the registry. -/
inductive Op (σ : Type) where
  | method (name : Bytes) (e : Entry σ)
  | default (d : Option (σ → Bytes → List Value → Res σ))

/-- One of them. -/
def step {σ} (r : Reg σ) : Op σ → Reg σ
  | .method name e => registerMethod r name e
  | .default d => registerDefault r d

/-- A registry after a history of registrations. -/
def built {σ} (callbacks introspection : Bool) (ops : List (Op σ)) : Reg σ := ops.foldl step (new σ callbacks introspection)

end Registry
end Frpc
