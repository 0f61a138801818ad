import Verif.Model.Python
import Verif.Model.Struct
/-!
# The method registry of the Python module (`python/pythonserver.cc`)

Built for Python 3, as `Model/Python.lean`. CPython is not modelled: a Python callable is a function from a state and its positional
arguments to an object or an exception, and a new state. Callables that change the registry, lists that are changed by someone else
and running out of memory are not modelled; neither are reference counts.
-/
namespace Frpc
namespace PyServer
open Python (Py Key Exn decodes)

/-- What `PyErr_Fetch` gives: an exception whose type is `fastrpc.Fault` (or derived from it) with its value, which is the instance when
it was raised by Python code and may be the arguments when it was raised by C code; any other exception, with the text
`str(type): str(value)` (none: one of the two raises). -/
inductive Exc where
  | fault (value : Py)
  | other (text : Option Bytes)

/-- A Python callable, called with positional arguments. -/
abbrev Fn (σ : Type) := σ → List Py → Except Exc Py × σ

/-- What is known of the interpreter. `hashOk`: `Py_BuildValue` takes the format `s#` although `PY_SSIZE_T_CLEAN` is not defined, as it does
before Python 3.10. `text`: the text of the exceptions of the interpreter itself. `sort`: `PyList_Sort`. -/
structure Env where
  hashOk : Bool
  text : Exn → Bytes
  sort : List Py → Except Exc (List Py)

/-- An exception of the interpreter itself. -/
def Env.raise (E : Env) (e : Exn) : Exc := .other (some (E.text e))

/-! ## Signatures -/

/-- The name of a type letter (`python/pythonserver.cc:136-167`). -/
def letter (c : UInt8) : Option Bytes :=
  if c = 65 then some (asc "array")
  else if c = 83 then some (asc "struct")
  else if c = 66 then some (asc "binary")
  else if c = 68 then some (asc "dateTime")
  else if c = 98 then some (asc "bool")
  else if c = 100 then some (asc "double")
  else if c = 105 then some (asc "int")
  else if c = 115 then some (asc "string")
  else none

/-- The loop of `stringToSignature` (`python/pythonserver.cc:131-219`): the finished lists, the current one, `currentIndex` (which goes to -1 and
is incremented by the loop when a new part begins). `none` is `ValueError`. -/
def signatureLoop : List (List Bytes) → List Bytes → Nat → Bytes → Option (List (List Bytes))
  | done, cur, _, [] => some (done ++ [cur])
  | done, cur, i, c :: s =>
    if c = 58 then (if i ≠ 1 then none else signatureLoop done cur (i + 1) s)
    else if c = 44 then (if i < 2 then none else signatureLoop (done ++ [cur]) [] 0 s)
    else
      match letter c with
      | none => none
      | some t => if i = 1 then none else signatureLoop done (cur ++ [t]) (i + 1) s

/-- `stringToSignature` (`python/pythonserver.cc:124-219`). -/
def stringToSignature (s : Bytes) : Option (List (List Bytes)) := signatureLoop [] [] 0 s

/-- As a Python object. -/
def signatureObject (ps : List (List Bytes)) : Py := .list (ps.map (fun p => .list (p.map .str)))

/-! ## The registry -/

/-- `Method_t::callback`: a Python callable or the registry itself, for the built-in methods. -/
inductive Callback (σ : Type) where
  | user (f : Fn σ)
  | listMethods | methodSignature | methodHelp | multicall

/-- `Method_t` (`python/pythonserver.cc:221-241`). -/
structure Method (σ : Type) where
  callback : Callback σ
  signature : Py
  help : Py
  context : Option Py
  names : Option Py
  pos : Int

/-- `MethodRegistryObject` (`python/pythonserver.cc:245-260`). The postprocessor gets its arguments and the keywords `result`, `fault` and
`exc`; the time the call took is left out. -/
structure Reg (σ : Type) where
  pre : Option (Fn σ)
  post : Option (σ → List Py → Option Py → Option Py → Option Exc → Except Exc Py × σ)
  preRead : Option (Fn σ)
  introspection : Bool
  lookup : List (Bytes × Method σ)
  default : Option (Fn σ)
  defaultList : Option (Fn σ)
  defaultHelp : Option (Fn σ)
  defaultSignature : Option (Fn σ)
  head : Option (Fn σ)

/-- A built-in method (`registerInternalMethod`, `python/pythonserver.cc:1320-1328`, and the constructor of `Method_t`, 2213-2226). -/
def internal {σ} (cb : Callback σ) (signature help : Bytes) : Method σ :=
  ⟨cb, signatureObject ((stringToSignature signature).getD []), .str help, none, none, 0⟩

/-- The help texts (`python/pythonserver.cc:1377-1399`). -/
def helpList : Bytes := asc "Return an array of all available RPC methods on this server."
def helpSignature : Bytes := asc ("Given the name of a method, return an array of legal signatures. Each signature is an array of strings. " ++
  "The first item of each signature is the return type, and any others items are parameter types.")
def helpHelp : Bytes := asc "Given the name of a method, return a help string."
def helpMulticall : Bytes := asc ("Process an array of calls, and return an array of results. Calls should be structs of the form " ++
  "{'methodName': string, 'params': array}. Each result will either be a single-item array containg the result value, or a struct of the form " ++
  "{'faultCode': int, 'faultString': string}. This is useful when you need to make lots of small calls without lots of round trips.")

/-- `lookup->insert`, and `= m` for a name that is there (`python/pythonserver.cc:1434-1439`). -/
def put {σ} (name : Bytes) (m : Method σ) (l : List (Bytes × Method σ)) : List (Bytes × Method σ) :=
  let r := SMap.insert name m l
  if r.2 then r.1 else SMap.assign name m r.1

/-- The constructor (`MethodRegistryObject_new`, `python/pythonserver.cc:1332-1404`); that the callbacks are callable is checked by it. -/
def new (σ : Type) (pre : Option (Fn σ)) (post : Option (σ → List Py → Option Py → Option Py → Option Exc → Except Exc Py × σ))
    (preRead : Option (Fn σ)) (introspection : Bool) : Reg σ :=
  { pre := pre, post := post, preRead := preRead, introspection := introspection, default := none, defaultList := none, defaultHelp := none,
    defaultSignature := none, head := none,
    lookup := put (asc "system.multicall") (internal .multicall (asc "A:A") helpMulticall)
      (put (asc "system.methodHelp") (internal .methodHelp (asc "s:s") helpHelp)
      (put (asc "system.methodSignature") (internal .methodSignature (asc "s:s") helpSignature)
      (put (asc "system.listMethods") (internal .listMethods (asc "A:") helpList) []))) }

/-- The format `s` of `PyArg_ParseTuple`: a `str` that UTF-8 can encode and that has no NUL in it. -/
def asName : Py → Except Exn Bytes
  | .str s => if s.contains 0 then .error .value else .ok s
  | .surrogates => .error .unicode
  | _ => .error .type

/-- The arguments of `register`; `method` none: not callable. `doc` is the format `S`, which is `bytes` in Python 3. -/
structure RegisterArgs (σ : Type) where
  name : Py
  method : Option (Fn σ)
  signature : Option Py := none
  doc : Option Py := none
  context : Option Py := none
  names : Option Py := none
  pos : Int := 0

/-- The signature given to `register`: a `str` is parsed, anything else is kept (`python/pythonserver.cc:2190-2211`). -/
def givenSignature : Option Py → Except Exn Py
  | none => .ok (.tuple [])
  | some (.str s) =>
    match stringToSignature s with
    | none => .error .value
    | some ps => .ok (signatureObject ps)
  | some .surrogates => .error .unicode
  | some p => .ok p

/-- The help given to `register`. -/
def givenDoc : Option Py → Except Exn Py
  | none => .ok (.str [])
  | some (.bytes s) => .ok (.bytes s)
  | some _ => .error .type

/-- `register` (`python/pythonserver.cc:1406-1446`). -/
def register {σ} (r : Reg σ) (a : RegisterArgs σ) : Except Exn (Reg σ) :=
  match asName a.name with
  | .error e => .error e
  | .ok name =>
    match givenDoc a.doc with
    | .error e => .error e
    | .ok doc =>
      match a.method with
      | none => .error .type
      | some f =>
        match givenSignature a.signature with
        | .error e => .error e
        | .ok sig => .ok { r with lookup := put name ⟨.user f, sig, doc, a.context, a.names, a.pos⟩ r.lookup }

/-- An argument that should be callable: not given, given and callable, given and not callable. -/
inductive Maybe (σ : Type) where
  | missing | callable (f : Fn σ) | bad

/-- A callback after it was given or not. -/
def Maybe.over {σ} (m : Maybe σ) (old : Option (Fn σ)) : Option (Fn σ) :=
  match m with
  | .callable f => some f
  | _ => old

/-- Whether it is an object that is not callable. -/
def Maybe.isBad {σ} : Maybe σ → Bool
  | .bad => true
  | _ => false

/-- `registerDefault` (`python/pythonserver.cc:1448-1501`). The message for an object that is not callable takes the type name of the C struct
that describes the argument, not of the object (line 1484): undefined. -/
def registerDefault {σ} (r : Reg σ) (method list help signature : Maybe σ) : Except Exn (Reg σ) :=
  match method with
  | .missing => .error .type
  | _ =>
    if method.isBad || list.isBad || help.isBad || signature.isBad then .error .crash
    else .ok { r with default := method.over r.default, defaultList := list.over r.defaultList, defaultHelp := help.over r.defaultHelp,
                      defaultSignature := signature.over r.defaultSignature }

/-- `registerHead` (`python/pythonserver.cc:1504-1526`). -/
def registerHead {σ} (r : Reg σ) : Maybe σ → Except Exn (Reg σ)
  | .callable f => .ok { r with head := some f }
  | _ => .error .type

/-- A call that changes the registry. -/
inductive Op (σ : Type) where
  | method (a : RegisterArgs σ)
  | default (method list help signature : Maybe σ)
  | head (m : Maybe σ)

/-- One of them; one that raises changes nothing. -/
def step {σ} (r : Reg σ) (op : Op σ) : Reg σ :=
  let q := match op with
    | .method a => register r a
    | .default m l h s => registerDefault r m l h s
    | .head m => registerHead r m
  match q with
  | .ok r' => r'
  | .error _ => r

/-- A registry after a history of registrations. -/
def built {σ} (r : Reg σ) (ops : List (Op σ)) : Reg σ := ops.foldl step r

/-! ## Calling -/

/-- The state of the process: that of the user's functions, and whether memory that belongs to something else was written. -/
structure World (σ : Type) where
  user : σ
  corrupt : Bool

/-- What a C function that returns an object gives: a null pointer with an exception set, an object, or nothing, as the process is gone.
`fuel`: the bound on nested multicalls of the model. -/
inductive Ret where
  | null (e : Exc) | obj (v : Py) | crash | fuel

/-- From the result of a callable. -/
def Ret.of : Except Exc Py → Ret
  | .ok v => .obj v
  | .error e => .null e

/-- `makeFault(int, const char *, …)` and `makeFaultStruct` of the same form (`python/pythonserver.cc:304-318,375-387`): the text is cut to 511
bytes and must be UTF-8 then. -/
def faultText (m : Bytes) : Option Bytes := if decodes (m.take 511) then some (m.take 511) else none

/-- `makeFault` of a code. -/
def makeFault (E : Env) (code : Int) (m : Bytes) : Except Exc Py :=
  match faultText m with
  | some t => .ok (.fault code t)
  | none => .error (E.raise .unicode)

/-- `makeFault` of an exception (`python/pythonserver.cc:320-359`). -/
def faultOf (E : Env) (m : Bytes) : Exc → Except Exc Py
  | .fault v => .ok v
  | .other none => .error (.other none)
  | .other (some t) => if E.hashOk then .ok (.fault (-500) (m ++ t)) else .error (E.raise .system)

/-- `faultToStruct`, and `makeFaultStruct` (`python/pythonserver.cc:375-401`). -/
def faultStruct (code : Int) (m : Bytes) : Py :=
  .dict [(.str (asc "faultCode"), .int code), (.str (asc "faultString"), .str m)]

/-- `PyDict_GetItemString`. -/
def getItem (k : Bytes) : List (Key × Py) → Option Py
  | [] => none
  | (.str j, v) :: ms => if j = k then some v else getItem k ms
  | _ :: ms => getItem k ms

/-- A callable that is called while an exception is set: it runs; a result returned with an exception set is `SystemError`. -/
def whilePending (E : Env) {σ} (pending : Bool) (r : Except Exc Py × σ) : Except Exc Py × σ :=
  match pending, r with
  | true, (.ok _, st) => (.error (E.raise .system), st)
  | _, r => r

/-- The same of a built-in method. -/
def retPending {σ} (E : Env) (pending : Bool) (r : Ret × World σ) : Ret × World σ :=
  match pending, r with
  | true, (.obj _, w) => (.null (E.raise .system), w)
  | _, r => r

/-- `system.listMethods` (`python/pythonserver.cc:1662-1711`). The format `OO` has two places and three pointers are given: the arguments are
written over the header of the type `tuple` and nothing looks at them. -/
def listMethods {σ} (E : Env) (r : Reg σ) (w : World σ) : Ret × World σ :=
  let w := { w with corrupt := true }
  if !r.introspection then (.of (makeFault E (-508) (asc "Introspection API disabled for security reasons.")), w)
  else
    match r.defaultList with
    | none => (.obj (.list (r.lookup.map (fun m => .str m.1))), w)
    | some f =>
      match f w.user [] with
      | (.error e, st) => (.null e, { w with user := st })
      | (.ok (.list xs), st) =>
        let all := xs ++ r.lookup.map (fun m => .str m.1)
        if xs = [] then (.obj (.list all), { w with user := st })
        else (match E.sort all with
          | .ok s => .obj (.list s)
          | .error e => .null e, { w with user := st })
      | (.ok _, st) => (.null (E.raise .system), { w with user := st })

/-- The only argument of `system.methodSignature` and `system.methodHelp`. -/
def nameArg : List Py → Option Bytes
  | [p] =>
    match asName p with
    | .ok n => some n
    | .error _ => none
  | _ => none

/-- `system.methodSignature` (`python/pythonserver.cc:1713-1768`). -/
def methodSignature {σ} (E : Env) (r : Reg σ) (w : World σ) (args : List Py) : Ret × World σ :=
  match nameArg args with
  | none => (.of (makeFault E (-501) (asc "Method expects only one string.")), w)
  | some name =>
    if !r.introspection then (.of (makeFault E (-508) (asc "Introspection API disabled for security reasons.")), w)
    else
      match SMap.find? name r.lookup with
      | some m => (.obj m.signature, w)
      | none =>
        match r.defaultSignature with
        | none => (.of (makeFault E (-502) (asc "Method '" ++ name ++ asc "' not found.")), w)
        | some f =>
          match f w.user [.str name] with
          | (.error e, st) => (.null e, { w with user := st })
          | (.ok (.str s), st) =>
            (match stringToSignature s with
              | some ps => .obj (signatureObject ps)
              | none => .null (E.raise .value), { w with user := st })
          | (.ok .surrogates, st) => (.null (E.raise .unicode), { w with user := st })
          | (.ok v, st) => (.obj v, { w with user := st })

/-- `system.methodHelp` (`python/pythonserver.cc:1770-1809`). -/
def methodHelp {σ} (E : Env) (r : Reg σ) (w : World σ) (args : List Py) : Ret × World σ :=
  match nameArg args with
  | none => (.of (makeFault E (-501) (asc "Method expects only one string.")), w)
  | some name =>
    if !r.introspection then (.of (makeFault E (-508) (asc "Introspection API disabled for security reasons.")), w)
    else
      match SMap.find? name r.lookup with
      | some m => (.obj m.help, w)
      | none =>
        match r.defaultHelp with
        | none => (.of (makeFault E (-502) (asc "Method '" ++ name ++ asc "' not found.")), w)
        | some f =>
          match f w.user [.str name] with
          | (.error e, st) => (.null e, { w with user := st })
          | (.ok v, st) => (.obj v, { w with user := st })

/-- How `dispatchCall` is called from `system.multicall`. -/
abbrev Dispatch (σ : Type) := World σ → Bytes → Py → Except Exc Py → Ret × World σ

/-- A C string made of a C++ or Python string. -/
def cstr (s : Bytes) : Bytes := s.takeWhile (fun c => c != 0)

/-- One element of a multicall (`python/pythonserver.cc:1828-1919`). -/
def multicallOne {σ} (E : Env) (dispatch : Dispatch σ) (ip : Py) (w : World σ) : Py → Ret × World σ
  | .dict ms =>
    match getItem (asc "params") ms with
    | none => (.obj (faultStruct (-501) (asc "Cannot get params.")), w)
    | some p =>
      match Python.toTuple p with
      | .error _ => (.obj (faultStruct (-501) (asc "Params must be an array.")), w)
      | .ok args =>
        match getItem (asc "methodName") ms with
        | none => (.obj (faultStruct (-501) (asc "Cannot get methodName.")), w)
        | some (.str name) =>
          match dispatch w (cstr name) ip (.ok args) with
          | (.obj (.fault code m), w) => (.obj (faultStruct code m), w)
          | (.null _, w) => (.crash, w)
          | r => r
        | some n =>
          let e := match n with
            | .surrogates => E.raise .unicode
            | _ => E.raise .type
          match faultOf E (asc "Cannot convert methodName to string.") e with
          | .ok (.fault code m) => (.obj (faultStruct code m), w)
          | _ => (.crash, w)
  | _ => (.obj (faultStruct (-501) (asc "Expected structure with method call.")), w)

/-- The loop (`python/pythonserver.cc:1828-1923`). A null pointer in the list is found when the list is marshalled; the model stops there. -/
def multicallLoop {σ} (E : Env) (dispatch : Dispatch σ) (ip : Py) : World σ → List Py → List Py → Ret × World σ
  | w, acc, [] => (.obj (.list acc), w)
  | w, acc, x :: xs =>
    match multicallOne E dispatch ip w x with
    | (.obj v, w) => multicallLoop E dispatch ip w (acc ++ [v]) xs
    | r => r

/-- `system.multicall` (`python/pythonserver.cc:1811-1927`). -/
def multicall {σ} (E : Env) (dispatch : Dispatch σ) (ip : Py) (w : World σ) : List Py → Ret × World σ
  | [.list calls] => multicallLoop E dispatch ip w [] calls
  | _ => (.null (E.raise .type), w)

/-- `Method_t::operator()` (`python/pythonserver.cc:2229-2249`): the arguments are an object or a null pointer with an exception set, for which
`PyObject_CallObject` calls without arguments and `PyObject_CallFunctionObjArgs` ends its list. `pending`: an exception is set. -/
def callMethod {σ} (E : Env) (r : Reg σ) (dispatch : Dispatch σ) (w : World σ) (ip : Py) (m : Method σ) (params : Except Exc Py) (pending : Bool) :
    Ret × World σ :=
  match m.callback with
  | .user f =>
    let run := fun (args : List Py) (pending : Bool) =>
      let q := whilePending E pending (f w.user args)
      (Ret.of q.1, { w with user := q.2 })
    match m.context with
    | none =>
      match params with
      | .ok (.tuple xs) => run xs pending
      | .ok _ => (.null (E.raise .type), w)
      | .error _ => run [] true
    | some c =>
      match params with
      | .ok p => run [c, p] pending
      | .error _ => run [c] true
  | cb =>
    match params with
    | .error e => (.null e, w)
    | .ok p =>
      match cb with
      | .listMethods => retPending E pending (listMethods E r w)
      | _ =>
        match p with
        | .tuple xs =>
          match cb with
          | .methodSignature => retPending E pending (methodSignature E r w xs)
          | .methodHelp => retPending E pending (methodHelp E r w xs)
          | _ => retPending E pending (multicall E dispatch ip w xs)
        | _ => (.null (E.raise .type), w)

/-- The arguments `"(sOO…)"` of a call: the name must be UTF-8 and the parameters must not be a null pointer. -/
def buildArgs (E : Env) (name : Bytes) (params : Except Exc Py) (mk : Py → Py → List Py) : Except Exc (List Py) :=
  if decodes name then
    match params with
    | .ok p => .ok (mk (.str name) p)
    | .error e => .error e
  else .error (E.raise .unicode)

/-- Calling a user's function with arguments that may not have been built. -/
def callFn {σ} (f : Fn σ) (w : World σ) : Except Exc (List Py) → Except Exc Py × World σ
  | .error e => (.error e, w)
  | .ok args => let q := f w.user args; (q.1, { w with user := q.2 })

/-- The preprocessor (`python/pythonserver.cc:1570-1592`): the result so far (a fault), and the exception fetched. -/
def preStep {σ} (E : Env) (r : Reg σ) (w : World σ) (name : Bytes) (ip : Py) (params : Except Exc Py) : Option (Except Exc Py) × Option Exc × World σ :=
  match r.pre with
  | none => (none, none, w)
  | some f =>
    let more := match (SMap.find? name r.lookup).bind (·.names) with
      | none => []
      | some ns => [ns, .int (((SMap.find? name r.lookup).map (·.pos)).getD 0)]
    match callFn f w (buildArgs E name params (fun n p => [n, ip, p] ++ more)) with
    | (.ok _, w) => (none, none, w)
    | (.error e, w) => (some (faultOf E (asc "Unhandled exception in preprocessor ") e), some e, w)

/-- The method or the default method (`python/pythonserver.cc:1594-1617`): called when there is no result yet; `pending`: making a fault has
failed and left an exception. -/
def callStep {σ} (E : Env) (r : Reg σ) (dispatch : Dispatch σ) (w : World σ) (name : Bytes) (ip : Py) (params : Except Exc Py) (pending : Option Exc) :
    Ret × World σ :=
  match SMap.find? name r.lookup with
  | some m => callMethod E r dispatch w ip m params pending.isSome
  | none =>
    match r.default with
    | none => (.null (pending.getD (E.raise .system)), w)
    | some f =>
      match buildArgs E name params (fun n p => [n, p]) with
      | .error e => (.null e, w)
      | .ok args =>
        let q := whilePending E pending.isSome (f w.user args)
        (Ret.of q.1, { w with user := q.2 })

/-- The postprocessor and what is returned (`python/pythonserver.cc:1619-1659`). `PyObject_Call` with a null pointer for the arguments is
undefined. -/
def postStep {σ} (E : Env) (r : Reg σ) (w : World σ) (name : Bytes) (ip : Py) (params : Except Exc Py) (result : Option Py) (exc : Option Exc) :
    Ret × World σ :=
  let last := fun (w : World σ) =>
    match result with
    | some v => (Ret.obj v, w)
    | none => (.of (faultOf E (asc "Unhandled exception ") (exc.getD (.other none))), w)
  match r.post with
  | none =>
    match exc with
    | some (.fault v) => (.obj v, w)
    | _ => last w
  | some f =>
    match buildArgs E name params (fun n p => [n, ip, p]) with
    | .error _ => (.crash, w)
    | .ok args =>
      let fault := match result with
        | some (.fault c m) => some (Py.fault c m)
        | some _ => none
        | none => match exc with
          | some (.fault v) => some v
          | _ => none
      let q := f w.user args (if fault.isSome then none else result) fault (if fault.isSome || result.isSome then none else exc)
      let w := { w with user := q.2 }
      match q.1 with
      | .error e => (.of (faultOf E (asc "Unhandled exception in postprocessor ") e), w)
      | .ok .none => last w
      | .ok v => (.obj v, w)

/-- `dispatchCall` (`python/pythonserver.cc:1544-1660`). The name is a C string. -/
def dispatchWith {σ} (E : Env) (r : Reg σ) (dispatch : Dispatch σ) : Dispatch σ := fun w name ip params =>
  match preStep E r w name ip params with
  | (some (.ok v), exc, w) => postStep E r w name ip params (some v) exc
  | (res, exc, w) =>
    let pending : Option Exc := match res with
      | some (.error e) => some e
      | _ => none
    let missing : Option (Except Exc Py) :=
      if (SMap.find? name r.lookup).isNone && r.default.isNone then some (makeFault E (-506) (asc "Method '" ++ name ++ asc "' not found.")) else none
    match missing with
    | some (.ok v) => postStep E r w name ip params (some v) exc
    | _ =>
      let pending := match missing with
        | some (.error e) => some e
        | _ => pending
      match callStep E r dispatch w name ip params pending with
      | (.obj v, w) => postStep E r w name ip params (some v) exc
      | (.null e, w) => postStep E r w name ip params none (some e)
      | q => q

/-- With the bound on nested multicalls. -/
def dispatchCall {σ} (E : Env) (r : Reg σ) : Nat → Dispatch σ
  | 0 => fun w _ _ _ => (.fuel, w)
  | f + 1 => dispatchWith E r (dispatchCall E r f)

mutual
/-- Depth of an object. -/
def depth : Py → Nat
  | .list xs => depthItems xs + 1
  | .tuple xs => depthItems xs + 1
  | .dict ms => depthMembers ms + 1
  | _ => 0
/-- Elements. -/
def depthItems : List Py → Nat
  | [] => 0
  | x :: xs => max (depth x) (depthItems xs)
/-- Members. -/
def depthMembers : List (Key × Py) → Nat
  | [] => 0
  | (_, v) :: ms => max (depth v) (depthMembers ms)
end

/-- `dispatchCall` on its own. -/
def dispatch {σ} (E : Env) (r : Reg σ) : Dispatch σ := fun w name ip params =>
  dispatchCall E r (match params with
    | .ok p => depth p + 1
    | .error _ => 1) w name ip params

/-- `MethodRegistry.dispatch(name, clientIP, params)` (`python/pythonserver.cc:1529-1542`). -/
def dispatchPython {σ} (E : Env) (r : Reg σ) (w : World σ) (name : Py) (ip params : Py) : Ret × World σ :=
  match asName name with
  | .error e => (.null (E.raise e), w)
  | .ok n =>
    match ip with
    | .tuple _ => dispatch E r w n ip (.ok params)
    | _ => (.null (E.raise .type), w)

end PyServer
end Frpc
