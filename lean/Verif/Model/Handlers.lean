import Verif.Model.PyText
/-!
# The handlers for web frameworks (`python/fastrpc/handler/aiohttp.py`, `flask.py`, `tornado.py`)

The frameworks are parameters: a request is its two header fields and its body, an exception that leaves a handler is answered by the framework (status 500, no
message). Texts are their UTF-8 bytes; header fields are ASCII, so that `strip` removes the white space of the C locale. Logging, and the fields `Accept`, `Server`, `Date` of
answers are not modelled; in Flask the fallback to `xmlrpc` without the module `fastrpc` is not modelled either. User functions do not depend on what has run before.
-/
namespace Frpc
namespace Handlers
open Python (Py Key Exn Params Opts)

/-- `FRPC_CONTENT_TYPE` (`python/fastrpc/handler/aiohttp.py:22`, `python/fastrpc/handler/flask.py:36`). -/
def frpcType : Bytes := asc "application/x-frpc"
/-- `RPC_CONTENT_TYPE` (`python/fastrpc/handler/aiohttp.py:23`, `python/fastrpc/handler/flask.py:37`). -/
def xmlType : Bytes := asc "text/xml"
/-- The types that are allowed if nothing else is said (`python/fastrpc/handler/aiohttp.py:30-36`, `python/fastrpc/handler/flask.py:58-63`, `python/fastrpc/handler/tornado.py:16`). -/
def bothTypes : List Bytes := [frpcType, xmlType]

/-- A POST request. -/
structure Request where
  accept : Option Bytes
  contentType : Option Bytes
  body : Bytes

/-- The library: the functions of `fastrpc` with their defaults. -/
structure Lib where
  L : DateTimeMake.Libc
  strOk : Bytes → Bool
  dbl : BitVec 64 → Bytes
  o : Opts
  env : XmlUnMarshaller.Env
  P : XmlUnMarshaller.Parser

/-- What `dumps` returns: `bytes` for binary messages, a `str` for XML (`python/fastrpcmodule.cc:2311-2322`). -/
inductive Data where
  | bytes (b : Bytes)
  | str (b : Bytes)

/-- `fastrpc.dumps(params, methodresponse=True, useBinary=useBinary)`: any number but 0 means binary (`python/fastrpcmodule.cc:2344-2370`). -/
def Lib.dumps (lib : Lib) (useBinary : Int) (p : Params) : Except Exn Data :=
  if useBinary ≠ 0 then (Python.dumpsBinary lib.L lib.strOk 2 1 none p).map Data.bytes
  else (Python.dumpsXml lib.L lib.dbl 2 1 none p).map Data.str

/-- `fastrpc.loads(data)`. -/
def Lib.loads (lib : Lib) (data : Bytes) : Except Exn (Py × Option Bytes) := Python.loads lib.o lib.env lib.P none data

/-- `len`: the characters of a `str`, each of which has one byte that does not continue another. -/
def Data.len : Data → Nat
  | .bytes b => b.length
  | .str b => (b.filter fun c => decide (c.toNat < 128 ∨ 192 ≤ c.toNat)).length

/-- The bytes the framework sends: a `str` in UTF-8. -/
def Data.payload : Data → Bytes
  | .bytes b => b
  | .str b => b

/-! ## Methods -/

/-- A registered function: one of the user's, or one of the handlers' own. -/
inductive Fn where
  | user (i : Nat)
  | listMethods
  | methodHelp
  | methodSignature
  | stat
deriving DecidableEq

/-- What the functions do: the user's by their arguments (an exception is the name of its class and its text), and the exception for wrong arguments of the others; their
documentation (`inspect.getdoc`) and their attribute `signature`. -/
structure App where
  call : Nat → List Py → Except (Bytes × Bytes) Py
  wrong : Fn → List Py → Bytes × Bytes
  doc : Fn → Option Bytes
  signature : Fn → Option Bytes

/-- The dictionary of methods, in order of insertion. -/
abbrev Methods := List (Bytes × Fn)

/-- `self.methods[method_name] = func` (`python/fastrpc/handler/aiohttp.py:42-46`, `python/fastrpc/handler/flask.py:73-83`). -/
def register (name : Bytes) (f : Fn) : Methods → Methods
  | [] => [(name, f)]
  | (n, g) :: ms => if n = name then (n, f) :: ms else (n, g) :: register name f ms

/-- `self.methods[method_name]`. -/
def lookup (name : Bytes) : Methods → Option Fn
  | [] => none
  | (n, g) :: ms => if n = name then some g else lookup name ms

/-- Several of them. -/
def registerAll (ms : Methods) : List (Bytes × Fn) → Methods
  | [] => ms
  | (n, f) :: rs => registerAll (register n f ms) rs

/-- The constructors (`python/fastrpc/handler/aiohttp.py:38-40`). -/
def aiohttpInit (introspection : Bool) : Methods :=
  if introspection then register (asc "system.methodHelp") .methodHelp (register (asc "system.listMethods") .listMethods []) else []
/-- (`python/fastrpc/handler/flask.py:65-69`.) -/
def flaskInit (introspection : Bool) : Methods := register (asc "server.stat") .stat (aiohttpInit introspection)

/-- `raise Exception("Method '%s' doesn't exist" % method_name)` (`python/fastrpc/handler/aiohttp.py:126-127`, `python/fastrpc/handler/tornado.py:88-89,100-101`). -/
def unknown (name : Bytes) : Bytes × Bytes := (asc "Exception", asc "Method '" ++ name ++ asc "' doesn't exist")

/-- `_system_method_help` (`python/fastrpc/handler/aiohttp.py:118-127`, `python/fastrpc/handler/flask.py:176-185`). -/
def helpOf (A : App) (ms : Methods) (name : Bytes) : Except (Bytes × Bytes) Py :=
  match lookup name ms with
  | none => .error (unknown name)
  | some f => .ok (.str ((A.doc f).getD []))

/-- `method(*args)` of the aiohttp and Flask handlers (`python/fastrpc/handler/aiohttp.py:112-127`, `python/fastrpc/handler/flask.py:170-189`). -/
def invoke (A : App) (ms : Methods) : Fn → List Py → Except (Bytes × Bytes) Py
  | .user i, xs => A.call i xs
  | .listMethods, [] => .ok (.list (ms.map fun m => .str m.1))
  | .methodHelp, [.str name] => helpOf A ms name
  | .stat, [] => .ok (.dict [])
  | f, xs => .error (A.wrong f xs)

/-- `inspect.getdoc(func)` may be `None` (`python/fastrpc/handler/tornado.py:93-101`). -/
def tornadoHelp (A : App) (ms : Methods) (name : Bytes) : Except (Bytes × Bytes) Py :=
  match lookup name ms with
  | none => .error (unknown name)
  | some f => .ok ((A.doc f).elim .none .str)

/-- `getattr(func, 'signature', '')` (`python/fastrpc/handler/tornado.py:77-89`). -/
def tornadoSignature (A : App) (ms : Methods) (name : Bytes) : Except (Bytes × Bytes) Py :=
  match lookup name ms with
  | none => .error (unknown name)
  | some f => .ok (.str ((A.signature f).getD []))

/-- `method_func(self.context, *args)` of the Tornado handler (`python/fastrpc/handler/tornado.py:69-102`). -/
def tornadoInvoke (A : App) (ms : Methods) : Fn → List Py → Except (Bytes × Bytes) Py
  | .user i, xs => A.call i xs
  | .listMethods, [] => .ok (.list (ms.map fun m => .str m.1))
  | .methodHelp, [.str name] => tornadoHelp A ms name
  | .methodSignature, [.str name] => tornadoSignature A ms name
  | f, xs => .error (A.wrong f xs)

/-! ## Requests -/

/-- `split(',')`. -/
def splitComma : Bytes → List Bytes
  | [] => [[]]
  | c :: cs => if c = 44 then [] :: splitComma cs else (c :: (splitComma cs).headD []) :: (splitComma cs).tail

/-- `strip()`. -/
def strip (s : Bytes) : Bytes := (((s.dropWhile isSpace).reverse).dropWhile isSpace).reverse

/-- The elements of a header field `Accept` that are not empty, as `_get_accepted_content_types` of aiohttp takes them. -/
def accepted (a : Bytes) : List Bytes := ((splitComma a).filter fun x => !x.isEmpty).map strip

/-- `_get_accepted_content_types` (`python/fastrpc/handler/aiohttp.py:68-72`); a missing `Content-Type` is a `KeyError`: none. -/
def aiohttpAccepts (r : Request) : Option (List Bytes) :=
  if accepted (r.accept.getD []) = [] then r.contentType.map fun t => [t] else some (accepted (r.accept.getD []))

/-- `_get_accepted_content_types` (`python/fastrpc/handler/flask.py:121-125`): the list is never empty. -/
def flaskAccepts (r : Request) : List Bytes := (splitComma (r.accept.getD [])).map strip

/-- `accept_ct_set` (`python/fastrpc/handler/tornado.py:26-31`). -/
def tornadoAccepts (r : Request) (contentType : Bytes) : List Bytes :=
  if r.accept.getD [] = [] then [contentType] else (splitComma (r.accept.getD [])).map strip

/-- Whether two sets have a common element. -/
def meet (a b : List Bytes) : Bool := a.any fun x => b.contains x

/-- What is sent: a status without a message; nothing, for an exception has left the handler; or a message with its `Content-Type` and `Content-Length`. -/
inductive Answer where
  | refused (status : Nat)
  | error (e : Exn)
  | message (contentType : Bytes) (length : Nat) (body : Bytes)

/-- What a request does: the methods that are run, and the answer. -/
structure Done where
  runs : List (Bytes × List Py)
  answer : Answer

/-- `*args`. -/
def argsOf : Py → List Py
  | .tuple xs => xs
  | .list xs => xs
  | _ => []

/-- The body of the answer, its type and its length (`python/fastrpc/handler/aiohttp.py:103-110`, `python/fastrpc/handler/flask.py:160-168`, `python/fastrpc/handler/tornado.py:48-66`). -/
def respond (lib : Lib) (useBinary : Int) (contentType : Bytes) (p : Params) : Answer :=
  match lib.dumps useBinary p with
  | .error e => .error e
  | .ok d => .message contentType d.len d.payload

/-- The struct that tells of a failure (`python/fastrpc/handler/aiohttp.py:78-81,88-91`, `python/fastrpc/handler/flask.py:131-134,143-146`). -/
def failure (status : Int) (text : Bytes) : Py := .dict [(.str (asc "status"), .int status), (.str (asc "statusMessage"), .str text)]

/-- `"Method '{}' not found.".format(method_name)`. -/
def missing (name : Option Bytes) : Py := failure 501 (asc "Method '" ++ name.getD (asc "None") ++ asc "' not found.")

/-- The result of a call, or what tells of its exception (`python/fastrpc/handler/aiohttp.py:83-91`, `python/fastrpc/handler/flask.py:136-146`). -/
def resultOf : Except (Bytes × Bytes) Py → Py
  | .ok v => v
  | .error e => failure 500 e.2

/-- The first part of `_create_response` (`python/fastrpc/handler/aiohttp.py:74-91`, `python/fastrpc/handler/flask.py:127-146`): what is run, and the response. -/
def dispatch (A : App) (ms : Methods) (args : Py) (name : Option Bytes) : List (Bytes × List Py) × Py :=
  match name with
  | none => ([], missing none)
  | some n =>
    match lookup n ms with
    | none => ([], missing (some n))
    | some f => ([(n, argsOf args)], resultOf (invoke A ms f (argsOf args)))

/-- `fastrpc.ALWAYS` and `fastrpc.NEVER` (`python/fastrpcmodule.cc:1299-1304,2994-2999`). -/
def ALWAYS : Int := 2
@[inherit_doc ALWAYS] def NEVER : Int := 3

/-- The second part of `_create_response` of aiohttp (`python/fastrpc/handler/aiohttp.py:95-110`). -/
def aiohttpAnswer (lib : Lib) (accepts : List Bytes) (v : Py) : Answer :=
  if accepts.contains frpcType then respond lib ALWAYS frpcType (.seq [v]) else respond lib NEVER xmlType (.seq [v])

/-- The call of a loaded request. -/
def aiohttpCall (lib : Lib) (A : App) (ms : Methods) (accepts : List Bytes) : Except Exn (Py × Option Bytes) → Done
  | .error e => ⟨[], .error e⟩
  | .ok (args, name) => ⟨(dispatch A ms args name).1, aiohttpAnswer lib accepts (dispatch A ms args name).2⟩

/-- `FastRPCHandler.handle` for aiohttp (`python/fastrpc/handler/aiohttp.py:48-66`). -/
def aiohttp (lib : Lib) (A : App) (allowed : List Bytes) (ms : Methods) (r : Request) : Done :=
  match aiohttpAccepts r with
  | none => ⟨[], .error .raised⟩
  | some accepts =>
    if !meet accepts allowed then ⟨[], .refused 400⟩
    else
      match r.contentType with
      | none => ⟨[], .error .raised⟩
      | some t => if !allowed.contains t then ⟨[], .refused 400⟩ else aiohttpCall lib A ms accepts (lib.loads r.body)

/-! ## Flask -/

/-- `'status' in response`. -/
def hasKey (k : Bytes) (ms : List (Key × Py)) : Bool := ms.any fun m => m.1 == Key.str k

/-- `response['status'] == 200` of an integer or a float; other objects are taken to be different from it. -/
def is200 : Option Py → Bool
  | some (.int n) => n == 200
  | some (.float b) => b == 0x4069000000000000
  | _ => false

/-- `response['status']`. -/
def item (k : Bytes) (ms : List (Key × Py)) : Option Py := (ms.find? fun m => m.1 == Key.str k).map Prod.snd

/-- The first step of `_response_autostatus` (`python/fastrpc/handler/flask.py:195-196`). -/
def withStatus (ms : List (Key × Py)) : List (Key × Py) :=
  if hasKey (asc "status") ms then ms else ms ++ [(.str (asc "status"), .int 200)]
/-- The second step (`python/fastrpc/handler/flask.py:197-198`). -/
def withMessage (ms : List (Key × Py)) : List (Key × Py) :=
  if !hasKey (asc "statusMessage") ms && is200 (item (asc "status") ms) then ms ++ [(.str (asc "statusMessage"), .str (asc "OK"))] else ms

/-- `_response_autostatus` (`python/fastrpc/handler/flask.py:192-198`). The object itself is changed; here is what is sent. -/
def autostatus : Py → Py
  | .dict ms => .dict (withMessage (withStatus ms))
  | v => v

/-- The second part of `_create_response` of Flask (`python/fastrpc/handler/flask.py:150-168`). -/
def flaskAnswer (lib : Lib) (accepts : List Bytes) (v : Py) : Answer :=
  if accepts.contains frpcType then respond lib 1 frpcType (.seq [autostatus v]) else respond lib 0 xmlType (.seq [autostatus v])

/-- The call of a loaded request. -/
def flaskCall (lib : Lib) (A : App) (ms : Methods) (accepts : List Bytes) : Except Exn (Py × Option Bytes) → Done
  | .error e => ⟨[], .error e⟩
  | .ok (args, name) => ⟨(dispatch A ms args name).1, flaskAnswer lib accepts (dispatch A ms args name).2⟩

/-- The data of a request (`python/fastrpc/handler/flask.py:99-113`): `uwsgi` is none outside uWSGI, otherwise what `uwsgi.chunked_read()` gives for a request (none: it raises). -/
def flaskData (uwsgi : Option (Request → Option Bytes)) (r : Request) (contentType : Bytes) : Option Bytes :=
  if contentType = frpcType then uwsgi.bind fun read => read r else some r.body

/-- The rest of `handle` once the types are known to be allowed. -/
def flaskLoad (lib : Lib) (A : App) (ms : Methods) (accepts : List Bytes) : Option Bytes → Done
  | none => ⟨[], .error .raised⟩
  | some data => flaskCall lib A ms accepts (lib.loads data)

/-- `FastRPCHandler.handle` for Flask (`python/fastrpc/handler/flask.py:85-119`). A missing `Content-Type` is a `BadRequestKeyError` of Werkzeug, which Flask answers with 400. -/
def flask (lib : Lib) (A : App) (uwsgi : Option (Request → Option Bytes)) (allowed : List Bytes) (ms : Methods) (r : Request) : Done :=
  if !meet (flaskAccepts r) allowed then ⟨[], .refused 400⟩
  else
    match r.contentType with
    | none => ⟨[], .refused 400⟩
    | some t => if !allowed.contains t then ⟨[], .refused 400⟩ else flaskLoad lib A ms (flaskAccepts r) (flaskData uwsgi r t)

/-! ## Tornado -/

/-- The response of a call (`python/fastrpc/handler/tornado.py:41-46`). -/
def tornadoParams : Except (Bytes × Bytes) Py → Params
  | .ok v => .seq [v]
  | .error e => .fault (some (-500)) (some (e.1 ++ asc ": " ++ e.2))

/-- (`python/fastrpc/handler/tornado.py:48-66`.) -/
def tornadoAnswer (lib : Lib) (accepts : List Bytes) (p : Params) : Answer :=
  if accepts.contains frpcType then respond lib 1 frpcType p else respond lib 0 xmlType p

/-- The call of a loaded request (`python/fastrpc/handler/tornado.py:39-46`): an unknown name is a `KeyError`. -/
def tornadoCall (lib : Lib) (A : App) (ms : Methods) (accepts : List Bytes) : Except Exn (Py × Option Bytes) → Done
  | .error e => ⟨[], .error e⟩
  | .ok (args, name) =>
    match name.bind fun n => lookup n ms with
    | none => ⟨[], .error .raised⟩
    | some f => ⟨[(name.getD [], argsOf args)], tornadoAnswer lib accepts (tornadoParams (tornadoInvoke A ms f (argsOf args)))⟩

/-- `FastRpcHandler.post` (`python/fastrpc/handler/tornado.py:18-66`). -/
def tornado (lib : Lib) (A : App) (ms : Methods) (r : Request) : Done :=
  match r.contentType with
  | none => ⟨[], .error .raised⟩
  | some t =>
    if !bothTypes.contains t then ⟨[], .refused 400⟩
    else if !meet (tornadoAccepts r t) bothTypes then ⟨[], .refused 406⟩
    else tornadoCall lib A ms (tornadoAccepts r t) (lib.loads r.body)

end Handlers
end Frpc
