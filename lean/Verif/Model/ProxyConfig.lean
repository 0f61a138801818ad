import Verif.Model.Proxy
import Verif.Model.Struct
/-!
# The configuration of a proxy as a struct (`src/frpcserverproxy.cc:57-103`)
-/
namespace Frpc
namespace ProxyConfig
open Proxy (Config)

/-- `is >> c` into a `uint8_t` (`src/frpcserverproxy.cc:81-83`): white space is skipped and one character is taken. If there is none the variable
stays uninitialised, and it is used. -/
def readChar (s : Bytes) : Except Err (UInt8 × Bytes) :=
  match s.dropWhile isSpace with
  | [] => .error .ub
  | c :: s => .ok (c, s)

/-- `FRPC_MAJOR_VERSION_DEFAULT`, `FRPC_MINOR_VERSION_DEFAULT` (`src/frpc.cc:606-610`, `src/frpcinternals.h`). -/
def defaultVersion : Version := ⟨2, 1⟩

/-- `parseProtocolVersion` on the string (`src/frpcserverproxy.cc:72-88`). -/
def parseVersion (s : Bytes) : Except Err Version :=
  if s = [] then .ok defaultVersion
  else do
    let a ← readChar s
    let b ← readChar a.2
    return ⟨a.1, b.1⟩

/-- `String(s.get(k, FRPC_EMPTY))` (`src/frpcstring.h:188-199`). -/
def getString (k : Bytes) (ms : List (Bytes × Value)) : Except Err Bytes :=
  match SMap.find? k ms with
  | none => .ok []
  | some (.string s) => .ok s
  | some _ => .error .type

/-- `Int(…)` and its default, as an unsigned 32-bit number: `getTimeout` (`src/frpcserverproxy.cc:61-70`) and `transferMode`. -/
def getInt (k : Bytes) (d : Nat) (ms : List (Bytes × Value)) : Except Err Nat :=
  match SMap.find? k ms with
  | none => .ok d
  | some (.int n) => .ok (u32 n)
  | some _ => .error .type

/-- `Bool(s.get(k, FRPC_FALSE))`. -/
def getBool (k : Bytes) (ms : List (Bytes × Value)) : Except Err Bool :=
  match SMap.find? k ms with
  | none => .ok false
  | some (.bool b) => .ok b
  | some _ => .error .type

/-- `configFromStruct` (`src/frpcserverproxy.cc:90-103`): the URL of the proxy server and the rest. -/
def configFromStruct (ms : List (Bytes × Value)) : Except Err (Bytes × Config) := do
  let proxyUrl ← getString (asc "proxyUrl") ms
  let readTimeout ← getInt (asc "readTimeout") 10000 ms
  let writeTimeout ← getInt (asc "writeTimeout") 1000 ms
  let mode ← getInt (asc "transferMode") 0 ms
  let http10 ← getBool (asc "useHTTP10") ms
  let text ← getString (asc "protocolVersion") ms
  let version ← parseVersion text
  let connectTimeout ← getInt (asc "connectTimeout") 10000 ms
  let keepAlive ← getBool (asc "keepAlive") ms
  return (proxyUrl, ⟨connectTimeout, readTimeout, writeTimeout, keepAlive, mode, http10, version⟩)

end ProxyConfig
end Frpc
