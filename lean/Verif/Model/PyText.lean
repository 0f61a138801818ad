import Verif.Model.Python
import Verif.Model.XmlMarshaller
import Verif.Model.XmlUnmarshaller
/-!
# `fastrpc.dumps` and `fastrpc.loads` in both formats

The text form of `dumps`, and `loads` with its three ways to take a message: as binary, as XML, or as what it looks like.
-/
namespace Frpc
namespace Python
open BinUnMarshaller (Builder)

/-- `dumps(params, methodname, useBinary=False, protocolVersionMajor, protocolVersionMinor)`, the default (`python/fastrpcmodule.cc:2333-2447`). The
text is made a `str` (`StringWriter_t::getData`, `python/fastrpcmodule.cc:2297-2326`), which fails if it is not UTF-8. -/
def dumpsXml (L : DateTimeMake.Libc) (dbl : BitVec 64 → Bytes) (major minor : Int) (method : Option Bytes) (params : Params) : Except Exn Bytes :=
  if (method.getD []).contains 0 then .error .value
  else if major < 0 ∨ minor < 0 then .error .runtime
  else if XmlMarshaller.accepts (versionOf major minor) = false then .error .terminate
  else
    let s := script L method params
    let r := XmlMarshaller.run dbl (versionOf major minor) s.1.1
    match outcome r.1.flatten r.2 s.1.2 s.2 with
    | .error e => .error e
    | .ok text => if decodes text then .ok text else .error .unicode

/-- One message of XML to a new unmarshaller in one piece, without `finish()` (`src/frpcunmarshaller.cc:98-108`, `python/fastrpcmodule.cc:2513-2520`). The
`std::out_of_range` of the search for the version (`src/frpcxmlunmarshaller.cc:279-293`) is none of the exceptions that `loads` handles
(`python/fastrpcmodule.cc:2544-2563`). -/
def readXml {β} (env : XmlUnMarshaller.Env) (P : XmlUnMarshaller.Parser) (B : Builder β) (b : β) (data : Bytes) : β × Option Exn :=
  match (XmlUnMarshaller.sniff data XmlUnMarshaller.init).2 with
  | some _ => (b, some .terminate)
  | .none =>
    let q := XmlUnMarshaller.unMarshall env P B (some .any) [] XmlUnMarshaller.init b data
    (q.2.1, q.2.2.map exnOf)

/-- One binary message to a new unmarshaller in one piece (`src/frpcunmarshaller.cc:109-112`, `python/fastrpcmodule.cc:2513-2520`). -/
def readBinary {β} (B : Builder β) (b : β) (data : Bytes) : β × Option Exn :=
  let q := BinUnMarshaller.unMarshall B .any BinUnMarshaller.init b data
  (q.2.1, q.2.2.map exnOf)

/-- `memcmp(data, magic, 2)` and the unmarshaller for it (`src/frpcunmarshaller.cc:101-112`); `buf` is the memory at `data`, of which two bytes are
compared whatever `size` is. -/
def byMagic {β} (env : XmlUnMarshaller.Env) (P : XmlUnMarshaller.Parser) (B : Builder β) (b : β) (buf : Bytes) (size : Nat) : β × Option Exn :=
  match buf with
  | x :: y :: _ => if x = 0xCA ∧ y = 0x11 then readBinary B b (buf.take size) else readXml env P B b (buf.take size)
  | _ => (b, some .crash)

/-- `UnMarshaller_t::create(data, size, dataBuilder)` (`src/frpcunmarshaller.cc:90-115`): fewer than four bytes are given to an unmarshaller for XML
first, and then again to the one that is chosen. -/
def detect {β} (env : XmlUnMarshaller.Env) (P : XmlUnMarshaller.Parser) (B : Builder β) (b : β) (buf : Bytes) (size : Nat) : β × Option Exn :=
  if size < 4 then
    match readXml env P B b (buf.take size) with
    | (b, .none) => byMagic env P B b buf size
    | r => r
  else byMagic env P B b buf size

/-- The message is read (`python/fastrpcmodule.cc:2500-2521`): `useBinary` is none when it is missing or `None`. The bytes of a Python object have a
NUL after them; the size is passed as an `unsigned int`. -/
def readBy (o : Opts) (env : XmlUnMarshaller.Env) (P : XmlUnMarshaller.Parser) (useBinary : Option Bool) (data : Bytes) : PB × Option Exn :=
  match useBinary with
  | some true => readBinary (builder o) init (data.take (sz32 data.length))
  | some false => readXml env P (builder o) init (data.take (sz32 data.length))
  | .none => detect env P (builder o) init (data ++ [0]) (sz32 data.length)

/-- `loads(data, useBinary=..)` (`python/fastrpcmodule.cc:2458-2563`), `data` being `bytes`, or a `str` in UTF-8. -/
def loads (o : Opts) (env : XmlUnMarshaller.Env) (P : XmlUnMarshaller.Parser) (useBinary : Option Bool) (data : Bytes) : Except Exn (Py × Option Bytes) :=
  match readBy o env P useBinary data with
  | (_, some e) => .error e
  | (pb, .none) => answer pb

end Python
end Frpc
