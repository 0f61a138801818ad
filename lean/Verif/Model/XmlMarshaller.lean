import Verif.Model.Base64
import Verif.Model.IsoDate
import Verif.Model.TreeFeeder
/-!
# `XmlMarshaller_t` (`src/frpcxmlmarshaller.cc`, `src/frpcxmlmarshaller.h`)

Every operation yields the list of `writer.write` calls it makes, the new state, and the exception that ends it.
`packSpaces` writes nothing unless `XML_HUMAN_FORMAT` is defined (`src/frpcxmlmarshaller.h:109-160`), which it is not; so `level`,
which only feeds it, is dropped. Text of doubles (`ostringstream` with 17 digits) is the parameter `dbl`.
-/
namespace Frpc
namespace XmlMarshaller

/-- `type` of an entry of `entityStorage`. -/
inductive Kind where
  | array | struct | fault
deriving DecidableEq, Repr

/-- `entityStorage` (`src/frpcxmlmarshaller.h:161`), innermost first; counts are `unsigned int`. -/
abbrev Storage := List (Kind × Nat)

/-- `mainType`; what the constructor leaves in it is none of the three. -/
inductive Main where
  | none | call | response | fault
deriving DecidableEq, Repr

/-- The marshaller without its writer. -/
structure M where
  ver : Version
  storage : Storage
  main : Main
deriving DecidableEq, Repr

/-- Constructor (`src/frpcxmlmarshaller.cc:46-54`); it throws for a major version above 3
(`FRPC_MAJOR_VERSION`, `src/frpcinternals.h:58`). -/
def new (ver : Version) : M := ⟨ver, [], .none⟩

/-- Whether the constructor accepts the version. -/
def accepts (ver : Version) : Bool := decide (ver.major ≤ 3)

/-- Closing tags of a container (`src/frpcxmlmarshaller.h:126-148`). -/
def closing : Kind → List Bytes
  | .array => [asc "</data>\n", asc "</array>\n", asc "</value>\n"]
  | .struct => [asc "</struct>\n", asc "</value>\n"]
  | .fault => []

/-- `</member>` after a member's value (`src/frpcxmlmarshaller.h:114-119`). -/
def endMember : Kind → List Bytes
  | .struct => [asc "</member>\n"]
  | _ => []

/-- `decrementItem` (`src/frpcxmlmarshaller.h:109-160`). -/
def decrementItem : Storage → List Bytes × Storage
  | [] => ([], [])
  | (k, n) :: r =>
    if (n + 2 ^ 32 - 1) % 2 ^ 32 = 0 then
      let q := decrementItem r
      (endMember k ++ closing k ++ (if r.isEmpty then [asc "</param>\n"] else []) ++ q.1, q.2)
    else (endMember k, (k, (n + 2 ^ 32 - 1) % 2 ^ 32) :: r)

/-- `<param>` before a value at the top (e.g. `src/frpcxmlmarshaller.cc:62-67`). -/
def openParam (s : Storage) : List Bytes := if s.isEmpty then [asc "<param>\n"] else []

/-- A whole value: `<param>` at the top, the text, `</param>` at the top, `decrementItem`
(e.g. `src/frpcxmlmarshaller.cc:99-128`). -/
def item (ws : List Bytes) (s : Storage) : List Bytes × Storage :=
  let q := decrementItem s
  (openParam s ++ ws ++ (if s.isEmpty then [asc "</param>\n"] else []) ++ q.1, q.2)

/-- One character of `writeQuotedString` (`src/frpcxmlmarshaller.cc:552-572`). -/
def quoteChar (c : UInt8) : Bytes :=
  if c = 60 then asc "&lt;"
  else if c = 62 then asc "&gt;"
  else if c = 34 then asc "&quot;"
  else if c = 38 then asc "&amp;"
  else [c]

/-- `writeQuotedString`. -/
def quote (s : Bytes) : List Bytes := s.map quoteChar

/-- `packMagic` (`src/frpcxmlmarshaller.cc:458-473`). -/
def packMagic (ver : Version) : Bytes :=
  if ver.major < 2 then asc "<?xml version=\"1.0\"?>\n"
  else if ver.major = 2 ∧ ver.minor = 0 then asc "<?xml version=\"1.0\"?>\n<!--protocolVersion=\"2.0\"-->\n"
  else asc "<?xml version=\"1.0\"?>\n<!--protocolVersion=\"2.1\"-->\n"

/-- `packArray` (`src/frpcxmlmarshaller.cc:60-97`). -/
def packArray (n : Nat) (s : Storage) : List Bytes × Storage :=
  let o := [asc "<value>\n", asc "<array>\n", asc "<data>\n"]
  if n = 0 then item (o ++ [asc "</data>\n", asc "</array>\n", asc "</value>\n"]) s
  else (openParam s ++ o, (.array, n) :: s)

/-- `packStruct` (`src/frpcxmlmarshaller.cc:384-413`). -/
def packStruct (n : Nat) (s : Storage) : List Bytes × Storage :=
  let o := [asc "<value>\n", asc "<struct>\n"]
  if n = 0 then item (o ++ [asc "</struct>\n", asc "</value>\n"]) s
  else (openParam s ++ o, (.struct, n) :: s)

/-- `packStructMember` (`src/frpcxmlmarshaller.cc:415-432`). -/
def packStructMember (k : Bytes) : List Bytes × Option Err :=
  if k.length > 255 ∨ k.length = 0 then ([], some .len)
  else ([asc "<member>\n", asc "<name>"] ++ quote k ++ [asc "</name>\n"], none)

/-- `packInt` (`src/frpcxmlmarshaller.cc:280-318`); negating the least `int64_t` is undefined. -/
def packInt (ver : Version) (n : Int) (s : Storage) : List Bytes × Storage × Option Err :=
  if n = -(2 : Int) ^ 63 then (openParam s, s, some .ub)
  else if n.natAbs ≥ 2 ^ 31 then
    if ver.major < 2 then (openParam s, s, some .stream)
    else let q := item [asc "<value><i8>", decInt n, asc "</i8></value>\n"] s; (q.1, q.2, none)
  else let q := item [asc "<value><i4>", decInt n, asc "</i4></value>\n"] s; (q.1, q.2, none)

/-- `packString` (`src/frpcxmlmarshaller.cc:356-382`). -/
def packString (str : Bytes) (s : Storage) : List Bytes × Storage :=
  item ([asc "<value><string>"] ++ quote str ++ [asc "</string></value>\n"]) s

/-- `packBinary`, `packBinaryRef` (`src/frpcxmlmarshaller.cc:99-128,172-188`); the writes of one or two bytes that
`writeEncodeBase64` makes are here of one byte. -/
def packBase64 (chunks : List Bytes) (s : Storage) : List Bytes × Storage :=
  item ([asc "<value><base64>"] ++ (Base64.writeEncodeBase64 true chunks).map (fun c => [c]) ++ [asc "</base64></value>\n"]) s

/-- `packFault` (`src/frpcxmlmarshaller.cc:250-278`). -/
def packFault (code : Int) (msg : Bytes) (m : M) : List Bytes × M × Option Err :=
  let ws := [packMagic m.ver, asc "<methodResponse>\n", asc "<fault>\n"]
  let s1 := packStruct 2 ((.fault, 0) :: m.storage)
  let k1 := packStructMember (asc "faultCode")
  match packInt m.ver code s1.2 with
  | (w, s, some e) => (ws ++ s1.1 ++ k1.1 ++ w, { m with storage := s }, some e)
  | (w, s, none) =>
    let k2 := packStructMember (asc "faultString")
    let s2 := packString msg s
    (ws ++ s1.1 ++ k1.1 ++ w ++ k2.1 ++ s2.1 ++ [asc "</fault>\n", asc "</methodResponse>\n"],
      { m with storage := s2.2, main := .fault }, none)

/-- An operation that only changes the storage. -/
def plainOp (m : M) (q : List Bytes × Storage) : List Bytes × M × Option Err := (q.1, { m with storage := q.2 }, none)

/-- One operation (`src/frpcxmlmarshaller.cc:60-432`). -/
def pack (dbl : BitVec 64 → Bytes) (m : M) : PackOp → List Bytes × M × Option Err
  | .packArray n => plainOp m (packArray n m.storage)
  | .packStruct n => plainOp m (packStruct n m.storage)
  | .packStructMember k => let q := packStructMember k; (q.1, m, q.2)
  | .packBinary s => plainOp m (packBase64 [s] m.storage)
  | .packBinaryRef cs => plainOp m (packBase64 cs m.storage)
  | .packBool b => plainOp m (item [asc "<value><boolean>", [if b then 49 else 48], asc "</boolean></value>\n"] m.storage)
  | .packNull => plainOp m (item [asc "<value><nil/></value>\n"] m.storage)
  | .packDateTime d =>
    plainOp m (item [asc "<value><dateTime.iso8601>", IsoDate.format d.year d.month d.day d.hour d.minute d.sec d.timeZone,
      asc "</dateTime.iso8601></value>\n"] m.storage)
  | .packDouble x => plainOp m (item [asc "<value><double>", dbl x, asc "</double></value>\n"] m.storage)
  | .packInt n => let q := packInt m.ver n m.storage; (q.1, { m with storage := q.2.1 }, q.2.2)
  | .packString s => plainOp m (packString s m.storage)
  | .packFault code msg => packFault code msg m
  | .packMethodCall name =>
    if name.length > 255 ∨ name.length = 0 then ([], m, some .len)
    else ([packMagic m.ver, asc "<methodCall>\n", asc "<methodName>"] ++ quote name ++ [asc "</methodName>\n", asc "<params>\n"],
      { m with main := .call }, none)
  | .packMethodResponse => ([packMagic m.ver, asc "<methodResponse>\n", asc "<params>\n"], { m with main := .response }, none)

/-- Operations in order until one throws. -/
def packAll (dbl : BitVec 64 → Bytes) : M → List PackOp → List Bytes × M × Option Err
  | m, [] => ([], m, none)
  | m, op :: ops =>
    match pack dbl m op with
    | (ws, m, some e) => (ws, m, some e)
    | (ws, m, none) => let q := packAll dbl m ops; (ws ++ q.1, q.2)

/-- `flush` (`src/frpcxmlmarshaller.cc:433-455`); `mainType` stays. -/
def flush (m : M) : List Bytes × M :=
  (match m.main with
   | .call => [asc "</params>\n", asc "</methodCall>\n"]
   | .response => [asc "</params>\n", asc "</methodResponse>\n"]
   | _ => [], { m with storage := [] })

/-- A new marshaller (the constructor may throw `Error_t`), the operations, `flush`. -/
def run (dbl : BitVec 64 → Bytes) (ver : Version) (ops : List PackOp) : List Bytes × Option Err :=
  if accepts ver then
    match packAll dbl (new ver) ops with
    | (ws, _, some e) => (ws, some e)
    | (ws, m, none) => (ws ++ (flush m).1, none)
  else ([], some .other)

end XmlMarshaller
end Frpc
