import Verif.Basic.Bytes
/-!
# The callbacks of the XML parser

The interface between libxml2 and `XmlUnMarshaller_t` (`src/frpcxmlunmarshaller.cc:46-119,238-250`): three callbacks; attributes
are ignored by the code.
-/
namespace Frpc

/-- A callback of the parser: `startElement`, `endElement`, `characters`. -/
inductive Sax where
  | start (name : Bytes)
  | stop (name : Bytes)
  | text (s : Bytes)
deriving DecidableEq, Repr

end Frpc
