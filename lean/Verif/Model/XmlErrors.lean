import Verif.Model.XmlUnmarshaller
/-! # What the XML unmarshaller says when the parser complains (`src/frpcxmlunmarshaller.cc:123-227,295-305`) -/
namespace Frpc
open BinUnMarshaller (Req Builder)
namespace XmlUnMarshaller

/-- `error_mapping` (`src/frpcxmlunmarshaller.cc:123-227`), by the number of the error of libxml2. -/
def errorMapping : List Bytes :=
  [asc "No error", asc "Internal error", asc "No memory", asc "XML_ERR_DOCUMENT_START",
   asc "Empty document", asc "XML_ERR_DOCUMENT_END", asc "Invalid hexadecimal character reference", asc "Invalid decimal character reference",
   asc "Invalid character reference", asc "Invalid character", asc "XML_ERR_CHARREF_AT_EOF", asc "XML_ERR_CHARREF_IN_PROLOG",
   asc "XML_ERR_CHARREF_IN_EPILOG", asc "XML_ERR_CHARREF_IN_DTD", asc "XML_ERR_ENTITYREF_AT_EOF", asc "XML_ERR_ENTITYREF_IN_PROLOG",
   asc "XML_ERR_ENTITYREF_IN_EPILOG", asc "XML_ERR_ENTITYREF_IN_DTD", asc "XML_ERR_PEREF_AT_EOF", asc "XML_ERR_PEREF_IN_PROLOG",
   asc "XML_ERR_PEREF_IN_EPILOG", asc "XML_ERR_PEREF_IN_INT_SUBSET", asc "XML_ERR_ENTITYREF_NO_NAME", asc "XML_ERR_ENTITYREF_SEMICOL_MISSING",
   asc "XML_ERR_PEREF_NO_NAME", asc "XML_ERR_PEREF_SEMICOL_MISSING", asc "Undeclared entity error", asc "Undeclared entity warning",
   asc "Unparsed Entity", asc "XML_ERR_ENTITY_IS_EXTERNAL", asc "XML_ERR_ENTITY_IS_PARAMETER", asc "Unknown encoding",
   asc "Unsupported encoding", asc "XML_ERR_STRING_NOT_STARTED", asc "XML_ERR_STRING_NOT_CLOSED", asc "Namespace declaration error",
   asc "XML_ERR_ENTITY_NOT_STARTED", asc "XML_ERR_ENTITY_NOT_FINISHED", asc "XML_ERR_LT_IN_ATTRIBUTE", asc "XML_ERR_ATTRIBUTE_NOT_STARTED",
   asc "XML_ERR_ATTRIBUTE_NOT_FINISHED", asc "XML_ERR_ATTRIBUTE_WITHOUT_VALUE", asc "XML_ERR_ATTRIBUTE_REDEFINED", asc "XML_ERR_LITERAL_NOT_STARTED",
   asc "XML_ERR_LITERAL_NOT_FINISHED", asc "XML_ERR_COMMENT_NOT_FINISHED", asc "XML_ERR_PI_NOT_STARTED", asc "XML_ERR_PI_NOT_FINISHED",
   asc "XML_ERR_NOTATION_NOT_STARTED", asc "XML_ERR_NOTATION_NOT_FINISHED", asc "XML_ERR_ATTLIST_NOT_STARTED", asc "XML_ERR_ATTLIST_NOT_FINISHED",
   asc "XML_ERR_MIXED_NOT_STARTED", asc "XML_ERR_MIXED_NOT_FINISHED", asc "XML_ERR_ELEMCONTENT_NOT_STARTED", asc "XML_ERR_ELEMCONTENT_NOT_FINISHED",
   asc "XML_ERR_XMLDECL_NOT_STARTED", asc "XML_ERR_XMLDECL_NOT_FINISHED", asc "XML_ERR_CONDSEC_NOT_STARTED", asc "XML_ERR_CONDSEC_NOT_FINISHED",
   asc "XML_ERR_EXT_SUBSET_NOT_FINISHED", asc "XML_ERR_DOCTYPE_NOT_FINISHED", asc "XML_ERR_MISPLACED_CDATA_END", asc "XML_ERR_CDATA_NOT_FINISHED",
   asc "XML_ERR_RESERVED_XML_NAME", asc "XML_ERR_SPACE_REQUIRED", asc "XML_ERR_SEPARATOR_REQUIRED", asc "XML_ERR_NMTOKEN_REQUIRED",
   asc "XML_ERR_NAME_REQUIRED", asc "XML_ERR_PCDATA_REQUIRED", asc "XML_ERR_URI_REQUIRED", asc "XML_ERR_PUBID_REQUIRED",
   asc "XML_ERR_LT_REQUIRED", asc "XML_ERR_GT_REQUIRED", asc "XML_ERR_LTSLASH_REQUIRED", asc "XML_ERR_EQUAL_REQUIRED",
   asc "XML_ERR_TAG_NAME_MISMATCH", asc "XML_ERR_TAG_NOT_FINISHED", asc "XML_ERR_STANDALONE_VALUE", asc "XML_ERR_ENCODING_NAME",
   asc "XML_ERR_HYPHEN_IN_COMMENT", asc "Invalid encoding", asc "XML_ERR_EXT_ENTITY_STANDALONE", asc "XML_ERR_CONDSEC_INVALID",
   asc "XML_ERR_VALUE_REQUIRED", asc "XML_ERR_NOT_WELL_BALANCED", asc "XML_ERR_EXTRA_CONTENT", asc "XML_ERR_ENTITY_CHAR_ERROR",
   asc "XML_ERR_ENTITY_PE_INTERNAL", asc "XML_ERR_ENTITY_LOOP", asc "XML_ERR_ENTITY_BOUNDARY", asc "Invalid URI",
   asc "XML_ERR_URI_FRAGMENT", asc "XML_WAR_CATALOG_PI", asc "XML_ERR_NO_DTD", asc "XML_ERR_CONDSEC_INVALID_KEYWORD",
   asc "XML_ERR_VERSION_MISSING", asc "XML_WAR_UNKNOWN_VERSION", asc "XML_WAR_LANG_VALUE", asc "XML_WAR_NS_URI",
   asc "XML_WAR_NS_URI_RELATIVE", asc "XML_ERR_MISSING_ENCODING"]

/-- The text for an error number (`src/frpcxmlunmarshaller.cc:296-302`). The bound is the size of the table in bytes, `ptr` being the size of a pointer: behind the last entry the memory after the table is read as a pointer. -/
def errorText (ptr : Nat) (code : Int) : Except Err Bytes :=
  if code < 0 ∨ code ≥ ((ptr * errorMapping.length : Nat) : Int) then .ok (asc "Unknown")
  else match errorMapping[code.toNat]? with
    | some t => .ok t
    | none => .error .ub

/-- The message of the exception (`src/frpcxmlunmarshaller.cc:304`). -/
def complaint (ptr : Nat) (code : Int) : Except Err Bytes :=
  match errorText ptr code with
  | .ok t => .ok (asc "Parser error: < " ++ t ++ asc " >")
  | .error e => .error e

/-- The parser: the chunks it got before and this one, to the callbacks it makes, and the number of the error it reports, if it does. -/
abbrev CodeParser := List Bytes → Bytes → List Sax × Option Int

/-- `unMarshall` (`src/frpcxmlunmarshaller.cc:272-321`) with the number of the error, and the message if there is one. -/
def unMarshallCode {β} (env : Env) (ptr : Nat) (P : CodeParser) (B : Builder β) (want : Option Req) (prev : List Bytes) (u : X) (b : β) (data : Bytes) :
    X × β × Option (Err × Option Bytes) :=
  match sniff data u with
  | (u, some e) => (u, b, some (e, none))
  | (u, none) =>
    let r := P prev data
    let q := saxAll env B want u b r.1
    match r.2 with
    | some code => match complaint ptr code with
      | .ok t => (q.1, q.2, some (.stream, some t))
      | .error e => (q.1, q.2, some (e, none))
    | none => (q.1, q.2, q.1.exc.map (fun e => (e, none)))

end XmlUnMarshaller
end Frpc
