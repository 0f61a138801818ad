import Verif.Model.Sax
import Verif.Basic.Ascii
import Verif.Spec.Utf8
/-!
# Specification: XML documents (XML 1.0), without attributes

A reader of a part of XML: an optional declaration, comments and white space, one element; tags without attributes; names of
letters, digits and dots; the five predefined entities; no `>` in text, no CDATA, no processing instructions. What it accepts is
XML, and the events are those a parser reports.
-/
namespace Frpc
namespace Spec.Xml

/-- Reads one character of text: how many bytes more than one it has, and what is reported. -/
abbrev CharReader := Bytes → Option (Nat × Bytes)

/-- Any byte, as it is: for what is about tags only. -/
def anyByte : CharReader
  | [] => none
  | c :: _ => some (0, [c])

/-- A character of XML (2.2) in UTF-8; ends of lines are normalized (2.11): CR LF and CR alone become LF. -/
def xmlChar : CharReader
  | 13 :: 10 :: _ => some (1, [10])
  | 13 :: _ => some (0, [10])
  | s =>
    match codePoint s with
    | some (n, k) => if isXmlChar n then some (k - 1, s.take k) else none
    | none => none

/-- Characters of names. -/
def isNameChar (c : UInt8) : Bool := isAlnum c || c == 46

/-- The predefined entities (4.6), after the `&`. -/
def entity : Bytes → Option (UInt8 × Bytes)
  | 108 :: 116 :: 59 :: s => some (60, s)
  | 103 :: 116 :: 59 :: s => some (62, s)
  | 97 :: 109 :: 112 :: 59 :: s => some (38, s)
  | 113 :: 117 :: 111 :: 116 :: 59 :: s => some (34, s)
  | 97 :: 112 :: 111 :: 115 :: 59 :: s => some (39, s)
  | _ => none

/-- The name at the front and what follows. -/
def nameAt (s : Bytes) : Bytes × Bytes := (s.takeWhile isNameChar, s.dropWhile isNameChar)

/-- One piece of content at the front: a tag, an entity, a character; and what follows. -/
def token (chr : CharReader) : Bytes → Option (List Sax × Bytes)
  | [] => none
  | 60 :: 47 :: s =>
    match nameAt s with
    | ([], _) => none
    | (n, 62 :: r) => some ([.stop n], r)
    | _ => none
  | 60 :: s =>
    match nameAt s with
    | ([], _) => none
    | (n, 62 :: r) => some ([.start n], r)
    | (n, 47 :: 62 :: r) => some ([.start n, .stop n], r)
    | _ => none
  | 38 :: s => (entity s).map fun p => ([.text [p.1]], p.2)
  | 62 :: _ => none
  | c :: s => (chr (c :: s)).map fun p => ([.text p.2], s.drop p.1)

/-- All of it. Every piece takes at least a byte. -/
def tokens (chr : CharReader) : Nat → Bytes → Option (List Sax)
  | _, [] => some []
  | 0, _ => none
  | f + 1, s =>
    match token chr s with
    | none => none
    | some (t, r) => (tokens chr f r).map (t ++ ·)

/-- White space (2.3). -/
def isBlank (c : UInt8) : Bool := c == 32 || c == 9 || c == 10 || c == 13

/-- White space and nothing else. -/
def blankText : Sax → Bool
  | .text s => s.all isBlank
  | _ => false

/-- The events of one element with tags properly nested (2.1), given the names of the elements that are open; nothing but
white space after it. -/
def element : List Bytes → List Sax → Option (List Sax)
  | [], .start n :: r => (element [n] r).map (.start n :: ·)
  | m :: st, .start n :: r => (element (n :: m :: st) r).map (.start n :: ·)
  | m :: st, .text t :: r => (element (m :: st) r).map (.text t :: ·)
  | [m], .stop n :: r => if n = m ∧ r.all blankText then some [.stop n] else none
  | m :: k :: st, .stop n :: r => if n = m then (element (k :: st) r).map (.stop n :: ·) else none
  | _, _ => none

/-- What follows the `--` that ends a comment (2.5), which must be followed by `>`. -/
def afterComment : Bytes → Option Bytes
  | 45 :: 45 :: 62 :: s => some s
  | 45 :: 45 :: _ => none
  | _ :: s => afterComment s
  | [] => none

/-- What follows white space and comments. -/
def afterMisc : Nat → Bytes → Option Bytes
  | 0, _ => none
  | f + 1, s =>
    match s.dropWhile isBlank with
    | 60 :: 33 :: 45 :: 45 :: r => (afterComment r).bind (afterMisc f)
    | r => some r

/-- The declaration. -/
def declaration : Bytes := asc "<?xml version=\"1.0\"?>"

/-- What follows the declaration, if there is one. -/
def afterDeclaration (s : Bytes) : Bytes := if declaration.isPrefixOf s then s.drop declaration.length else s

/-- The events of a document. -/
def read (chr : CharReader) (doc : Bytes) : Option (List Sax) :=
  (afterMisc (doc.length + 1) (afterDeclaration doc)).bind fun s => (tokens chr s.length s).bind (element [])

/-- Puts text in front of events, as one text with what follows. -/
def joinText (a : Bytes) : List Sax → List Sax
  | .text b :: r => .text (a ++ b) :: r
  | r => if a = [] then r else .text a :: r

/-- The events with neighbouring texts put together: how a parser cuts text is up to it. -/
def canon : List Sax → List Sax
  | [] => []
  | .text a :: r => joinText a (canon r)
  | e :: r => e :: canon r

/-- A parser that gets documents in pieces, the last of them empty: the pieces so far and this one, to events and error. -/
abbrev Parser := List Bytes → Bytes → List Sax × Bool

/-- The events for the pieces `ds`, after the pieces `prev`. -/
def events (P : Parser) : List Bytes → List Bytes → List Sax
  | _, [] => []
  | prev, d :: ds => (P prev d).1 ++ events P (prev ++ [d]) ds

/-- No error for the pieces `ds`, after the pieces `prev`. -/
def fine (P : Parser) : List Bytes → List Bytes → Prop
  | _, [] => True
  | prev, d :: ds => (P prev d).2 = false ∧ fine P (prev ++ [d]) ds

/-- The parser reports the documents of this part of XML correctly, however they are cut, text in pieces of its choice; start tags
at the latest when the whole document has been given. -/
def Conforms (P : Parser) : Prop :=
  ∀ (doc : Bytes) (evs : List Sax), read xmlChar doc = some evs →
    ∀ ds : List Bytes, ds.flatten = doc → (∀ d ∈ ds, d ≠ []) →
      fine P [] ds ∧ (P ds []).2 = false ∧ canon (events P [] ds ++ (P ds []).1) = canon evs ∧
      ∀ n, Sax.start n ∉ (P ds []).1

/-! ## Text -/

/-- `s` is a sequence of characters of XML in UTF-8. -/
def IsXmlText (s : Bytes) : Prop :=
  ∃ chars : List Bytes, s = chars.flatten ∧ ∀ p ∈ chars, ∃ n, codePoint p = some (n, p.length) ∧ isXmlChar n = true

/-- Ends of lines normalized (2.11). -/
def lineEnds : Bytes → Bytes
  | 13 :: 10 :: s => 10 :: lineEnds s
  | 13 :: s => 10 :: lineEnds s
  | c :: s => c :: lineEnds s
  | [] => []

/-- Text with its entities replaced by what they stand for. -/
def unescape : Nat → Bytes → Option Bytes
  | _, [] => some []
  | 0, _ => none
  | f + 1, c :: s =>
    if c = 38 then
      match entity s with
      | some (x, r) => (unescape f r).map (x :: ·)
      | none => none
    else (unescape f s).map (c :: ·)

/-! ## Trees -/

/-- An element with its content, or text. -/
inductive Node where
  | elem (name : Bytes) (content : List Node)
  | text (s : Bytes)

mutual
/-- The events of a node. -/
def Node.sax : Node → List Sax
  | .elem n c => .start n :: (saxList c ++ [.stop n])
  | .text s => [.text s]
/-- Of a list. -/
def saxList : List Node → List Sax
  | [] => []
  | n :: ns => n.sax ++ saxList ns
end

/-- The content is text only, which is `s`. -/
def IsText : List Node → Bytes → Prop
  | [], s => s = []
  | .text a :: r, s => ∃ b, s = a ++ b ∧ IsText r b
  | .elem _ _ :: _, _ => False

/-- Blank text. -/
def Node.blank : Node → Bool
  | .text s => s.all isBlank
  | .elem _ _ => false

/-- The content without blank text, which is for layout only. -/
def parts (c : List Node) : List Node := c.filter (fun n => !n.blank)

/-- The document has that root element, as far as a parser reports. -/
def IsDocument (chr : CharReader) (doc : Bytes) (root : Node) : Prop :=
  ∃ evs, read chr doc = some evs ∧ canon evs = canon root.sax

end Spec.Xml
end Frpc
