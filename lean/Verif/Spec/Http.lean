import Verif.Basic.Hex
import Verif.Basic.Ascii
/-!
# Specification: lines, chunked coding, words
-/
namespace Frpc
namespace Spec

/-- CR LF. -/
def crlf : Bytes := [13, 10]

/-- `l` is `before` without the CRs at its end. -/
def IsLine (before l : Bytes) : Prop := ∃ k, before = l ++ List.replicate k 13 ∧ l.getLast? ≠ some 13

/-- Chunked transfer coding of the pieces (RFC 7230, 4.1), without extensions and trailer. -/
def chunked : List Bytes → Bytes
  | [] => [48] ++ crlf ++ crlf
  | p :: ps => hex p.length ++ crlf ++ p ++ crlf ++ chunked ps

/-- Words of a line, at most `n + 1` (`n` at least 1): maximal runs of non-white characters; after
the `n`-th word and one white character the rest, if any, is the last part as it is. -/
def words : Nat → Bytes → List Bytes
  | 0, s => if s = [] then [] else [s]
  | n + 1, s =>
    let t := s.dropWhile isSpace
    if t = [] then []
    else t.takeWhile (fun c => !isSpace c) :: words n ((t.dropWhile (fun c => !isSpace c)).drop 1)

/-- Text without white space at its ends. -/
def trim (s : Bytes) : Bytes := (((s.dropWhile isSpace).reverse).dropWhile isSpace).reverse

/-- A line of a header block: a field, or the continuation of the field above it, which begins with
white space. -/
inductive HLine where
  | field (name value : Bytes)
  | more (c : UInt8) (text : Bytes)

/-- The line as it is written. -/
def HLine.text : HLine → Bytes
  | .field n v => n ++ [58] ++ v
  | .more c t => c :: t

/-- Lines that can be told apart: no line feed inside, no CR at the end; a name is not empty, begins
with no white space and has no colon. -/
def HLine.Ok (l : HLine) : Prop :=
  (10 : UInt8) ∉ l.text ∧ l.text.getLast? ≠ some 13 ∧
  match l with
  | .field n _ => n ≠ [] ∧ (∀ c, n.head? = some c → isSpace c = false) ∧ (58 : UInt8) ∉ n
  | .more c _ => isSpace c = true

/-- The fields after one more line: a field with its value trimmed, or a space and the continuation
added to the last value. -/
def addLine (acc : List (Bytes × Bytes)) : HLine → Option (List (Bytes × Bytes))
  | .field n v => some (acc ++ [(n, trim v)])
  | .more c t =>
    match acc.getLast? with
    | none => none
    | some (n, v) => some (acc.dropLast ++ [(n, v ++ [32] ++ (c :: t).dropWhile isSpace)])

/-- The fields of a block. -/
def collectFields : List (Bytes × Bytes) → List HLine → Option (List (Bytes × Bytes))
  | acc, [] => some acc
  | acc, l :: ls =>
    match addLine acc l with
    | none => none
    | some acc => collectFields acc ls

/-- The block as it is written, with the empty line that ends it. -/
def blockText (ls : List HLine) : Bytes := ls.flatMap (fun l => l.text ++ crlf) ++ crlf

/-- The values of a name, letter case ignored. -/
def fieldValues (name : Bytes) (fields : List (Bytes × Bytes)) : List Bytes :=
  (fields.filter (fun f => decide (f.1.map toLower = name.map toLower))).map (·.2)

end Spec
end Frpc
