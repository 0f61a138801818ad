import Verif.Model.Python
import Verif.Model.Dump
/-!
# `fastrpc.dumpTree` (`python/fastrpcmodule.cc:2565-2787`)

Built for Python 3 (before 3.13, whose `PyMapping_HasKeyString` reports errors): `bytes` are the branch after `HAVE_BINARY`.
-/
namespace Frpc
namespace PyDump
open Python (Py Key Exn decodes)

/-- The third argument: not given, a `dict` with these `str` keys, or a sequence or a set of `str`, which are no mappings. -/
inductive Names where
  | missing
  | dict (ks : List Bytes)
  | sequence (ks : List Bytes)

/-- `PyMapping_HasKeyString` (`python/fastrpcmodule.cc:2726-2727`). -/
def Names.has : Names → Bytes → Bool
  | .dict ks, k => decide (k ∈ ks)
  | _, _ => false

/-- What is known of the interpreter: the text of doubles (`operator<<`), `repr` of the objects that have no branch of their own (`none`: it raises; it may be called while an
exception is set, which the first argument says), the text of keys that are no `str` (the same; `Key` does not tell them apart), and the name of their type. -/
structure Env where
  dbl : BitVec 64 → Bytes
  repr : Bool → Py → Option Bytes
  key : Bool → Option Bytes
  typeName : Py → Bytes

/-- `str` of `bytes`: in single quotes, or in double ones if there is a single quote in it and no double one. -/
def escaped (quote c : UInt8) : Bytes :=
  if c = quote ∨ c = 92 then [92, c]
  else if c = 9 then asc "\\t"
  else if c = 10 then asc "\\n"
  else if c = 13 then asc "\\r"
  else if c.toNat < 32 ∨ 127 ≤ c.toNat then asc "\\x" ++ Dump.hex2 c
  else [c]

/-- The whole of it (`PyUnicode_FromFormat("%S", …)`, `python/fastrpcmodule.cc:2754`). -/
def bytesText (s : Bytes) : Bytes :=
  let q : UInt8 := if (39 : UInt8) ∈ s ∧ (34 : UInt8) ∉ s then 34 else 39
  asc "b" ++ [q] ++ s.flatMap (escaped q) ++ [q]

/-- How far printing has come: it goes on (an exception may be set), or it has returned -1. -/
inductive St where
  | run (pending : Bool)
  | failed
deriving DecidableEq, Repr

/-- One thing after another. -/
def cont (r : Bytes × St) (k : Bool → Bytes × St) : Bytes × St :=
  match r.2 with
  | .failed => r
  | .run p => (r.1 ++ (k p).1, (k p).2)

/-- `printString` with the limit 10 (`python/fastrpcmodule.cc:2587-2619`); a text of exactly ten bytes gets the dots too. -/
def limited (s : Bytes) : Bytes := if s.length < 10 then s else s.take 10 ++ asc "..."

/-- Is the bit of `std::bitset<64>` set that was made of an `int` (`python/fastrpcmodule.cc:2622-2624,2783`)? -/
def bit (pos : Int) (i : Nat) : Bool := decide (i < 64) && (pos % 2 ^ 64).toNat.testBit i

/-- A key: the text, and what is looked up in the names, which is a C string (`python/fastrpcmodule.cc:2704-2725`). -/
def keyText (E : Env) (p : Bool) : Key → Option Bytes
  | .str s => some (asc "\"" ++ limited s ++ asc "\"")
  | .surrogates => none
  | .other => E.key p

/-- `xkey`. -/
def keyName : Key → Bytes
  | .str s => s.takeWhile (fun c => c != 0)
  | _ => []

/-- The branch for other types (`python/fastrpcmodule.cc:2758-2766`). -/
def printOther (E : Env) (p : Bool) (v : Py) : Bytes × St :=
  match E.repr p v with
  | some t => (t, .run p)
  | none => (asc "<" ++ E.typeName v ++ asc ">", .run true)

mutual
/-- `printPyFastRPCTree` (`python/fastrpcmodule.cc:2622-2770`); `p`: an exception is set. -/
def print (E : Env) (names : Names) (level pos : Int) (p : Bool) : Py → Bytes × St
  | .bool b => (if b then asc "true" else asc "false", .run p)
  | .boolean b => (if b then asc "true" else asc "false", .run p)
  | .int n => if -(2 : Int) ^ 63 ≤ n ∧ n < 2 ^ 63 ∧ p = false then (decInt n, .run p) else ([], .failed)
  | .float x => (E.dbl x, .run p)
  | .str s => (asc "\"" ++ limited s ++ asc "\"", .run p)
  | .surrogates => (asc "<STRING>", .failed)
  | .list xs =>
    cont (asc "(", .run p) fun p => cont (if level ≠ 0 then printItems E names (level - 1) pos 0 p xs else (asc "...", .run p)) fun p => (asc ")", .run p)
  | .tuple xs =>
    cont (asc "(", .run p) fun p => cont (if level ≠ 0 then printItems E names (level - 1) pos 0 p xs else (asc "...", .run p)) fun p => (asc ")", .run p)
  | .dict ms =>
    cont (asc "{", .run p) fun p => cont (if level ≠ 0 then printMembers E names (level - 1) true p ms else (asc "...", .run p)) fun p => (asc "}", .run p)
  | .dateTime d => (IsoDate.format d.year d.month d.day d.hour d.minute d.sec d.timeZone, .run p)
  | .bytes s => (limited (bytesText s), .run p)
  | .none => printOther E p .none
  | .native y mo d h mi s => printOther E p (.native y mo d h mi s)
  | .fault c m => printOther E p (.fault c m)
  | .other => printOther E p .other
/-- The loop over the items (`python/fastrpcmodule.cc:2674-2693`): below the top nothing is hidden by its position. -/
def printItems (E : Env) (names : Names) (level pos : Int) (i : Nat) (p : Bool) : List Py → Bytes × St
  | [] => ([], .run p)
  | x :: xs =>
    cont (if i = 0 then [] else asc ", ", .run p) fun p =>
      cont (if bit pos i then (asc "-hidden-", .run p) else print E names level 0 p x) fun p => printItems E names level pos (i + 1) p xs
/-- The loop over a `dict` (`python/fastrpcmodule.cc:2697-2737`). A name that is not found clears the exception that is set. -/
def printMembers (E : Env) (names : Names) (level : Int) (first : Bool) (p : Bool) : List (Key × Py) → Bytes × St
  | [] => ([], .run p)
  | (k, x) :: ms =>
    cont (if first then [] else asc ", ", .run p) fun p =>
      match keyText E p k with
      | none => ([], .failed)
      | some t =>
        cont (t ++ asc ": ", .run p) fun p =>
          cont (if names.has (keyName k) then (asc "-hidden-", .run p) else print E names level 0 false x) fun p => printMembers E names level false p ms
end

/-- What the caller gets. -/
inductive Res where
  | text (s : Bytes)
  | raised (e : Exn)
deriving DecidableEq, Repr

/-- `fastrpc.dumpTree(value, level = 1, names = None, pos = 0)` (`python/fastrpcmodule.cc:2773-2787`): what printing returns is not looked at, so an exception that is set when the
text is returned is `SystemError`. -/
def dumpTree (E : Env) (v : Py) (level : Int) (names : Names) (pos : Int) : Res :=
  let r := print E names level pos false v
  if decodes r.1 then
    match r.2 with
    | .run false => .text r.1
    | _ => .raised .system
  else .raised .unicode

end PyDump
end Frpc
