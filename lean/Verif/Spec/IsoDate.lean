import Verif.Basic.Decimal
/-!
# Specification: ISO date-time text on lists of bytes

A reader on the text itself: no positions, no end checks.
-/
namespace Frpc
namespace Spec

/-- Leading digits, at most `n`, and what follows. -/
def numeral (n : Nat) (s : Bytes) : Bytes × Bytes :=
  (((s.take n).takeWhile isDigit), s.drop ((s.take n).takeWhile isDigit).length)

/-- Drops one leading `c` if there is one. -/
def optional (c : UInt8) : Bytes → Bytes
  | [] => []
  | x :: xs => if x = c then xs else x :: xs

/-- Year, month and day digits and what follows, if none of the three is missing: white space,
up to 4 digits, optional `-`, up to 2 digits, optional `-`, up to 2 digits. -/
def isoDay (s : Bytes) : Option (Bytes × Bytes × Bytes × Bytes) :=
  let (y, s) := numeral 4 (s.dropWhile isSpace)
  let (m, s) := numeral 2 (optional 45 s)
  let (d, s) := numeral 2 (optional 45 s)
  if y = [] ∨ m = [] ∨ d = [] then none else some (y, m, d, s)

/-- Zone in seconds west: `+hhmm` is negative; `Z`, nothing, or anything else is 0, also when
digits are missing or anything but white space follows. -/
def isoZone : Bytes → Int
  | [] => 0
  | c :: s =>
    if c = 43 ∨ c = 45 then
      let (h, s) := numeral 2 s
      let (m, s) := numeral 2 (optional 58 s)
      if h = [] ∨ m = [] ∨ s.dropWhile isSpace ≠ [] then 0
      else ((atoi h * 60 + atoi m : Nat) : Int) * (if c = 43 then -60 else 60)
    else 0

/-- Drops a fraction of a second. -/
def isoFraction : Bytes → Bytes
  | 46 :: s => s.dropWhile isDigit
  | s => s

/-- Hour, minute, second, zone; everything after the first missing part is 0. -/
def isoTime : Bytes → Nat × Nat × Nat × Int
  | [] => (0, 0, 0, 0)
  | c :: s =>
    if c = 84 ∨ c = 116 ∨ c = 32 then
      let (h, s) := numeral 2 s
      let (m, s) := numeral 2 (optional 58 s)
      let (sec, s) := numeral 2 (optional 58 s)
      if h = [] then (0, 0, 0, 0)
      else if m = [] then (atoi h, 0, 0, 0)
      else if sec = [] then (atoi h, atoi m, 0, 0)
      else (atoi h, atoi m, atoi sec, isoZone (isoFraction s))
    else (0, 0, 0, 0)

end Spec
end Frpc
