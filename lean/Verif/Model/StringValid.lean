import Verif.Model.Value
/-!
# `String_t::validateBytes` (`src/frpcstring.cc:162-217`)

`mbrtowc` of the C library is a parameter: what it keeps of earlier calls (`mbstate_t`, here the bytes it holds) and at most 4 bytes, to its answer.
-/
namespace Frpc
namespace StringValid

/-- What `mbrtowc` answers: a wide character (never 0) and how many bytes of this call belong to it; 0, the NUL character; `(size_t) -1`;
`(size_t) -2`. In the last two cases the wide character is not stored. -/
inductive Mb where
  | char (w : Nat) (n : Nat)
  | nul
  | invalid
  | incomplete
deriving DecidableEq, Repr

/-- `mbrtowc`. -/
abbrev Mbrtowc := Bytes → Bytes → Mb × Bytes

/-- The test of the character (`src/frpcstring.cc:185-188`), negated. -/
def legal (w : Nat) : Bool :=
  !((w != 0x9 && w != 0xA && w != 0xD) && (decide (w < 0x20) || decide (w > 0xD7FF)) && (decide (w < 0xE000) || decide (w > 0xFFFD)) &&
    (decide (w < 0x10000) || decide (w > 0x10FFFF)))

/-- The loop (`src/frpcstring.cc:178-194`); `r` is unsigned, so `r <= 0` is `r == 0`: after -1 and -2 the character of the round before is
tested again (undefined when there was none) and `at += r` moves back by 1 or 2. Reading before the beginning is undefined too. The result is
`TypeError_t` or nothing. -/
def loop (mb : Mbrtowc) (data : Bytes) : Nat → Bytes → Nat → Option Nat → Except Err Unit
  | 0, _, _, _ => .error .fuel
  | fuel + 1, st, at_, w =>
    if at_ = data.length then .ok ()
    else
      match mb st ((data.drop at_).take 4) with
      | (.nul, _) => .error .type
      | (.char w n, st) => if legal w then loop mb data fuel st (at_ + n) (some w) else .error .type
      | (.invalid, st) =>
        match w with
        | none => .error .ub
        | some w => if legal w then (if at_ < 1 then .error .ub else loop mb data fuel st (at_ - 1) (some w)) else .error .type
      | (.incomplete, st) =>
        match w with
        | none => .error .ub
        | some w => if legal w then (if at_ < 2 then .error .ub else loop mb data fuel st (at_ - 2) (some w)) else .error .type

/-- `validateBytes` with `on` the policy `getStringValidationPolicy` (`src/frpcstring.cc:162-177`). -/
def validateBytes (on : Bool) (mb : Mbrtowc) (fuel : Nat) (data : Bytes) : Except Err Unit :=
  if on then loop mb data fuel [] 0 none else .ok ()

end StringValid
end Frpc
