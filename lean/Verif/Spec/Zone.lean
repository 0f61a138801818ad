import Verif.Spec.Civil
import Verif.Model.DateTimeMake
/-!
# What a C library does in a time zone

A time zone says at every instant how far its clocks are from UTC and whether it is summer time. `Conforms` is what POSIX and the C standard
ask of `localtime_r` and `mktime`, for instants within 2^40 seconds (34800 years) of 1970; leap seconds are not counted, as POSIX has it.
-/
namespace Frpc
namespace Spec.Civil
open DateTimeMake (Tm Libc)

/-- A time zone: seconds to the east of UTC at an instant, and whether summer time is in effect. -/
structure Zone where
  offset : Int → Int
  summer : Int → Bool

/-- What the clocks of the zone show at an instant. -/
def Zone.clock (z : Zone) (t : Int) : Int := t + z.offset t

end Spec.Civil

open Spec.Civil in
/-- The fields of a `struct tm` as people count them. -/
def DateTimeMake.Tm.fields (tm : DateTimeMake.Tm) : Fields := ⟨tm.year + 1900, tm.mon + 1, tm.mday, tm.hour, tm.min, tm.sec⟩

namespace Spec.Civil
open DateTimeMake (Tm Libc)

/-- Within the range of the calendar functions. -/
def Far (t : Int) : Prop := -(2 ^ 40) ≤ t ∧ t ≤ 2 ^ 40

/-- An instant that people deal with, of the years -15000 to 19000. -/
def Near (t : Int) : Prop := -(2 ^ 39) ≤ t ∧ t ≤ 2 ^ 39

/-- The C library works in the zone. -/
structure Conforms (L : Libc) (z : Zone) : Prop where
  /-- No zone is more than a day away from UTC. -/
  bounded : ∀ t, -86400 ≤ z.offset t ∧ z.offset t ≤ 86400
  /-- `localtime_r` gives the calendar fields of what the clocks show, -/
  valid : ∀ t, Far t → (L.localtime t).fields.Valid
  shows : ∀ t, Far t → (L.localtime t).fields.seconds = z.clock t
  /-- the day of the week, and whether it is summer time. -/
  wday : ∀ t, Far t → (L.localtime t).wday = weekDay (z.clock t / 86400)
  isdst : ∀ t, Far t → (L.localtime t).isdst = if z.summer t then 1 else 0
  /-- `mktime` finds an instant at which the clocks show the fields, if there is one and it is not asked for the other time of the year, -/
  finds : ∀ tm t, Near t → tm.fields.seconds = z.clock t → (tm.isdst < 0 ∨ tm.isdst = if z.summer t then 1 else 0) → z.clock (L.mktime tm).1 = z.clock t
  /-- one with the given summer time, if there is one, -/
  prefers : ∀ tm t, Near t → tm.fields.seconds = z.clock t → tm.isdst = (if z.summer t then 1 else 0) → z.summer (L.mktime tm).1 = z.summer t
  /-- and fills the structure as `localtime_r` does. -/
  fills : ∀ tm t, Near t → tm.fields.seconds = z.clock t → (tm.isdst < 0 ∨ tm.isdst = if z.summer t then 1 else 0) → (L.mktime tm).2 = L.localtime (L.mktime tm).1

/-- A zone whose summer time is one hour and whose standard time does not change, as the variable `timezone` presumes. -/
def Regular (L : Libc) (z : Zone) : Prop := ∀ t, z.offset t = -L.timezone + if z.summer t then 3600 else 0

/-- `mktime`, told that it is not summer time, takes the fields as those of standard time, which `timezone` has, also in summer. -/
def Standard (L : Libc) : Prop := ∀ tm : Tm, tm.isdst = 0 → -(2 ^ 39) ≤ tm.fields.seconds → tm.fields.seconds ≤ 2 ^ 39 → (L.mktime tm).1 = tm.fields.seconds + L.timezone

/-- The instant that a date-time names: what its fields say, the zone of the fields being as many seconds to the west of UTC as the
date-time has (its ISO text has the sign the other way round, to the east). -/
def named (d : DateTime) : Int := seconds d.year d.month d.day d.hour d.minute d.sec + d.timeZone

end Spec.Civil
end Frpc
