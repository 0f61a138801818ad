import Verif.Model.IsoDate
import Verif.Model.TreeBuilder
/-!
# The constructors of `DateTime_t` (`src/frpcdatetime.cc`) and what `Pool_t` offers of them (`src/frpcpool.cc:138-233`)

The C library's `localtime_r`, `mktime` and `timezone` are parameters. `HAVE_ALTZONE` is defined by no build file of the repository, so
the other branch is modelled. `char` is signed, as on the platforms the library is built for.
-/
namespace Frpc
namespace DateTimeMake

/-- `struct tm`, without the members that are not used. -/
structure Tm where
  year : Int
  mon : Int
  mday : Int
  hour : Int
  min : Int
  sec : Int
  wday : Int
  isdst : Int
deriving DecidableEq, Repr

/-- The C library of the process, in its time zone: `localtime_r`; `mktime` with what it makes of its argument; `timezone`. -/
structure Libc where
  localtime : Int → Tm
  mktime : Tm → Int × Tm
  timezone : Int

/-- `static_cast<int32_t>((time_tm.tm_isdst > 0)? ::timezone - 3600: ::timezone)` (`src/frpcdatetime.cc:90,110,155`). -/
def zoneOf (L : Libc) (tm : Tm) : Int := i32 (u32 (if tm.isdst > 0 then L.timezone - 3600 else L.timezone))

/-- The fields of a broken down time, cast to the members' types (e.g. `src/frpcdatetime.cc:98-104`). -/
def fieldsOf (tm : Tm) (unixTime timeZone : Int) : DateTime :=
  ⟨i16 (tm.year + 1900), i8 (tm.mon + 1), i8 tm.mday, i8 tm.hour, i8 tm.min, i8 tm.sec, i8 tm.wday, unixTime, timeZone⟩

/-- The `struct tm` that the constructors from fields give to `mktime` (e.g. `src/frpcdatetime.cc:52-59`). -/
def tmOf (year month day hour minute sec : Int) : Tm := ⟨year - 1900, month - 1, day, hour, minute, sec, 0, -1⟩

/-- The unix time and the week day that the constructors from fields compute (e.g. `src/frpcdatetime.cc:60-65`). -/
def computed (L : Libc) (year month day hour minute sec : Int) : Int × Int :=
  let t := (L.mktime (tmOf year month day hour minute sec)).1
  (t, i8 (L.localtime t).wday)

/-- `DateTime_t(year, month, day, hour, minute, sec, weekDay, unixTime, timeZone)` (`src/frpcdatetime.cc:45-67`). -/
def full (L : Libc) (validation : Bool) (d : DateTime) : DateTime :=
  if validation then
    let c := computed L d.year d.month d.day d.hour d.minute d.sec
    { d with unixTime := c.1, weekDay := c.2 }
  else d

/-- `DateTime_t(year, month, day, hour, min, sec)` (`src/frpcdatetime.cc:69-92`), `Pool_t::LocalTime` of fields
(`src/frpcpool.cc:167-176`). The zone is that of the structure `mktime` has filled in. -/
def localFields (L : Libc) (year month day hour minute sec : Int) : DateTime :=
  let tm := (L.mktime (tmOf year month day hour minute sec)).2
  let c := computed L year month day hour minute sec
  ⟨year, month, day, hour, minute, sec, c.2, c.1, zoneOf L tm⟩

/-- `DateTime_t(const time_t &)` (`src/frpcdatetime.cc:94-112`), `Pool_t::LocalTime` of a time stamp and of now
(`src/frpcpool.cc:178-192`). -/
def localTime (L : Libc) (t : Int) : DateTime := fieldsOf (L.localtime t) t (zoneOf L (L.localtime t))

/-- `DateTime_t(time_t, int)` (`src/frpcdatetime.cc:114-126`), `Pool_t::DateTime` of a time stamp and a zone (`src/frpcpool.cc:150-156`). -/
def stamp (L : Libc) (t timeZone : Int) : DateTime := fieldsOf (L.localtime t) t timeZone

/-- `Pool_t::UTCTime` of a time stamp and of now (`src/frpcpool.cc:206-212,226-232`). -/
def utcStamp (L : Libc) (t : Int) : DateTime := stamp L t 0

/-- `DateTime_t(const struct tm &)` (`src/frpcdatetime.cc:128-138`). `mktime` is called last and changes the caller's structure, not the
members that were taken from it before. -/
def ofTm (L : Libc) (tm : Tm) : DateTime := fieldsOf tm (L.mktime tm).1 0

/-- `DateTime_t()` at the time `now` (`src/frpcdatetime.cc:140-157`). The zone is that of the structure after `mktime`. -/
def default (L : Libc) (now : Int) : DateTime :=
  fieldsOf (L.localtime now) (L.mktime (L.localtime now)).1 (zoneOf L (L.mktime (L.localtime now)).2)

/-- `DateTime_t(const std::string &)` (`src/frpcdatetime.cc:159-178`), `Pool_t::DateTime` of a text (`src/frpcpool.cc:158-165`). -/
def ofIso (L : Libc) (text : Bytes) : Except Err DateTime :=
  match IsoDate.parse text with
  | .error e => .error e
  | .ok f =>
    let c := computed L f.year f.month f.day f.hour f.minute f.sec
    .ok ⟨f.year, f.month, f.day, f.hour, f.minute, f.sec, c.2, c.1, f.tz⟩

/-- `Pool_t::UTCTime` of fields (`src/frpcpool.cc:194-204`). -/
def utcFields (L : Libc) (validation : Bool) (year month day hour minute sec : Int) : DateTime :=
  full L validation ⟨year, month, day, hour, minute, sec, -1, -1, 0⟩

/-- `DateTime_t(year, month, day, hour, minute, sec, unixTime)` (`src/frpcdatetime.cc:180-185`), `Pool_t::ForceUTCTime`
(`src/frpcpool.cc:214-223`). -/
def forceUtc (year month day hour minute sec unixTime : Int) : DateTime := ⟨year, month, day, hour, minute, sec, 0, unixTime, 0⟩

/-- `isSaveLightDay` (`src/frpcdatetime.cc:244-248`). -/
def isSaveLightDay (L : Libc) (d : DateTime) : Bool := (L.localtime d.unixTime).isdst ≠ 0

/-- What the tree builder and the clones of a process compute for a date-time: `Cfg.mktime` of the other models is this. -/
def settings (L : Libc) (validation : Bool) (strOk : Bytes → Bool) : TreeBuilder.Cfg :=
  ⟨strOk, if validation then some (computed L) else none⟩

theorem settings_date (L : Libc) (validation : Bool) (strOk : Bytes → Bool) (d : DateTime) :
    (settings L validation strOk).date d = full L validation d := by
  cases validation <;> rfl

end DateTimeMake
end Frpc
