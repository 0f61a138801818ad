import Verif.Model.Python
/-!
# `fastrpc.DateTime`, `fastrpc.LocalTime` and `fastrpc.UTCTime` (`python/fastrpcmodule.cc:262-688`), in Python 3

The three types have the same members and differ in their constructors only. `HAVE_ALTZONE` is defined by no build file, as in `Model/DateTimeMake.lean`.
-/
namespace Frpc
namespace PyDate
open DateTimeMake (Libc Tm)
open Python (Py)

/-- The process: the C library, the instants at which `localtime` gives a null pointer (years that an `int` cannot hold), the clock. -/
structure Env where
  L : Libc
  fails : Int → Bool
  now : Int

/-- Exceptions. `system` is the `SystemError` of the interpreter for a function that has given a result and an exception. -/
inductive Exc where
  | type | attribute | system | exception
deriving DecidableEq, Repr

/-- What a constructor comes to; `crash`: what the code does is undefined. -/
inductive Made where
  | ok (d : DateTime) | raised (e : Exc) | crash
deriving DecidableEq, Repr

/-- `DateTimeObject_new` (`python/fastrpcmodule.cc:262-278`). -/
def blank : DateTime := ⟨0, 0, 0, 0, 0, 0, 0, 0, 0⟩

/-- `PyInt_Check`, which is `PyLong_Check` (`python/pythoncompat.h:38-45`). -/
def isInt : Py → Bool
  | .int _ => true
  | .bool _ => true
  | _ => false

/-- `PyInt_AsLong`: the number, and whether an exception is set. -/
def asLong : Py → Int × Bool
  | .int n => if -(2 : Int) ^ 63 ≤ n ∧ n < 2 ^ 63 then (n, false) else (-1, true)
  | .bool b => (if b then 1 else 0, false)
  | _ => (-1, true)

/-- The format `i` of `PyArg_ParseTuple`: an `int`. -/
def asInt : Py → Option Int
  | .int n => if -(2 : Int) ^ 31 ≤ n ∧ n < 2 ^ 31 then some n else none
  | .bool b => some (if b then 1 else 0)
  | _ => none

/-- `TimeObject_init_parseInt` (`python/fastrpcmodule.cc:306-320`). The exception of `PyInt_AsLong` is not looked at. `none`: a null pointer is read. -/
def parseInt (E : Env) (self : DateTime) (v : Py) : Option (DateTime × Bool) :=
  let r := asLong v
  if E.fails r.1 then none else some (DateTimeMake.fieldsOf (E.L.localtime r.1) r.1 self.timeZone, r.2)

/-- `TimeObject_init_getNow` (`python/fastrpcmodule.cc:280-304`). -/
def getNow (E : Env) (self : DateTime) (shift : Bool) : Option (DateTime × Bool) :=
  let tm := E.L.localtime E.now
  let t := if shift then E.now + (if tm.isdst > 0 then E.L.timezone - 3600 else E.L.timezone) else E.now
  if E.fails E.now || E.fails t then none else some (DateTimeMake.fieldsOf (E.L.localtime t) t self.timeZone, false)

/-- The interpreter after a constructor that has said that all is well. -/
def finish : Option (DateTime × Bool) → Made
  | none => .crash
  | some (d, false) => .ok d
  | some (_, true) => .raised .system

/-- `TimeObject_init_parseString` (`python/fastrpcmodule.cc:322-379`). A text that UTF-8 cannot encode ends it without an object's members, and without saying so. -/
def parseString (E : Env) : Py → Made
  | .str s =>
    match IsoDate.parse s with
    | .error .ub => .crash
    | .error _ => .raised .exception
    | .ok f =>
      let t := (E.L.mktime (DateTimeMake.tmOf f.year f.month f.day f.hour f.minute f.sec)).1
      if t = -1 then .ok ⟨f.year, f.month, f.day, f.hour, f.minute, f.sec, -1, t, f.tz⟩
      else if E.fails t then .crash
      else .ok ⟨f.year, f.month, f.day, f.hour, f.minute, f.sec, i8 (E.L.localtime t).wday, t, f.tz⟩
  | _ => .raised .system

/-- `DateTimeObject_init` (`python/fastrpcmodule.cc:381-427`); keyword arguments are not looked at. -/
def dateTime (E : Env) : List Py → Made
  | [v, z] =>
    match asInt z with
    | some n => finish ((parseInt E blank v).map fun r => ({ r.1 with timeZone := n }, r.2))
    | none => .raised .type
  | [.str s] => parseString E (.str s)
  | [.surrogates] => parseString E .surrogates
  | _ => .raised .type

/-- The local zone of `LocalTimeObject_init` (`python/fastrpcmodule.cc:447-453`). -/
def withZone (E : Env) (r : DateTime × Bool) : DateTime × Bool := ({ r.1 with timeZone := DateTimeMake.zoneOf E.L (E.L.localtime r.1.unixTime) }, r.2)

/-- `LocalTimeObject_init` (`python/fastrpcmodule.cc:429-455`). -/
def localTime (E : Env) : List Py → Made
  | [] => finish ((getNow E blank false).map (withZone E))
  | [v] => if isInt v then finish ((parseInt E blank v).map (withZone E)) else .raised .type
  | _ => .raised .type

/-- `UTCTimeObject_init` (`python/fastrpcmodule.cc:457-481`). -/
def utcTime (E : Env) : List Py → Made
  | [] => finish ((getNow E blank true).map fun r => ({ r.1 with timeZone := 0 }, r.2))
  | [v] => if isInt v then finish ((parseInt E blank v).map fun r => ({ r.1 with timeZone := 0 }, r.2)) else .raised .type
  | _ => .raised .type

/-- `DateTimeObject_repr` and the attribute `value` (`python/fastrpcmodule.cc:488-497,541-550`). -/
def value (d : DateTime) : Bytes := IsoDate.format d.year d.month d.day d.hour d.minute d.sec d.timeZone

/-- The attributes that are numbers (`python/fastrpcmodule.cc:499-540`). -/
inductive Attr where
  | year | month | day | hour | min | sec | weekDay | unixTime | timeZone
deriving DecidableEq, Repr

/-- Their names. -/
def Attr.name : Attr → Bytes
  | .year => asc "year" | .month => asc "month" | .day => asc "day" | .hour => asc "hour" | .min => asc "min" | .sec => asc "sec"
  | .weekDay => asc "weekDay" | .unixTime => asc "unixTime" | .timeZone => asc "timeZone"

/-- Which one the code finds by `strcmp`. -/
def Attr.find (name : Bytes) : Option Attr :=
  [Attr.year, .month, .day, .hour, .min, .sec, .weekDay, .unixTime, .timeZone].find? (fun a => a.name == name)

/-- Reading (`python/fastrpcmodule.cc:499-540`). -/
def Attr.get (d : DateTime) : Attr → Int
  | .year => d.year | .month => d.month | .day => d.day | .hour => d.hour | .min => d.minute | .sec => d.sec
  | .weekDay => d.weekDay | .unixTime => d.unixTime | .timeZone => d.timeZone

/-- Writing: casts to `short`, `char`, `time_t`, `int` (`python/fastrpcmodule.cc:566-611`). -/
def Attr.set (d : DateTime) (n : Int) : Attr → DateTime
  | .year => { d with year := i16 n } | .month => { d with month := i8 n } | .day => { d with day := i8 n } | .hour => { d with hour := i8 n }
  | .min => { d with minute := i8 n } | .sec => { d with sec := i8 n } | .weekDay => { d with weekDay := i8 n } | .unixTime => { d with unixTime := n }
  | .timeZone => { d with timeZone := i32 (u32 n) }

/-- What is read: a number, a text, or nothing (`python/fastrpcmodule.cc:499-556`). -/
inductive Got where
  | number (n : Int) | text (s : Bytes) | raised (e : Exc)
deriving DecidableEq, Repr

/-- `DateTimeObject_getattr` (`python/fastrpcmodule.cc:499-556`). -/
def getattr (d : DateTime) (name : Bytes) : Got :=
  match Attr.find name with
  | some a => .number (a.get d)
  | none => if name = asc "value" then .text (value d) else .raised .attribute

/-- What an assignment comes to. `pending`: the function says that all is well while an exception is set, which comes up somewhere later. -/
inductive Put where
  | ok (d : DateTime) | raised (e : Exc) | pending (d : DateTime) | crash
deriving DecidableEq, Repr

/-- `DateTimeObject_setattr` (`python/fastrpcmodule.cc:557-617`); `none` is `del`, for which the value is a null pointer. -/
def setattr (d : DateTime) (name : Bytes) : Option Py → Put
  | none => .crash
  | some v =>
    if isInt v then
      match Attr.find name with
      | none => .raised .attribute
      | some a => if (asLong v).2 then .pending (a.set d (asLong v).1) else .ok (a.set d (asLong v).1)
    else .raised .attribute

/-- `DateTimeObject_to_timestamp` (`python/fastrpcmodule.cc:619-629`). -/
def timestamp (L : Libc) (d : DateTime) : Int := (L.mktime ⟨d.year - 1900, d.month - 1, d.day, d.hour, d.minute, d.sec, 0, 0⟩).1 - d.timeZone

/-- The operators. -/
inductive Op where
  | lt | le | eq | ne | gt | ge
deriving DecidableEq, Repr

/-- The `switch` (`python/fastrpcmodule.cc:670-679`). -/
def Op.apply (a b : Int) : Op → Bool
  | .lt => decide (a < b) | .le => decide (a ≤ b) | .eq => decide (a = b) | .ne => decide (a ≠ b) | .gt => decide (a > b) | .ge => decide (a ≥ b)

/-- Something that is no date-time is different from one, and not comparable with it. -/
def foreign : Op → Except Exc Bool
  | .eq => .ok false
  | .ne => .ok true
  | _ => .error .type

/-- `DateTimeObject_richcmp` (`python/fastrpcmodule.cc:632-684`). -/
def compare (L : Libc) (self that : Py) (op : Op) : Except Exc Bool :=
  match self with
  | .dateTime a =>
    match that with
    | .dateTime b => .ok (op.apply (timestamp L a) (timestamp L b))
    | _ => foreign op
  | _ => foreign op

end PyDate
end Frpc
