import Verif.Model.PyDate
import Verif.Props.Dates
import Verif.Props.IsoDate
/-!
# Date-time objects in Python: C121
-/
namespace Frpc
open DateTimeMake (Libc Tm)
open Spec.Civil
open Python (Py)
open PyDate (Env Made Attr Got Put Op)

/-- The C library of the process works in the zone, and `localtime` knows the instants that people deal with. -/
structure PyZone (E : Env) (z : Zone) : Prop where
  conforms : Conforms E.L z
  knows : ∀ t, Far t → E.fails t = false

theorem PyDate.asLong_int {n : Int} (h1 : -(2 : Int) ^ 63 ≤ n) (h2 : n < 2 ^ 63) : PyDate.asLong (.int n) = (n, false) := by
  show (if -(2 : Int) ^ 63 ≤ n ∧ n < 2 ^ 63 then (n, false) else (-1, true)) = (n, false)
  rw [if_pos ⟨h1, h2⟩]

theorem PyDate.asLong_large {n : Int} (h : n ≥ 2 ^ 63) : PyDate.asLong (.int n) = (-1, true) := by
  show (if -(2 : Int) ^ 63 ≤ n ∧ n < 2 ^ 63 then (n, false) else (-1, true)) = (-1, true)
  rw [if_neg (by omega)]

theorem PyDate.asInt_int {n : Int} (h : IsI32 n) : PyDate.asInt (.int n) = some n := by
  show (if -(2 : Int) ^ 31 ≤ n ∧ n < 2 ^ 31 then some n else none) = some n
  rw [if_pos (by unfold IsI32 at h; omega)]

/-- **C121 (`LocalTime(t)`).** The object has the time stamp, its fields are what local clocks show then, with the day of the week, and with its zone they name that instant. -/
theorem C121_local_partial (E : Env) (z : Zone) (hz : PyZone E z) (hr : Regular E.L z) (t : Int) (ht : Near t) :
    ∃ d, PyDate.localTime E [.int t] = .ok d ∧ d.unixTime = t ∧ named d = t ∧ Valid d.year d.month d.day d.hour d.minute d.sec ∧
      seconds d.year d.month d.day d.hour d.minute d.sec = z.clock t ∧ d.weekDay = weekDay (z.clock t / 86400) ∧ d.timeZone = -(z.offset t) := by
  have hl : PyDate.asLong (.int t) = (t, false) := PyDate.asLong_int (by unfold Near at ht; omega) (by unfold Near at ht; omega)
  refine ⟨DateTimeMake.localTime E.L t, ?_, C86_local_partial E.L z hz.conforms hr t ht⟩
  simp only [PyDate.localTime, PyDate.isInt, if_true, PyDate.parseInt, hl, hz.knows t (near_far ht), Bool.false_eq_true, if_false, Option.map_some, PyDate.withZone, PyDate.finish]
  rfl

/-- **C121 (`LocalTime()`)** is `LocalTime` of now. -/
theorem C121_now_partial (E : Env) (z : Zone) (hz : PyZone E z) (ht : Near E.now) : PyDate.localTime E [] = PyDate.localTime E [.int E.now] := by
  have hl : PyDate.asLong (.int E.now) = (E.now, false) := PyDate.asLong_int (by unfold Near at ht; omega) (by unfold Near at ht; omega)
  simp only [PyDate.localTime, PyDate.isInt, if_true, PyDate.parseInt, PyDate.getNow, hl, hz.knows _ (near_far ht), Bool.or_self, Bool.false_eq_true, if_false]

/-- **C121 (`DateTime(t, zone)`).** The fields are those of local clocks, whatever the zone that is given: the object names the instant of its time stamp just if that is the local zone. -/
theorem C121_stamp (E : Env) (z : Zone) (hz : PyZone E z) (t : Int) (ht : Near t) (zone : Int) (hzone : IsI32 zone) :
    ∃ d, PyDate.dateTime E [.int t, .int zone] = .ok d ∧ d.unixTime = t ∧ d.timeZone = zone ∧ seconds d.year d.month d.day d.hour d.minute d.sec = z.clock t ∧
      (named d = t ↔ zone = -(z.offset t)) := by
  have hl : PyDate.asLong (.int t) = (t, false) := PyDate.asLong_int (by unfold Near at ht; omega) (by unfold Near at ht; omega)
  have hi : PyDate.asInt (.int zone) = some zone := PyDate.asInt_int hzone
  obtain ⟨h1, h2, h3, h4⟩ := C86_stamp E.L z hz.conforms t ht zone
  refine ⟨DateTimeMake.stamp E.L t zone, ?_, h1, h2, h3, ?_⟩
  · simp only [PyDate.dateTime, hi, PyDate.parseInt, hl, hz.knows t (near_far ht), Bool.false_eq_true, if_false, Option.map_some, PyDate.finish]
    rfl
  · rw [h4]
    omega

/-- **C121 is violated for `UTCTime(t)`.** Wherever the clocks are not those of UTC, the object says that its fields are those of UTC, and names another instant than its time stamp. -/
theorem C121_utc_violated (E : Env) (z : Zone) (hz : PyZone E z) (t : Int) (ht : Near t) (ho : z.offset t ≠ 0) :
    ∃ d, PyDate.utcTime E [.int t] = .ok d ∧ d.unixTime = t ∧ d.timeZone = 0 ∧ named d ≠ t := by
  have hl : PyDate.asLong (.int t) = (t, false) := PyDate.asLong_int (by unfold Near at ht; omega) (by unfold Near at ht; omega)
  obtain ⟨h1, h2, h3⟩ := C86_utc_stamp_violated E.L z hz.conforms t ht ho
  refine ⟨DateTimeMake.utcStamp E.L t, ?_, h2, h1, by rw [h2] at h3; exact h3⟩
  simp only [PyDate.utcTime, PyDate.isInt, if_true, PyDate.parseInt, hl, hz.knows t (near_far ht), Bool.false_eq_true, if_false, Option.map_some, PyDate.finish]
  rfl

/-- **C121 (`UTCTime()`).** The fields are those of UTC now, if local clocks are not changed in the hours around, but the time stamp is not that of now where local clocks are not those of UTC. -/
theorem C121_utc_now_violated (E : Env) (z : Zone) (hz : PyZone E z) (hr : Regular E.L z) (ht : Near E.now) (ht' : Near (E.now - z.offset E.now))
    (hs : z.offset (E.now - z.offset E.now) = z.offset E.now) :
    ∃ d, PyDate.utcTime E [] = .ok d ∧ d.timeZone = 0 ∧ named d = E.now ∧ d.unixTime = E.now - z.offset E.now := by
  have hc := hz.conforms
  have hd := hc.isdst E.now (near_far ht)
  have hsh : (if (E.L.localtime E.now).isdst > 0 then E.L.timezone - 3600 else E.L.timezone) = -(z.offset E.now) := by
    have := hr E.now
    rw [hd, this]
    cases z.summer E.now <;> simp <;> omega
  obtain ⟨f, hv, hsec, e⟩ := hc.fieldsOf ht' (E.now - z.offset E.now) 0
  refine ⟨DateTimeMake.fieldsOf (E.L.localtime (E.now - z.offset E.now)) (E.now - z.offset E.now) 0, ?_, ?_⟩
  · simp only [PyDate.utcTime, PyDate.getNow, if_true, hsh, ← Int.sub_eq_add_neg, hz.knows _ (near_far ht), hz.knows _ (near_far ht'), Bool.or_self, Bool.false_eq_true, if_false,
      Option.map_some, PyDate.finish]
    rfl
  · rw [e]
    refine ⟨rfl, ?_, rfl⟩
    unfold named
    simp only
    have : seconds f.year f.month f.day f.hour f.minute f.sec = z.clock (E.now - z.offset E.now) := hsec
    rw [this]
    unfold Zone.clock
    rw [hs]
    omega

/-- **C121 (`DateTime(text)`).** A text in the ISO format gives its fields and its zone, with a time stamp at which local clocks show the fields; a text that is none is an exception, never
an object. -/
theorem C121_text (E : Env) (z : Zone) (hz : PyZone E z) (s : Bytes) :
    (∀ f, IsoDate.parse s = .ok f → ∀ t, Near t → seconds f.year f.month f.day f.hour f.minute f.sec = z.clock t →
      ∃ d, PyDate.dateTime E [.str s] = .ok d ∧ (d.year, d.month, d.day, d.hour, d.minute, d.sec, d.timeZone) = (f.year, f.month, f.day, f.hour, f.minute, f.sec, f.tz) ∧
        z.clock d.unixTime = z.clock t) ∧
    (Spec.isoDay s = none ↔ PyDate.dateTime E [.str s] = .raised .exception) := by
  have hc := hz.conforms
  obtain ⟨h1, h2, h3, -⟩ := C32_iso_total s
  refine ⟨fun f hf t ht e => ?_, ?_⟩
  · obtain ⟨t', k1, k2, k3⟩ := hc.computed ht e
    have kt : (E.L.mktime (DateTimeMake.tmOf f.year f.month f.day f.hour f.minute f.sec)).1 = t' := congrArg Prod.fst k1
    simp only [PyDate.dateTime, PyDate.parseString, hf, kt]
    by_cases c : t' = -1
    · rw [if_pos c]
      exact ⟨_, rfl, rfl, k2⟩
    · rw [if_neg c, hz.knows t' (hc.near_clock ht k2)]
      exact ⟨_, rfl, rfl, k2⟩
  · rw [← h1]
    simp only [PyDate.dateTime, PyDate.parseString]
    cases hp : IsoDate.parse s with
    | error e =>
      have := h2 e hp
      subst this
      simp
    | ok f =>
      simp only [reduceCtorEq, false_iff]
      split
      · simp
      · split <;> simp

/-- **C121 (the text).** The text of an object (`value`, `str`, `repr`) makes an object with the same fields and zone, if the fields have as many digits as the text has, and the zone whole minutes. -/
theorem C121_value (E : Env) (z : Zone) (hz : PyZone E z) (d : DateTime) (hy : 0 ≤ d.year ∧ d.year ≤ 9999) (hmo : 0 ≤ d.month ∧ d.month ≤ 99) (hd : 0 ≤ d.day ∧ d.day ≤ 99)
    (hh : 0 ≤ d.hour ∧ d.hour ≤ 99) (hmi : 0 ≤ d.minute ∧ d.minute ≤ 99) (hs : 0 ≤ d.sec ∧ d.sec ≤ 99) (htz : -(100 * 3600) < d.timeZone ∧ d.timeZone < 100 * 3600)
    (hmin : d.timeZone % 60 = 0) (t : Int) (ht : Near t) (e : seconds d.year d.month d.day d.hour d.minute d.sec = z.clock t) :
    ∃ text d', PyDate.getattr d (asc "value") = .text text ∧ PyDate.dateTime E [.str text] = .ok d' ∧
      (d'.year, d'.month, d'.day, d'.hour, d'.minute, d'.sec, d'.timeZone) = (d.year, d.month, d.day, d.hour, d.minute, d.sec, d.timeZone) := by
  have hv : PyDate.getattr d (asc "value") = .text (PyDate.value d) := by
    have : Attr.find (asc "value") = none := by decide +kernel
    unfold PyDate.getattr
    rw [this]
    simp
  have hp := C31_iso_roundtrip d.year d.month d.day d.hour d.minute d.sec d.timeZone hy hmo hd hh hmi hs htz hmin
  obtain ⟨d', h1, h2, -⟩ := (C121_text E z hz (PyDate.value d)).1 _ hp t ht e
  exact ⟨_, d', hv, h1, h2⟩

/-- The range of an attribute: a `short`, a `char`, a `long`, an `int`. -/
def Attr.range : Attr → Int
  | .year => 2 ^ 15
  | .unixTime => 2 ^ 63
  | .timeZone => 2 ^ 31
  | _ => 2 ^ 7

/-- **C121 (attributes).** An attribute that is set to a number in its range has it, and the others are as they were; only whole numbers can be set, only to those names. -/
theorem C121_attributes_partial (d : DateTime) (a : Attr) (n : Int) (hn : -(Attr.range a) ≤ n ∧ n < Attr.range a) :
    ∃ d', PyDate.setattr d a.name (some (.int n)) = .ok d' ∧ ∀ b : Attr, PyDate.getattr d' b.name = .number (if b = a then n else b.get d) := by
  have hf : ∀ b : Attr, Attr.find b.name = some b := by intro b; cases b <;> decide +kernel
  have hl : PyDate.asLong (.int n) = (n, false) := PyDate.asLong_int (by cases a <;> simp only [Attr.range] at hn <;> omega) (by cases a <;> simp only [Attr.range] at hn <;> omega)
  refine ⟨a.set d n, ?_, fun b => ?_⟩
  · simp only [PyDate.setattr, PyDate.isInt, if_true, hf, hl, Bool.false_eq_true, if_false]
  · simp only [PyDate.getattr, hf]
    congr 1
    by_cases c : b = a
    · subst c
      rw [if_pos rfl]
      cases b <;> simp only [Attr.range] at hn <;> simp only [Attr.get, Attr.set, i16, i8, i32, u32] <;> omega
    · rw [if_neg c]
      cases a <;> cases b <;> first
        | exact absurd rfl c
        | rfl

/-- What else may be set is refused, and changes nothing. -/
theorem C121_refused (d : DateTime) (name : Bytes) (v : Py) (h : (∀ n, v ≠ .int n) ∧ (∀ b, v ≠ .bool b) ∨ ∀ a : Attr, a.name ≠ name) :
    PyDate.setattr d name (some v) = .raised .attribute := by
  unfold PyDate.setattr
  rcases h with ⟨h1, h2⟩ | h
  · have : PyDate.isInt v = false := by
      cases v <;> first
        | rfl
        | exact absurd rfl (h1 _)
        | exact absurd rfl (h2 _)
    simp only [this, Bool.false_eq_true, if_false]
  · have : Attr.find name = none := by
      unfold Attr.find
      rw [List.find?_eq_none]
      intro a _
      simpa using h a
    simp only [this]
    split <;> rfl

/-- **C121 is violated for attributes.** A number outside of the range is cut to its lowest bits, without an exception: a month becomes another one; a number beyond 64 bits leaves -1 and an
exception that comes up later; and deleting any attribute reads a null pointer. -/
theorem C121_attributes_violated (d : DateTime) :
    (∃ d', PyDate.setattr d (asc "month") (some (.int 257)) = .ok d' ∧ d'.month = 1) ∧ (∃ d', PyDate.setattr d (asc "year") (some (.int 70000)) = .ok d' ∧ d'.year = 4464) ∧
    (∃ d', PyDate.setattr d (asc "day") (some (.int (2 ^ 64))) = .pending d' ∧ d'.day = -1) ∧ ∀ name, PyDate.setattr d name none = .crash := by
  have h1 : Attr.find (asc "month") = some .month := by decide +kernel
  have h2 : Attr.find (asc "year") = some .year := by decide +kernel
  have h3 : Attr.find (asc "day") = some .day := by decide +kernel
  refine ⟨⟨{ d with month := 1 }, ?_, rfl⟩, ⟨{ d with year := 4464 }, ?_, rfl⟩, ⟨{ d with day := -1 }, ?_, rfl⟩, fun _ => rfl⟩
  · simp only [PyDate.setattr, h1, PyDate.isInt, if_true]
    rfl
  · simp only [PyDate.setattr, h2, PyDate.isInt, if_true]
    rfl
  · simp only [PyDate.setattr, h3, PyDate.isInt, if_true]
    rfl

/-- **C121 is violated for time stamps.** A stamp beyond 64 bits is no exception of its kind but a `SystemError`, and one whose year an `int` cannot hold reads a null pointer. -/
theorem C121_large_violated (E : Env) (n : Int) :
    (n ≥ 2 ^ 63 → E.fails (-1) = false → PyDate.localTime E [.int n] = .raised .system) ∧
    (-(2 : Int) ^ 63 ≤ n → n < 2 ^ 63 → E.fails n = true → PyDate.localTime E [.int n] = .crash ∧ PyDate.utcTime E [.int n] = .crash ∧ ∀ zone, IsI32 zone → PyDate.dateTime E [.int n, .int zone] = .crash) := by
  refine ⟨fun h1 h2 => ?_, fun h1 h2 h3 => ?_⟩
  · have hl : PyDate.asLong (.int n) = (-1, true) := PyDate.asLong_large h1
    simp only [PyDate.localTime, PyDate.isInt, if_true, PyDate.parseInt, hl, h2, Bool.false_eq_true, if_false, Option.map_some, PyDate.withZone, PyDate.finish]
  · have hl : PyDate.asLong (.int n) = (n, false) := PyDate.asLong_int h1 h2
    have hp : ∀ d, PyDate.parseInt E d (.int n) = none := by
      intro d
      simp only [PyDate.parseInt, hl, h3, if_true]
    refine ⟨?_, ?_, fun zone hz => ?_⟩
    · simp only [PyDate.localTime, PyDate.isInt, if_true, hp, Option.map_none, PyDate.finish]
    · simp only [PyDate.utcTime, PyDate.isInt, if_true, hp, Option.map_none, PyDate.finish]
    · have hi : PyDate.asInt (.int zone) = some zone := PyDate.asInt_int hz
      simp only [PyDate.dateTime, hi, hp, Option.map_none, PyDate.finish]

/-! ## Comparing -/

/-- The fields are within the range of the calendar functions. -/
def PyComparable (d : DateTime) : Prop := -(2 ^ 39) ≤ seconds d.year d.month d.day d.hour d.minute d.sec ∧ seconds d.year d.month d.day d.hour d.minute d.sec ≤ 2 ^ 39

/-- What the operators mean of two numbers. -/
def Op.holds (a b : Int) : Op → Prop
  | .lt => a < b | .le => a ≤ b | .eq => a = b | .ne => a ≠ b | .gt => a > b | .ge => a ≥ b

theorem PyDate.apply_holds (a b : Int) (op : Op) : op.apply a b = true ↔ Op.holds a b op := by
  cases op <;> simp [Op.apply, Op.holds]

/-- What is compared: fields and zone with the wrong sign. -/
theorem PyDate.timestamp_eq {L : Libc} (hL : Standard L) (d : DateTime) (hd : PyComparable d) :
    timestamp L d = seconds d.year d.month d.day d.hour d.minute d.sec - d.timeZone + L.timezone := by
  have hf : (⟨d.year - 1900, d.month - 1, d.day, d.hour, d.minute, d.sec, 0, 0⟩ : Tm).fields.seconds = seconds d.year d.month d.day d.hour d.minute d.sec := by
    simp [DateTimeMake.Tm.fields, Fields.seconds]
  have := hL ⟨d.year - 1900, d.month - 1, d.day, d.hour, d.minute, d.sec, 0, 0⟩ rfl (by rw [hf]; exact hd.1) (by rw [hf]; exact hd.2)
  unfold timestamp
  rw [this, hf]
  omega

/-- **C121 (comparing).** Two date-times of the same zone are compared as the instants they name, by every operator, whatever the zone of the process and the time of the year. Missing:
those of different zones, see below. -/
theorem C121_order_partial (L : Libc) (hL : Standard L) (a b : DateTime) (ha : PyComparable a) (hb : PyComparable b) (hz : a.timeZone = b.timeZone) (op : Op) :
    ∃ r, PyDate.compare L (.dateTime a) (.dateTime b) op = .ok r ∧ (r = true ↔ Op.holds (named a) (named b) op) := by
  refine ⟨_, rfl, ?_⟩
  rw [PyDate.apply_holds, PyDate.timestamp_eq hL a ha, PyDate.timestamp_eq hL b hb]
  unfold named
  cases op <;> simp only [Op.holds] <;> omega

/-- **C121 is violated for different zones.** Two date-times that name the same instant in different zones are not equal; and one that is earlier, by less than twice the difference of the
zones, is said to be later. -/
theorem C121_order_violated (L : Libc) (hL : Standard L) (a b : DateTime) (ha : PyComparable a) (hb : PyComparable b) :
    (named a = named b → a.timeZone ≠ b.timeZone → PyDate.compare L (.dateTime a) (.dateTime b) .eq = .ok false) ∧
    (named a < named b → named b - named a < 2 * (b.timeZone - a.timeZone) → PyDate.compare L (.dateTime a) (.dateTime b) .lt = .ok false) := by
  have h1 := PyDate.timestamp_eq hL a ha
  have h2 := PyDate.timestamp_eq hL b hb
  unfold named
  refine ⟨fun h3 h4 => ?_, fun h3 h4 => ?_⟩ <;> simp only [PyDate.compare, Op.apply, h1, h2] <;> congr 1 <;> simp only [decide_eq_false_iff_not] <;> omega

/-- **C121 (an order).** Whatever the C library does: the comparison is a total order up to equality, and the operators agree: exactly one of `<`, `==`, `>` holds, the others are
made of them, and the order is transitive. -/
theorem C121_total (L : Libc) (a b c : DateTime) :
    (∀ op, ∃ r, PyDate.compare L (.dateTime a) (.dateTime b) op = .ok r) ∧
    (PyDate.compare L (.dateTime a) (.dateTime b) .le = .ok true ↔ PyDate.compare L (.dateTime a) (.dateTime b) .lt = .ok true ∨ PyDate.compare L (.dateTime a) (.dateTime b) .eq = .ok true) ∧
    (PyDate.compare L (.dateTime a) (.dateTime b) .ge = .ok true ↔ PyDate.compare L (.dateTime a) (.dateTime b) .lt = .ok false) ∧
    (PyDate.compare L (.dateTime a) (.dateTime b) .gt = .ok true ↔ PyDate.compare L (.dateTime b) (.dateTime a) .lt = .ok true) ∧
    (PyDate.compare L (.dateTime a) (.dateTime b) .ne = .ok true ↔ PyDate.compare L (.dateTime a) (.dateTime b) .eq = .ok false) ∧
    (PyDate.compare L (.dateTime a) (.dateTime b) .eq = .ok true ↔ PyDate.compare L (.dateTime a) (.dateTime b) .lt = .ok false ∧ PyDate.compare L (.dateTime a) (.dateTime b) .gt = .ok false) ∧
    (PyDate.compare L (.dateTime a) (.dateTime b) .lt = .ok true → PyDate.compare L (.dateTime b) (.dateTime c) .lt = .ok true → PyDate.compare L (.dateTime a) (.dateTime c) .lt = .ok true) := by
  refine ⟨fun op => ⟨_, rfl⟩, ?_⟩
  simp only [PyDate.compare, Op.apply, Except.ok.injEq, decide_eq_true_eq, decide_eq_false_iff_not]
  generalize PyDate.timestamp L a = x
  generalize PyDate.timestamp L b = y
  generalize PyDate.timestamp L c = u
  refine ⟨?_, ?_, ?_, ?_, ?_, fun h1 h2 => ?_⟩ <;> (try constructor) <;> omega

/-- **C121 (other objects).** With anything that is no date-time: it is different, and `<`, `<=`, `>`, `>=` are a `TypeError`. -/
theorem C121_foreign (L : Libc) (a : DateTime) (v : Py) (hv : ∀ d, v ≠ .dateTime d) (op : Op) :
    PyDate.compare L (.dateTime a) v op = (match op with | .eq => .ok false | .ne => .ok true | _ => .error .type) ∧
    PyDate.compare L v (.dateTime a) op = PyDate.compare L (.dateTime a) v op := by
  have h : PyDate.compare L (.dateTime a) v op = PyDate.foreign op ∧ PyDate.compare L v (.dateTime a) op = PyDate.foreign op := by
    cases v <;> first
      | exact ⟨rfl, rfl⟩
      | exact absurd rfl (hv _)
  rw [h.1, h.2]
  cases op <;> exact ⟨rfl, rfl⟩

/-! ### Witnesses: Prague in winter -/

/-- A process in Prague. -/
def pragueEnv : Env := ⟨prague, fun t => decide (t > 2 ^ 55 ∨ t < -(2 ^ 55)), 1700000000⟩

theorem prague_zone : PyZone pragueEnv pragueZone := ⟨fall_conforms _ _ (by decide), fun t ht => by unfold Far at ht; simp only [pragueEnv, decide_eq_false_iff_not]; omega⟩

example : PyDate.localTime pragueEnv [.int 1700000000] = .ok ⟨2023, 11, 14, 23, 13, 20, 2, 1700000000, -3600⟩ := by decide +kernel
example : PyDate.utcTime pragueEnv [.int 1700000000] = .ok ⟨2023, 11, 14, 23, 13, 20, 2, 1700000000, 0⟩ := by decide +kernel
example : PyDate.utcTime pragueEnv [] = .ok ⟨2023, 11, 14, 22, 13, 20, 2, 1699996400, 0⟩ := by decide +kernel
example : PyDate.dateTime pragueEnv [.str (asc "20231114T22:13:20+0000")] = .ok ⟨2023, 11, 14, 22, 13, 20, 2, 1699996400, 0⟩ := by decide +kernel
example : PyDate.dateTime pragueEnv [.int 0] = .raised .type ∧ PyDate.dateTime pragueEnv [.str (asc "x"), .int 0] = .raised .system ∧
    PyDate.dateTime pragueEnv [.surrogates] = .raised .system ∧ PyDate.localTime pragueEnv [.int (2 ^ 60)] = .crash := by decide +kernel
example : Regular prague pragueZone ∧ Standard prague ∧ Near pragueEnv.now ∧ Near (pragueEnv.now - pragueZone.offset pragueEnv.now) ∧
    pragueZone.offset (pragueEnv.now - pragueZone.offset pragueEnv.now) = pragueZone.offset pragueEnv.now := by
  refine ⟨fall_regular _ _, fall_standard _ _, ?_, ?_, ?_⟩
  · unfold Near; decide
  · unfold Near; decide
  · decide
/-- 12:00 in Prague and 11:00 in London are the same instant, and are not equal. -/
example : let a : DateTime := ⟨2023, 11, 14, 12, 0, 0, 2, 0, -3600⟩
    let b : DateTime := ⟨2023, 11, 14, 11, 0, 0, 2, 0, 0⟩
    PyComparable a ∧ PyComparable b ∧ named a = named b ∧ PyDate.compare prague (.dateTime a) (.dateTime b) .eq = .ok false := by
  refine ⟨?_, ?_, ?_, ?_⟩
  · unfold PyComparable; decide
  · unfold PyComparable; decide
  · decide
  · decide +kernel

end Frpc
