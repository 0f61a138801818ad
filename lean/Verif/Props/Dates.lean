import Verif.Proofs.Civil
import Verif.Proofs.Dates
import Verif.Props.RoundTrip
import Verif.Props.IsoDate
/-!
# Making date-times, and what time they name: C86, C87, C88
-/
namespace Frpc
open Spec.Civil DateTimeMake

namespace Spec.Civil
variable {L : Libc} {z : Zone}

theorem near_far {t : Int} (h : Near t) : Far t := by unfold Near at h; unfold Far; omega

/-- What is shown at an instant near. -/
theorem Conforms.clock_bound (hc : Conforms L z) {t : Int} (h : Near t) : -(2 ^ 39) - 86400 ≤ z.clock t ∧ z.clock t ≤ 2 ^ 39 + 86400 := by
  have := hc.bounded t
  unfold Near at h
  unfold Zone.clock
  omega

/-- An instant at which the clocks show the same is not far away. -/
theorem Conforms.near_clock (hc : Conforms L z) {t t' : Int} (h : Near t) (e : z.clock t' = z.clock t) : Far t' := by
  have h1 := hc.clock_bound h
  have h2 := hc.bounded t'
  unfold Zone.clock at *
  unfold Far
  omega

theorem valid_year {y m d h mi s : Int} (hv : Valid y m d h mi s) (hb : -(2 ^ 39) - 86400 ≤ seconds y m d h mi s ∧ seconds y m d h mi s ≤ 2 ^ 39 + 86400) :
    -20000 ≤ y ∧ y ≤ 20000 := by
  obtain ⟨hm, hd, hh, hmi, hs⟩ := hv
  unfold seconds dayNumber at hb
  have e1 : (m - 1) / 12 = 0 := by omega
  have e2 : (m - 1) % 12 + 1 = m := by omega
  have hbm : 0 ≤ daysBeforeMonth y m ∧ daysBeforeMonth y m ≤ 335 := by
    unfold daysBeforeMonth
    (repeat' split) <;> omega
  have hml : monthLength y m ≤ 31 := by
    unfold monthLength
    (repeat' split) <;> omega
  simp only at hb
  rw [e1, e2, Int.add_zero] at hb
  unfold daysBeforeYear at hb
  generalize daysBeforeMonth y m = b at *
  generalize monthLength y m = l at *
  omega

theorem monthLength_le (y m : Int) : monthLength y m ≤ 31 := by
  unfold monthLength
  (repeat' split) <;> omega

theorem weekDay_range (n : Int) : 0 ≤ weekDay n ∧ weekDay n ≤ 6 := by unfold weekDay; omega

theorem i8_id {n : Int} (h : 0 ≤ n ∧ n ≤ 100) : i8 n = n := by unfold i8; omega

theorem i16_id {n : Int} (h : -20000 ≤ n ∧ n ≤ 20000) : i16 n = n := by unfold i16; omega

/-- The members of a date-time made of what `localtime_r` gives. -/
theorem Conforms.fieldsOf (hc : Conforms L z) {t : Int} (ht : Near t) (u w : Int) :
    ∃ f : Fields, f.Valid ∧ f.seconds = z.clock t ∧
      DateTimeMake.fieldsOf (L.localtime t) u w = ⟨f.year, f.month, f.day, f.hour, f.minute, f.sec, weekDay (z.clock t / 86400), u, w⟩ := by
  have hf := near_far ht
  have hv := hc.valid t hf
  have hs := hc.shows t hf
  have hb := hc.clock_bound ht
  refine ⟨_, hv, hs, ?_⟩
  rw [← hs] at hb
  have hy := valid_year hv hb
  obtain ⟨hm, hd, hh, hmi, hse⟩ := hv
  have hw := weekDay_range (z.clock t / 86400)
  have hl := monthLength_le (L.localtime t).fields.year (L.localtime t).fields.month
  have e1 : i16 (L.localtime t).fields.year = _ := i16_id hy
  have e2 : i8 (L.localtime t).fields.month = _ := i8_id (by omega)
  have e3 : i8 (L.localtime t).fields.day = _ := i8_id (by omega)
  have e4 : i8 (L.localtime t).fields.hour = _ := i8_id (by omega)
  have e5 : i8 (L.localtime t).fields.minute = _ := i8_id (by omega)
  have e6 : i8 (L.localtime t).fields.sec = _ := i8_id (by omega)
  have e7 : i8 (L.localtime t).wday = weekDay (z.clock t / 86400) := by rw [hc.wday t hf]; exact i8_id (by omega)
  unfold DateTimeMake.fieldsOf
  simp only [Tm.fields] at *
  rw [e1, e2, e3, e4, e5, e6, e7]

/-- The zone that is stored is the offset, to the west. -/
theorem Conforms.zoneOf (hc : Conforms L z) (hr : Regular L z) {t : Int} (ht : Far t) : DateTimeMake.zoneOf L (L.localtime t) = -(z.offset t) := by
  unfold DateTimeMake.zoneOf
  rw [hc.isdst t ht]
  have h1 := hr t
  have h2 := hc.bounded t
  cases hs : z.summer t <;> simp only [hs, Bool.false_eq_true, if_true, if_false] at *
  · rw [if_neg (by decide), i32_u32 (by unfold IsI32; omega)]
    omega
  · rw [if_pos (by decide), i32_u32 (by unfold IsI32; omega)]
    omega

/-- What the constructors from fields compute, when the clocks show the fields at some instant. -/
theorem Conforms.computed (hc : Conforms L z) {y m d h mi s t : Int} (ht : Near t) (e : seconds y m d h mi s = z.clock t) :
    ∃ t', computed L y m d h mi s = (t', weekDay (z.clock t / 86400)) ∧ z.clock t' = z.clock t ∧ (L.mktime (tmOf y m d h mi s)).2 = L.localtime t' := by
  have hf : (tmOf y m d h mi s).fields = ⟨y, m, d, h, mi, s⟩ := by simp [tmOf, Tm.fields]
  have e' : (tmOf y m d h mi s).fields.seconds = z.clock t := by rw [hf]; exact e
  have h1 := hc.finds _ t ht e' (.inl (by show (-1 : Int) < 0; decide))
  refine ⟨(L.mktime (tmOf y m d h mi s)).1, ?_, h1, hc.fills _ t ht e' (.inl (by show (-1 : Int) < 0; decide))⟩
  unfold DateTimeMake.computed
  simp only
  rw [hc.wday _ (hc.near_clock ht h1), h1]
  have hw := weekDay_range (z.clock t / 86400)
  rw [i8_id (by omega)]

end Spec.Civil

/-! ## C86: the instant that a date-time names -/

/-- **C86 (local time).** `LocalTime` of a time stamp: the calendar fields and the week day that the clocks of the process's zone show at that
instant, the zone that is in effect then (to the west), and the time stamp: so the date-time names its unix time. For zones whose summer time
is one hour and whose standard time does not change. -/
theorem C86_local_partial (L : Libc) (z : Zone) (hc : Conforms L z) (hr : Regular L z) (t : Int) (ht : Near t) :
    let d := localTime L t
    d.unixTime = t ∧ named d = t ∧ Valid d.year d.month d.day d.hour d.minute d.sec ∧
      seconds d.year d.month d.day d.hour d.minute d.sec = z.clock t ∧ d.weekDay = weekDay (z.clock t / 86400) ∧ d.timeZone = -(z.offset t) := by
  obtain ⟨f, hv, hs, e⟩ := hc.fieldsOf ht t (DateTimeMake.zoneOf L (L.localtime t))
  unfold localTime
  rw [e, hc.zoneOf hr (near_far ht)]
  refine ⟨rfl, ?_, hv, hs, rfl, rfl⟩
  show seconds f.year f.month f.day f.hour f.minute f.sec + -(z.offset t) = t
  have hs : seconds f.year f.month f.day f.hour f.minute f.sec = z.clock t := hs
  rw [hs]
  unfold Zone.clock
  omega

/-- **C86 (now).** The default constructor and `LocalTime()` agree. -/
theorem C86_default_partial (L : Libc) (z : Zone) (hc : Conforms L z) (hr : Regular L z) (now : Int) (ht : Near now) : default L now = localTime L now := by
  have hf := near_far ht
  have h1 := hc.finds (L.localtime now) now ht (hc.shows now hf) (.inr (hc.isdst now hf))
  have h2 := hc.prefers (L.localtime now) now ht (hc.shows now hf) (hc.isdst now hf)
  have h3 := hc.fills (L.localtime now) now ht (hc.shows now hf) (.inr (hc.isdst now hf))
  have h4 : (L.mktime (L.localtime now)).1 = now := by
    have a := hr now
    have b := hr (L.mktime (L.localtime now)).1
    rw [h2] at b
    unfold Zone.clock at h1
    omega
  unfold DateTimeMake.default localTime
  rw [h3, h4]

/-- **C86 (local fields).** `LocalTime` of calendar fields that the clocks show at some instant: the fields are kept, the unix time is an instant
at which the clocks show them, the week day is right and the date-time names its unix time. -/
theorem C86_fields_partial (L : Libc) (z : Zone) (hc : Conforms L z) (hr : Regular L z) (y m d h mi s t : Int) (ht : Near t)
    (e : seconds y m d h mi s = z.clock t) :
    let x := localFields L y m d h mi s
    (x.year, x.month, x.day, x.hour, x.minute, x.sec) = (y, m, d, h, mi, s) ∧ z.clock x.unixTime = seconds y m d h mi s ∧ named x = x.unixTime ∧
      x.weekDay = weekDay (seconds y m d h mi s / 86400) ∧ x.timeZone = -(z.offset x.unixTime) := by
  obtain ⟨t', h1, h2, h3⟩ := hc.computed ht e
  unfold localFields
  simp only
  rw [h1, h3, hc.zoneOf hr (hc.near_clock ht h2), e]
  refine ⟨trivial, h2, ?_, rfl, rfl⟩
  show seconds y m d h mi s + -(z.offset t') = t'
  rw [e, ← h2]
  unfold Zone.clock
  omega

/-- **C86 (a time stamp and a zone).** `DateTime(t, zone)` has the fields of the process's own zone whatever zone is asked for, so it names an instant that
is off by the difference of the two. -/
theorem C86_stamp (L : Libc) (z : Zone) (hc : Conforms L z) (t : Int) (ht : Near t) (zone : Int) :
    let d := stamp L t zone
    d.unixTime = t ∧ d.timeZone = zone ∧ seconds d.year d.month d.day d.hour d.minute d.sec = z.clock t ∧ named d = t + (z.offset t + zone) := by
  obtain ⟨f, hv, hs, e⟩ := hc.fieldsOf ht t zone
  unfold stamp
  rw [e]
  have hs : seconds f.year f.month f.day f.hour f.minute f.sec = z.clock t := hs
  refine ⟨rfl, rfl, hs, ?_⟩
  show seconds f.year f.month f.day f.hour f.minute f.sec + zone = _
  rw [hs]
  unfold Zone.clock
  omega

/-- **C86 is violated** by `UTCTime` of a time stamp wherever the process's zone is not UTC: the date-time claims the zone UTC and shows the local clock. -/
theorem C86_utc_stamp_violated (L : Libc) (z : Zone) (hc : Conforms L z) (t : Int) (ht : Near t) (ho : z.offset t ≠ 0) :
    let d := utcStamp L t
    d.timeZone = 0 ∧ d.unixTime = t ∧ named d ≠ d.unixTime := by
  obtain ⟨h1, h2, h3, h4⟩ := C86_stamp L z hc t ht 0
  refine ⟨h2, h1, ?_⟩
  show named (stamp L t 0) ≠ (stamp L t 0).unixTime
  rw [h4, h1]
  omega

/-- **C86 is violated** by `UTCTime` of calendar fields: with validation the unix time is that of a local clock showing them, off by the offset of the
process's zone; without, it is -1. -/
theorem C86_utc_fields_violated (L : Libc) (z : Zone) (hc : Conforms L z) (y m d h mi s t : Int) (ht : Near t) (e : seconds y m d h mi s = z.clock t) :
    let x := utcFields L true y m d h mi s
    x.timeZone = 0 ∧ named x = seconds y m d h mi s ∧ named x - x.unixTime = z.offset x.unixTime ∧ (utcFields L false y m d h mi s).unixTime = -1 := by
  obtain ⟨t', h1, h2, h3⟩ := hc.computed ht e
  unfold utcFields full
  simp only [if_true]
  rw [h1]
  refine ⟨trivial, ?_, ?_, rfl⟩
  · show seconds y m d h mi s + 0 = _
    omega
  · show seconds y m d h mi s + 0 - t' = z.offset t'
    rw [e, ← h2]
    unfold Zone.clock
    omega

/-- **C86 (ISO text).** A date-time made of a text: the fields and the zone are those of the text (C31, C32), the unix time is that of a local clock showing
the fields, so the date-time names its unix time exactly if the zone of the text is the one in effect here. -/
theorem C86_iso (L : Libc) (z : Zone) (hc : Conforms L z) (text : Bytes) (f : IsoDate.Fields) (hp : IsoDate.parse text = .ok f) (t : Int) (ht : Near t)
    (e : seconds f.year f.month f.day f.hour f.minute f.sec = z.clock t) :
    ∃ d, ofIso L text = .ok d ∧ (d.year, d.month, d.day, d.hour, d.minute, d.sec, d.timeZone) = (f.year, f.month, f.day, f.hour, f.minute, f.sec, f.tz) ∧
      z.clock d.unixTime = z.clock t ∧ (named d = d.unixTime ↔ f.tz = -(z.offset d.unixTime)) := by
  obtain ⟨t', h1, h2, h3⟩ := hc.computed ht e
  unfold ofIso
  rw [hp]
  simp only
  rw [h1]
  refine ⟨_, rfl, rfl, h2, ?_⟩
  show seconds f.year f.month f.day f.hour f.minute f.sec + f.tz = t' ↔ _
  rw [e, ← h2]
  unfold Zone.clock
  simp only
  omega

/-- A text that cannot be read makes no date-time. -/
theorem C86_iso_refused (L : Libc) (text : Bytes) (e : Err) (h : IsoDate.parse text = .error e) : ofIso L text = .error e := by
  unfold ofIso
  rw [h]

/-- **C86 (summer time).** `isSaveLightDay` of the local time of an instant says whether the zone of the process has summer time then, and its zone is that of standard time, or one hour
less to the west. -/
theorem C86_summer_partial (L : Libc) (z : Zone) (hc : Conforms L z) (hr : Regular L z) (t : Int) (ht : Near t) :
    isSaveLightDay L (localTime L t) = z.summer t ∧ (localTime L t).timeZone = L.timezone - (if isSaveLightDay L (localTime L t) then 3600 else 0) := by
  have h : isSaveLightDay L (localTime L t) = z.summer t := by
    unfold isSaveLightDay
    show decide ((L.localtime t).isdst ≠ 0) = z.summer t
    rw [hc.isdst t (near_far ht)]
    cases z.summer t <;> rfl
  refine ⟨h, ?_⟩
  have h1 := (C86_local_partial L z hc hr t ht).2.2.2.2.2
  have h2 := hr t
  rw [h]
  have h1 : (localTime L t).timeZone = -(z.offset t) := h1
  rw [h1, h2]
  cases z.summer t <;> simp only [if_true, Bool.false_eq_true, if_false] <;> omega

/-- **C86 is violated (summer time)** by date-times of another zone: the question is answered for the zone of the process, also of a time in UTC, which has no summer time. -/
theorem C86_summer_violated (L : Libc) (z : Zone) (hc : Conforms L z) (y m d h mi s t : Int) (ht : Near t) (hs : z.summer t = true) :
    (forceUtc y m d h mi s t).timeZone = 0 ∧ isSaveLightDay L (forceUtc y m d h mi s t) = true := by
  refine ⟨rfl, ?_⟩
  unfold isSaveLightDay
  show decide ((L.localtime t).isdst ≠ 0) = true
  rw [hc.isdst t (near_far ht), hs]
  rfl

/-- **C86 (forced UTC).** `ForceUTCTime` keeps the fields and the time stamp it is given, whatever the zone of the process, and claims UTC: so the date-time names its unix
time exactly if the fields are those of the time stamp in UTC. The week day is not computed (0, Sunday). -/
theorem C86_force (y m d h mi s t : Int) :
    let x := forceUtc y m d h mi s t
    (x.year, x.month, x.day, x.hour, x.minute, x.sec) = (y, m, d, h, mi, s) ∧ x.unixTime = t ∧ x.timeZone = 0 ∧ x.weekDay = 0 ∧
      (named x = x.unixTime ↔ seconds y m d h mi s = t) := by
  refine ⟨rfl, rfl, rfl, rfl, ?_⟩
  show seconds y m d h mi s + 0 = t ↔ _
  omega

example : seconds 2023 11 14 22 13 20 = 1700000000 := by decide +kernel

/-- **C86 is violated** by the constructor from a `struct tm` holding a local time (it calls `mktime`, so it takes the structure for one): the unix time is right, the date-time
claims the zone UTC, and so names an instant that is off by the offset of the process's zone. -/
theorem C86_tm_violated (L : Libc) (z : Zone) (hc : Conforms L z) (t : Int) (ht : Near t) :
    let d := ofTm L (L.localtime t)
    seconds d.year d.month d.day d.hour d.minute d.sec = z.clock t ∧ z.clock d.unixTime = z.clock t ∧ d.timeZone = 0 ∧ named d - d.unixTime = z.offset d.unixTime ∧
      (z.offset d.unixTime ≠ 0 → named d ≠ d.unixTime) := by
  have hf := near_far ht
  have h1 := hc.finds (L.localtime t) t ht (hc.shows t hf) (.inr (hc.isdst t hf))
  unfold ofTm
  generalize (L.mktime (L.localtime t)).1 = u at h1
  obtain ⟨f, hv, hs, e⟩ := hc.fieldsOf ht u 0
  rw [e]
  have hs : seconds f.year f.month f.day f.hour f.minute f.sec = z.clock t := hs
  have hn : seconds f.year f.month f.day f.hour f.minute f.sec + 0 - u = z.offset u := by
    rw [hs, ← h1]
    unfold Zone.clock
    omega
  refine ⟨hs, h1, rfl, hn, fun h0 h2 => ?_⟩
  have h2 : seconds f.year f.month f.day f.hour f.minute f.sec + 0 = u := h2
  have h0 : z.offset u ≠ 0 := h0
  omega

/-! ### Witnesses: Prague in winter -/

/-- A C library in a zone one hour to the east of UTC. -/
def prague : Libc := fallLibc (-3600) (-(2 ^ 60))

/-- The zone. -/
def pragueZone : Zone := fallZone (-3600) (-(2 ^ 60))

example : Conforms prague pragueZone ∧ Regular prague pragueZone := ⟨fall_conforms _ _ (by decide), fall_regular _ _⟩
example : Near 1700000000 ∧ pragueZone.offset 1700000000 = 3600 := ⟨by unfold Near; omega, by decide⟩
example : localTime prague 1700000000 = ⟨2023, 11, 14, 23, 13, 20, 2, 1700000000, -3600⟩ := by decide +kernel
example : localFields prague 2023 11 14 23 13 20 = ⟨2023, 11, 14, 23, 13, 20, 2, 1700000000, -3600⟩ ∧
    seconds 2023 11 14 23 13 20 = pragueZone.clock 1700000000 := by decide +kernel
/-- The wrong ones: 22:13:20 UTC is meant. -/
example : utcStamp prague 1700000000 = ⟨2023, 11, 14, 23, 13, 20, 2, 1700000000, 0⟩ ∧
    utcFields prague true 2023 11 14 22 13 20 = ⟨2023, 11, 14, 22, 13, 20, 2, 1699996400, 0⟩ ∧
    ofIso prague (asc "20231114T22:13:20Z") = .ok ⟨2023, 11, 14, 22, 13, 20, 2, 1699996400, 0⟩ := by decide +kernel
example : ofTm prague (prague.localtime 1700000000) = ⟨2023, 11, 14, 23, 13, 20, 2, 1700000000, 0⟩ := by decide +kernel
/-- The right one. -/
example : ofIso prague (asc "20231114T23:13:20+0100") = .ok ⟨2023, 11, 14, 23, 13, 20, 2, 1700000000, -3600⟩ := by decide +kernel

/-! ## C87: a local time sent to another process -/

/-- What a process receives, in the binary protocol. -/
def ReceivesDate (B : Libc) (validation : Bool) (ver : Version) (d d' : DateTime) : Prop :=
  ∃ ws, sendResponse (fun _ => true) ver (.dateTime d) = (ws, none) ∧
    ∀ ps, ps.flatten = ws.flatten → ∃ tb, receive (settings B validation fun _ => true) .response ps = .ok tb ∧ TreeBuilder.getData tb = .ok (.dateTime d')

theorem receivesDate (B : Libc) (validation : Bool) (ver : Version) (hv : ver.Known) (d : DateTime) (ht : IsI64 d.unixTime) (hok : DateOk ver d) :
    ReceivesDate B validation ver d (full B validation d) := by
  have hmin : ver.major ≤ 2 → d.unixTime ≠ -(2 : Int) ^ 63 := by
    intro h
    have := hok.stamp h
    omega
  have := response_received (settings B validation fun _ => true) ver hv .response (.inl rfl) (.dateTime d) ⟨ht, hmin⟩
  simp only [received, hok.received, settings_date] at this
  exact this

/-- The local time of a process in a zone, at an instant, fits the fields of the binary protocol. -/
structure SendableTime (A : Libc) (z : Zone) (ver : Version) (t : Int) : Prop where
  near : Near t
  year : 1601 ≤ (localTime A t).year ∧ (localTime A t).year ≤ 2623
  zone : Spec.QuarterZone (z.offset t)
  west : z.offset t ≠ 128 * 900 ∧ z.offset t ≠ -128 * 900
  stamp : ver.major ≤ 2 → t.natAbs < 2 ^ 31

theorem SendableTime.dateOk {A : Libc} {z : Zone} {ver : Version} {t : Int} (h : SendableTime A z ver t) (hc : Conforms A z) (hr : Regular A z) :
    DateOk ver (localTime A t) := by
  obtain ⟨h1, h2, h3, h4, h5, h6⟩ := C86_local_partial A z hc hr t h.near
  obtain ⟨q, q1, q2, hq⟩ := h.zone
  have hw := h.west
  have hl := monthLength_le (localTime A t).year (localTime A t).month
  have := h3.month; have := h3.day; have := h3.hour; have := h3.minute; have := h3.sec
  have := weekDay_range (z.clock t / 86400)
  refine ⟨⟨by omega, by omega, by omega, by omega, by omega, by omega⟩, h.year, ⟨-q, by omega, by omega, by omega⟩, fun hm => ?_⟩
  rw [h1]
  exact h.stamp hm

/-- **C87 (without validation).** The receiver, whatever its zone, gets the same date-time: the same fields, zone and instant. -/
theorem C87_without_validation_partial (A B : Libc) (z : Zone) (hc : Conforms A z) (hr : Regular A z) (ver : Version) (hv : ver.Known) (t : Int)
    (hs : SendableTime A z ver t) : ReceivesDate B false ver (localTime A t) (localTime A t) := by
  refine receivesDate B false ver hv _ ?_ (hs.dateOk hc hr)
  rw [(C86_local_partial A z hc hr t hs.near).1]
  have := hs.near
  unfold Near at this
  unfold IsI64
  omega

/-- **C87 (with validation, the default).** The receiver gets the same fields and zone, but as unix time an instant at which its own clocks show the
fields. -/
theorem C87_with_validation (A B : Libc) (zA zB : Zone) (hA : Conforms A zA) (hr : Regular A zA) (hB : Conforms B zB) (ver : Version) (hv : ver.Known)
    (t : Int) (hs : SendableTime A zA ver t) (tb : Int) (htb : Near tb) (he : zB.clock tb = zA.clock t) :
    ∃ u, zB.clock u = zA.clock t ∧ ReceivesDate B true ver (localTime A t) { localTime A t with unixTime := u } := by
  have h := C86_local_partial A zA hA hr t hs.near
  obtain ⟨h1, h2, h3, h4, h5, h6⟩ := h
  obtain ⟨u, e1, e2, -⟩ := hB.computed htb (h4.trans he.symm)
  refine ⟨u, e2.trans he, ?_⟩
  have hi : IsI64 (localTime A t).unixTime := by
    rw [h1]
    have := hs.near
    unfold Near at this
    unfold IsI64
    omega
  have := receivesDate B true ver hv _ hi (hs.dateOk hA hr)
  unfold full at this
  simp only [if_true] at this
  rw [e1, he, ← h5] at this
  exact this

/-- **C87 is violated** by default between zones: where the receiver's clocks differ from the sender's, the unix time received is never the one sent. -/
theorem C87_zones_violated (A B : Libc) (zA zB : Zone) (hA : Conforms A zA) (hr : Regular A zA) (hB : Conforms B zB) (ver : Version) (hv : ver.Known)
    (t : Int) (hs : SendableTime A zA ver t) (tb : Int) (htb : Near tb) (he : zB.clock tb = zA.clock t) (hd : zA.offset t ≠ zB.offset t) :
    ∃ d', ReceivesDate B true ver (localTime A t) d' ∧ d'.unixTime ≠ t ∧ (localTime A t).unixTime = t := by
  obtain ⟨u, hu, hrec⟩ := C87_with_validation A B zA zB hA hr hB ver hv t hs tb htb he
  refine ⟨_, hrec, ?_, (C86_local_partial A zA hA hr t hs.near).1⟩
  show u ≠ t
  intro h
  subst h
  unfold Zone.clock at hu
  omega

/-- **C87 (one zone).** Between processes of one zone the date-time survives by default too, unless the clocks show its fields twice, at the end of summer
time. -/
theorem C87_same_zone_partial (A : Libc) (z : Zone) (hA : Conforms A z) (hr : Regular A z) (ver : Version) (hv : ver.Known) (t : Int)
    (hs : SendableTime A z ver t) (hone : ∀ u, Far u → z.clock u = z.clock t → u = t) : ReceivesDate A true ver (localTime A t) (localTime A t) := by
  obtain ⟨u, hu, hrec⟩ := C87_with_validation A A z z hA hr hA ver hv t hs t hs.near rfl
  have := hone u (hA.near_clock hs.near hu) hu
  subst this
  have e : { localTime A u with unixTime := u } = localTime A u := by
    conv => rhs; rw [← (show { localTime A u with unixTime := (localTime A u).unixTime } = localTime A u from rfl)]
    rw [(C86_local_partial A z hA hr u hs.near).1]
  rwa [e] at hrec

/-- Prague with the end of summer time on 29 October 2023 at 1:00 UTC. -/
def pragueFall : Libc := fallLibc (-3600) 1698541200

/-- **C87 is violated** in one zone at the end of summer time: half past two in summer time, sent to another process of the zone, arrives as half past two in
standard time, an hour later, still saying that it is in summer time. -/
theorem C87_autumn_violated :
    let d := localTime pragueFall (1698541200 - 1800)
    Conforms pragueFall (fallZone (-3600) 1698541200) ∧ d = ⟨2023, 10, 29, 2, 30, 0, 0, 1698541200 - 1800, -7200⟩ ∧
      ReceivesDate pragueFall true ⟨3, 0⟩ d { d with unixTime := 1698541200 + 1800 } := by
  have hc : Conforms pragueFall (fallZone (-3600) 1698541200) := fall_conforms _ _ (by decide)
  refine ⟨hc, by decide +kernel, ?_⟩
  have hs : SendableTime pragueFall (fallZone (-3600) 1698541200) ⟨3, 0⟩ (1698541200 - 1800) :=
    ⟨by unfold Near; omega, by decide +kernel, ⟨8, by decide, by decide, by decide⟩, by decide, by decide⟩
  have := receivesDate pragueFall true ⟨3, 0⟩ (by unfold Version.Known; decide) (localTime pragueFall (1698541200 - 1800)) (by unfold IsI64; decide +kernel)
    (hs.dateOk hc (fall_regular _ _))
  have e : full pragueFall true (localTime pragueFall (1698541200 - 1800)) = { localTime pragueFall (1698541200 - 1800) with unixTime := 1698541200 + 1800 } := by
    decide +kernel
  rwa [e] at this

/-! Summer and winter in Prague. -/
example : isSaveLightDay pragueFall (localTime pragueFall (1698541200 - 1800)) = true ∧ isSaveLightDay pragueFall (localTime pragueFall 1698541200) = false ∧
    (localTime pragueFall (1698541200 - 1800)).timeZone = -7200 ∧ (localTime pragueFall 1698541200).timeZone = -3600 := by decide +kernel
example : Conforms pragueFall (fallZone (-3600) 1698541200) ∧ Regular pragueFall (fallZone (-3600) 1698541200) ∧ Near 1698541199 ∧ (fallZone (-3600) 1698541200).summer 1698541199 = true :=
  ⟨fall_conforms _ _ (by decide), fall_regular _ _, by unfold Near; omega, by decide⟩

/-! Witnesses: from Prague to London. -/

/-- A C library in UTC. -/
def london : Libc := fallLibc 0 (-(2 ^ 60))

example : SendableTime prague pragueZone ⟨2, 1⟩ 1700000000 :=
  ⟨by unfold Near; omega, by decide +kernel, ⟨4, by decide, by decide, by decide⟩, by decide, by decide⟩
example : Near 1700003600 ∧ (fallZone 0 (-(2 ^ 60))).clock 1700003600 = pragueZone.clock 1700000000 ∧
    pragueZone.offset 1700000000 ≠ (fallZone 0 (-(2 ^ 60))).offset 1700000000 := ⟨by unfold Near; omega, by decide, by decide⟩
example : full london true (localTime prague 1700000000) = ⟨2023, 11, 14, 23, 13, 20, 2, 1700003600, -3600⟩ := by decide +kernel

/-! ## C88: the sign of the zone -/

/-- **C88.** What `getTimeZone` gives for a local time is the offset of the clocks to the west of UTC. -/
theorem C88_zone_partial (L : Libc) (z : Zone) (hc : Conforms L z) (hr : Regular L z) (t : Int) (ht : Near t) : (localTime L t).timeZone = -(z.offset t) :=
  (C86_local_partial L z hc hr t ht).2.2.2.2.2

/-- **C88 is violated**: the documentation of `getTimeZone` says that zones east of Greenwich have positive numbers; they have negative ones. -/
theorem C88_sign_violated (L : Libc) (z : Zone) (hc : Conforms L z) (hr : Regular L z) (t : Int) (ht : Near t) (ho : 0 < z.offset t) :
    (localTime L t).timeZone < 0 := by
  rw [C88_zone_partial L z hc hr t ht]
  omega

/-- The offset from UTC as ISO 8601 writes it: `+` to the east, hours, minutes. -/
def isoOffset (o : Int) : Bytes := [if 0 ≤ o then 43 else 45] ++ decPad 2 (o.natAbs / 3600) ++ decPad 2 (o.natAbs / 60 % 60)

/-- `isoFormat()` (`src/frpcdatetime.cc:233-236`). -/
def isoText (d : DateTime) : Bytes := IsoDate.format d.year d.month d.day d.hour d.minute d.sec d.timeZone

/-- **C88 (the text).** The ISO text of a local time ends with the offset of the clocks as ISO 8601 writes it. -/
theorem C88_iso (L : Libc) (z : Zone) (hc : Conforms L z) (hr : Regular L z) (t : Int) (ht : Near t) :
    isoOffset (z.offset t) <:+ isoText (localTime L t) := by
  unfold isoText IsoDate.format
  rw [C88_zone_partial L z hc hr t ht]
  have h1 : (IsoDate.cdiv (IsoDate.cdiv (-(z.offset t)) 60) 60).natAbs = (z.offset t).natAbs / 3600 := by
    unfold IsoDate.cdiv
    rw [Int.natAbs_tdiv, Int.natAbs_tdiv, Int.natAbs_neg]
    exact (show (z.offset t).natAbs / 60 / 60 = _ from Nat.div_div_eq_div_mul _ _ _)
  have h2 : (IsoDate.cmod (IsoDate.cdiv (-(z.offset t)) 60) 60).natAbs = (z.offset t).natAbs / 60 % 60 := by
    unfold IsoDate.cdiv IsoDate.cmod
    rw [Int.natAbs_tmod, Int.natAbs_tdiv, Int.natAbs_neg]
    rfl
  rw [h1, h2]
  have h3 : (if -(z.offset t) ≤ 0 then (43 : UInt8) else 45) = if 0 ≤ z.offset t then 43 else 45 := by
    by_cases h : 0 ≤ z.offset t
    · rw [if_pos h, if_pos (by omega)]
    · rw [if_neg h, if_neg (by omega)]
  rw [h3]
  unfold isoOffset
  simp only [List.append_assoc]
  (repeat' first | exact List.suffix_refl _ | apply List.IsSuffix.trans _ (List.suffix_append _ _))

/-- **C86 (through the text).** The ISO text of a local time, read back in the same zone, gives the same date-time, if the zone is in whole minutes, the year
has four digits and the clocks do not show the fields twice. -/
theorem C86_text_roundtrip_partial (L : Libc) (z : Zone) (hc : Conforms L z) (hr : Regular L z) (t : Int) (ht : Near t)
    (hy : 0 ≤ (localTime L t).year ∧ (localTime L t).year ≤ 9999) (hz : z.offset t % 60 = 0) (hone : ∀ u, Far u → z.clock u = z.clock t → u = t) :
    ofIso L (isoText (localTime L t)) = .ok (localTime L t) := by
  obtain ⟨h1, h2, h3, h4, h5, h6⟩ := C86_local_partial L z hc hr t ht
  have hl := monthLength_le (localTime L t).year (localTime L t).month
  have hb := hc.bounded t
  have := h3.month; have := h3.day; have := h3.hour; have := h3.minute; have := h3.sec
  have hp := C31_iso_roundtrip (localTime L t).year (localTime L t).month (localTime L t).day (localTime L t).hour (localTime L t).minute (localTime L t).sec
    (localTime L t).timeZone hy (by omega) (by omega) (by omega) (by omega) (by omega) (by omega) (by omega)
  obtain ⟨u, e1, e2, -⟩ := hc.computed ht h4
  have := hone u (hc.near_clock ht e2) e2
  subst this
  unfold ofIso isoText
  rw [hp]
  simp only
  rw [e1, ← h5]
  have : ∀ d : DateTime, d.unixTime = u → (⟨d.year, d.month, d.day, d.hour, d.minute, d.sec, d.weekDay, u, d.timeZone⟩ : DateTime) = d := by
    intro d hd
    rw [← hd]
  rw [this _ h1]

example : isoText (localTime prague 1700000000) = asc "20231114T23:13:20+0100" := by decide +kernel
example : ∀ u, Far u → pragueZone.clock u = pragueZone.clock 1700000000 → u = 1700000000 := by
  intro u hu h
  unfold Far at hu
  unfold pragueZone fallZone Zone.clock at h
  simp only [decide_eq_true_eq] at h
  split at h <;> split at h <;> omega

end Frpc
