import Verif.Model.Elapsed
/-! # C139: the time a callback is told -/
namespace Frpc
open Elapsed

/-! ## Specification -/

/-- A time as the clock gives it: the microseconds are those of one second. -/
def Spec.Elapsed.Normal (t : TimeDiff) : Prop := 0 ≤ t.usecond ∧ t.usecond < 1000000

/-- Microseconds. -/
def Spec.Elapsed.micros (t : TimeDiff) : Int := t.second * 1000000 + t.usecond

open Spec.Elapsed

/-- **C139 (elapsed).** The duration given to the callbacks is the time between the two readings of the clock, to the microsecond, with less than a million microseconds in it, for any duration below 2^32 seconds. -/
theorem C139_elapsed (start now : TimeDiff) (hs : Normal start) (hn : Normal now) (h : micros start ≤ micros now) (hb : micros now - micros start < 2 ^ 32 * 1000000) :
    micros (diff start now) = micros now - micros start ∧ Normal (diff start now) ∧ 0 ≤ (diff start now).second := by
  obtain ⟨s, u⟩ := start
  obtain ⟨s', u'⟩ := now
  unfold Normal at hs hn
  unfold micros at h hb
  simp only at hs hn h hb
  unfold diff make micros Normal
  simp only
  by_cases c : s' < s ∨ (s' = s ∧ u' < u)
  · omega
  · rw [if_neg c]
    by_cases d : u' ≥ u
    · rw [if_pos d]
      have e1 : (s' - s) % 2 ^ 32 = s' - s := by omega
      have e2 : (u' - u) % 2 ^ 32 = u' - u := by omega
      simp only [e1, e2]
      omega
    · rw [if_neg d]
      have e1 : (s' - s - 1) % 2 ^ 32 = s' - s - 1 := by omega
      have e2 : (1000000 - u + u') % 2 ^ 32 = 1000000 - u + u' := by omega
      simp only [e1, e2]
      omega

/-- **C139 (a clock set back).** If the clock was set back in between the duration is zero, never a huge one. -/
theorem C139_back (start now : TimeDiff) (hs : Normal start) (hn : Normal now) (h : micros now < micros start) : diff start now = ⟨0, 0⟩ := by
  unfold Normal at hs hn
  unfold micros at h
  unfold diff make
  rw [if_pos (by omega)]
  decide

/-- Across the end of a second, and with the clock set back. -/
example : diff ⟨1700000000, 999999⟩ ⟨1700000003, 4⟩ = ⟨2, 5⟩ ∧ diff ⟨1700000000, 5⟩ ⟨1699999999, 999999⟩ = ⟨0, 0⟩ ∧ Normal ⟨1700000000, 999999⟩ := by
  refine ⟨by decide, by decide, ?_⟩
  exact ⟨by decide, by decide⟩

end Frpc
