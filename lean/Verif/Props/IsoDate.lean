import Verif.Proofs.IsoDate
/-!
# ISO date-time text: C31 (round trip), C32 (total, in bounds), C63 (buffer never overflows)
-/
namespace Frpc
open Spec IsoDate

/-- C31: formatting then parsing gives the same fields and zone, for every year of four digits,
every month, day, hour, minute, second of two digits (so every calendar date-time) and every zone
in whole minutes below 100 hours. -/
theorem C31_iso_roundtrip (year month day hour minute sec tz : Int)
    (hy : 0 ≤ year ∧ year ≤ 9999) (hmo : 0 ≤ month ∧ month ≤ 99) (hd : 0 ≤ day ∧ day ≤ 99)
    (hh : 0 ≤ hour ∧ hour ≤ 99) (hmi : 0 ≤ minute ∧ minute ≤ 99) (hs : 0 ≤ sec ∧ sec ≤ 99)
    (htz : -(100 * 3600) < tz ∧ tz < 100 * 3600) (hmin : tz % 60 = 0) :
    parse (format year month day hour minute sec tz) = .ok ⟨year, month, day, hour, minute, sec, tz⟩ := by
  obtain ⟨y, rfl⟩ := Int.eq_ofNat_of_zero_le hy.1
  obtain ⟨mo, rfl⟩ := Int.eq_ofNat_of_zero_le hmo.1
  obtain ⟨d, rfl⟩ := Int.eq_ofNat_of_zero_le hd.1
  obtain ⟨h, rfl⟩ := Int.eq_ofNat_of_zero_le hh.1
  obtain ⟨mi, rfl⟩ := Int.eq_ofNat_of_zero_le hmi.1
  obtain ⟨s, rfl⟩ := Int.eq_ofNat_of_zero_le hs.1
  exact roundtrip y mo d h mi s tz (by omega) (by omega) (by omega) (by omega) (by omega) (by omega) (by omega) hmin

example : parse (asc "20240229T23:59:60+0530") = .ok ⟨2024, 2, 29, 23, 59, 60, -19800⟩ := by decide +kernel
example : format 2024 2 29 23 59 60 (-19800) = asc "20240229T23:59:60+0530" := by
  simp [format, decIntPad, decPad, dec, digit, cdiv, cmod, asc]

/-- C32: for every text the parser answers without reading outside it: a stream error exactly when
the digits of year, month or day are missing, else the fields, which are what the text reader
`isoDay`/`isoTime` reads and are in the ranges their numbers of digits allow. -/
theorem C32_iso_total (s : Bytes) :
    (parse s = .error .stream ↔ isoDay s = none) ∧
    (∀ e, parse s = .error e → e = .stream) ∧
    (∀ f, parse s = .ok f → 0 ≤ f.year ∧ f.year ≤ 9999 ∧ 0 ≤ f.month ∧ f.month ≤ 99 ∧ 0 ≤ f.day ∧ f.day ≤ 99 ∧
      0 ≤ f.hour ∧ f.hour ≤ 99 ∧ 0 ≤ f.minute ∧ f.minute ≤ 99 ∧ 0 ≤ f.sec ∧ f.sec ≤ 99 ∧
      -((99 * 60 + 99) * 60) ≤ f.tz ∧ f.tz ≤ (99 * 60 + 99) * 60) ∧
    (∀ y m d rest, isoDay s = some (y, m, d, rest) →
      parse s = .ok ⟨atoi y, atoi m, atoi d, (isoTime rest).1, (isoTime rest).2.1, (isoTime rest).2.2.1, (isoTime rest).2.2.2⟩) := by
  rw [parse_eq]
  cases hday : isoDay s with
  | none => simp
  | some q =>
    obtain ⟨y, m, d, rest⟩ := q
    have hr := isoTime_range rest
    have hy : atoi y < 10000 ∧ atoi m < 100 ∧ atoi d < 100 := by
      unfold isoDay at hday
      simp only at hday
      split at hday
      · cases hday
      · cases hday
        exact ⟨by simpa using atoi_numeral 4 _, by simpa using atoi_numeral 2 _, by simpa using atoi_numeral 2 _⟩
    simp only [i8_small hy.2.1, i8_small hy.2.2, i8_small hr.1, i8_small hr.2.1, i8_small hr.2.2.1, i16_small hy.1]
    refine ⟨by simp, by simp, ?_, ?_⟩
    · intro f hf
      cases hf
      simp only
      omega
    · intro y' m' d' rest' h; cases h; rfl

example : parse (asc " 2020-02-3x") = .ok ⟨2020, 2, 3, 0, 0, 0, 0⟩ := by decide +kernel
example : parse (asc "2020-02") = .error .stream := by decide +kernel
example : parse [] = .error .stream := by decide +kernel

/-- C63: the text of any date-time the fields can hold (`short` year, `char` parts, `int` zone)
with its terminating NUL fits the 50-byte buffer it is printed into. -/
theorem C63_format_fits (year month day hour minute sec tz : Int)
    (hy : -32768 ≤ year ∧ year ≤ 32767) (hmo : -128 ≤ month ∧ month ≤ 127) (hd : -128 ≤ day ∧ day ≤ 127)
    (hh : -128 ≤ hour ∧ hour ≤ 127) (hmi : -128 ≤ minute ∧ minute ≤ 127) (hs : -128 ≤ sec ∧ sec ≤ 127)
    (htz : IsI32 tz) : (format year month day hour minute sec tz).length + 1 ≤ 50 := by
  have key : ∀ (w k : Nat) (n : Int), 0 < k → w ≤ k → n.natAbs < 10 ^ k → (decIntPad w n).length ≤ k + 1 := by
    intro w k n hk hw hn
    have h1 := dec_length hk hn
    unfold decIntPad decPad
    split <;> simp <;> omega
  have keyp : ∀ (w k : Nat) (n : Nat), 0 < k → w ≤ k → n < 10 ^ k → (decPad w n).length ≤ k := by
    intro w k n hk hw hn
    have h1 := dec_length hk hn
    unfold decPad
    simp; omega
  unfold IsI32 at htz
  have e1 : (cdiv (cdiv tz 60) 60).natAbs = tz.natAbs / 60 / 60 := by
    unfold cdiv; rw [Int.natAbs_tdiv, Int.natAbs_tdiv]; rfl
  have e2 : (cmod (cdiv tz 60) 60).natAbs = tz.natAbs / 60 % 60 := by
    unfold cmod cdiv; rw [Int.natAbs_tmod, Int.natAbs_tdiv]; rfl
  have l1 := key 4 5 year (by omega) (by omega) (by omega)
  have l2 := key 2 3 month (by omega) (by omega) (by omega)
  have l3 := key 2 3 day (by omega) (by omega) (by omega)
  have l4 := key 2 3 hour (by omega) (by omega) (by omega)
  have l5 := key 2 3 minute (by omega) (by omega) (by omega)
  have l6 := key 2 3 sec (by omega) (by omega) (by omega)
  have l7 := keyp 2 6 (tz.natAbs / 60 / 60) (by omega) (by omega) (by omega)
  have l8 := keyp 2 2 (tz.natAbs / 60 % 60) (by omega) (by omega) (by omega)
  unfold format
  simp only [List.length_append, List.length_cons, List.length_nil, e1, e2]
  omega

end Frpc
