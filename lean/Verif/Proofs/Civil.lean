import Verif.Spec.Zone
/-!
# The calendar of day numbers, and a C library that conforms
-/
namespace Frpc
namespace Spec.Civil
open DateTimeMake (Tm Libc)

/-- The last month up to `k + 1` that begins at or before the day `r` of a year, from 0, and the day of the month. -/
def monthFrom (y r : Int) : Nat → Int × Int
  | 0 => (1, r + 1)
  | k + 1 => if daysBeforeMonth y ((k : Int) + 2) ≤ r then ((k : Int) + 2, r - daysBeforeMonth y ((k : Int) + 2) + 1) else monthFrom y r k

/-- The month, 1 to 12, and the day of the month of the day `r` of a year, from 0. -/
def monthOf (y r : Int) : Int × Int := monthFrom y r 11

/-- The year, and the day of the year from 0, of a day. -/
def yearOf (n : Int) : Int × Int :=
  let n := n + 719162
  let e := n / 146097
  let r := n % 146097
  let c := if r / 36524 ≤ 3 then r / 36524 else 3
  let r := r - c * 36524
  let q := r / 1461
  let r := r % 1461
  let k := if r / 365 ≤ 3 then r / 365 else 3
  (400 * e + 100 * c + 4 * q + k + 1, r - 365 * k)

theorem yearOf_parts (n : Int) : ∃ e c q k R, yearOf n = (400 * e + 100 * c + 4 * q + k + 1, R) ∧
    n + 719162 = 146097 * e + 36524 * c + 1461 * q + 365 * k + R ∧ 0 ≤ c ∧ c ≤ 3 ∧ 0 ≤ q ∧ q ≤ 24 ∧ 0 ≤ k ∧ k ≤ 3 ∧ 0 ≤ R ∧ R ≤ 365 ∧
    (R = 365 → k = 3 ∧ (q = 24 → c = 3)) := by
  refine ⟨_, _, _, _, _, rfl, ?_⟩
  have aux : ∀ m e r c q r3 k : Int, 146097 * e + r = m → 0 ≤ r → r < 146097 → 0 ≤ c → c ≤ 3 → 36524 * c + (1461 * q + r3) = r → 0 ≤ r3 → r3 < 1461 →
      0 ≤ 1461 * q + r3 → (1461 * q + r3 ≤ 36524) → (c < 3 → 1461 * q + r3 < 36524) → 0 ≤ k → k ≤ 3 → 365 * k ≤ r3 → (k < 3 → r3 < 365 * k + 365) →
      m = 146097 * e + 36524 * c + 1461 * q + 365 * k + (r3 - 365 * k) ∧ 0 ≤ c ∧ c ≤ 3 ∧ 0 ≤ q ∧ q ≤ 24 ∧ 0 ≤ k ∧ k ≤ 3 ∧ 0 ≤ r3 - 365 * k ∧
        r3 - 365 * k ≤ 365 ∧ (r3 - 365 * k = 365 → k = 3 ∧ (q = 24 → c = 3)) := by
    intro m e r c q r3 k h1 h2 h3 h4 h5 h6 h7 h8 h9 h10 h11 h12 h13 h14 h15
    refine ⟨by omega, h4, h5, by omega, by omega, h12, h13, by omega, by omega, fun h => ⟨by omega, fun hq => ?_⟩⟩
    omega
  generalize n + 719162 = m
  apply aux m (m / 146097) (m % 146097)
  · omega
  · omega
  · omega
  · split <;> omega
  · split <;> omega
  · split <;> omega
  · omega
  · omega
  · split <;> omega
  · split <;> omega
  · split <;> omega
  · split <;> omega
  · split <;> omega
  · generalize (m % 146097 - (if m % 146097 / 36524 ≤ 3 then m % 146097 / 36524 else 3) * 36524) % 1461 = x
    split <;> omega
  · generalize hx : (m % 146097 - (if m % 146097 / 36524 ≤ 3 then m % 146097 / 36524 else 3) * 36524) % 1461 = x
    split <;> omega

theorem yearOf_spec (n : Int) : daysBeforeYear (yearOf n).1 + (yearOf n).2 = n + 719162 ∧ 0 ≤ (yearOf n).2 ∧
    (yearOf n).2 < 365 + if leap (yearOf n).1 then 1 else 0 := by
  obtain ⟨e, c, q, k, R, h, hn, c0, c1, q0, q1, k0, k1, R0, R1, hl⟩ := yearOf_parts n
  rw [h]
  simp only
  generalize hY : 400 * e + 100 * c + 4 * q + k = Y
  have y4 : Y / 4 = 100 * e + 25 * c + q := by omega
  have y100 : Y / 100 = 4 * e + c := by omega
  have y400 : Y / 400 = e := by omega
  refine ⟨?_, R0, ?_⟩
  · unfold daysBeforeYear
    rw [Int.add_sub_cancel, y4, y100, y400]
    omega
  · by_cases hlt : R < 365
    · split <;> omega
    · obtain ⟨hk3, hq24⟩ := hl (by omega)
      have l4 : (Y + 1) % 4 = 0 := by omega
      have l100 : (Y + 1) % 100 = 0 → (Y + 1) % 400 = 0 := by omega
      have : leap (Y + 1) = true := by
        unfold leap
        by_cases h : (Y + 1) % 100 = 0
        · simp [l4, l100 h]
        · simp [l4, h]
      rw [this]
      simp only [if_true]
      omega

theorem monthFrom_spec (y r : Int) (h0 : 0 ≤ r) : ∀ k : Nat, k ≤ 11 → r < daysBeforeMonth y ((k : Int) + 1) + monthLength y ((k : Int) + 1) →
    daysBeforeMonth y (monthFrom y r k).1 + ((monthFrom y r k).2 - 1) = r ∧ 1 ≤ (monthFrom y r k).1 ∧ (monthFrom y r k).1 ≤ 12 ∧
      1 ≤ (monthFrom y r k).2 ∧ (monthFrom y r k).2 ≤ monthLength y (monthFrom y r k).1
  | 0, _, h => by
    have h1 : daysBeforeMonth y 1 = 0 := by simp [daysBeforeMonth]
    have h : r < daysBeforeMonth y 1 + monthLength y 1 := h
    simp only [monthFrom]
    rw [h1] at *
    omega
  | k + 1, hk, h => by
    unfold monthFrom
    have e : ((k + 1 : Nat) : Int) + 1 = (k : Int) + 2 := by omega
    rw [e] at h
    split
    · next hle =>
      simp only
      omega
    · next hlt =>
      refine monthFrom_spec y r h0 k (by omega) ?_
      have := nextMonth y ((k : Int) + 1) (by omega)
      rw [if_neg (by omega)] at this
      have e2 : (k : Int) + 1 + 1 = (k : Int) + 2 := by omega
      rw [e2] at this
      omega

theorem monthOf_spec (y r : Int) (h : 0 ≤ r ∧ r < 365 + if leap y then 1 else 0) :
    daysBeforeMonth y (monthOf y r).1 + ((monthOf y r).2 - 1) = r ∧ 1 ≤ (monthOf y r).1 ∧ (monthOf y r).1 ≤ 12 ∧
      1 ≤ (monthOf y r).2 ∧ (monthOf y r).2 ≤ monthLength y (monthOf y r).1 := by
  refine monthFrom_spec y r h.1 11 (Nat.le_refl _) ?_
  have e : ((11 : Nat) : Int) + 1 = 12 := by decide
  rw [e]
  have h12 := nextMonth y 12 ⟨by decide, by decide⟩
  simp only [if_true] at h12
  have := nextYear y
  omega

/-- The fields that a clock shows that has gone so many seconds. -/
def fieldsAt (s : Int) : Fields :=
  let y := yearOf (s / 86400)
  let m := monthOf y.1 y.2
  ⟨y.1, m.1, m.2, s % 86400 / 3600, s % 3600 / 60, s % 60⟩

theorem fieldsAt_valid (s : Int) : (fieldsAt s).Valid := by
  have h := yearOf_spec (s / 86400)
  have hm := monthOf_spec _ _ ⟨h.2.1, h.2.2⟩
  exact ⟨⟨hm.2.1, hm.2.2.1⟩, hm.2.2.2, by show 0 ≤ s % 86400 / 3600 ∧ _ ≤ _; simp only [fieldsAt]; omega,
    by simp only [fieldsAt]; omega, by simp only [fieldsAt]; omega⟩

theorem fieldsAt_seconds (s : Int) : (fieldsAt s).seconds = s := by
  have h := yearOf_spec (s / 86400)
  have hm := monthOf_spec _ _ ⟨h.2.1, h.2.2⟩
  unfold Fields.seconds seconds dayNumber fieldsAt
  simp only
  generalize hy : yearOf (s / 86400) = y at h hm
  generalize hmm : monthOf y.1 y.2 = m at hm
  have e1 : (m.1 - 1) / 12 = 0 := by omega
  have e2 : (m.1 - 1) % 12 + 1 = m.1 := by omega
  rw [e1, e2, Int.add_zero]
  have : daysBeforeYear y.1 + daysBeforeMonth y.1 m.1 + (m.2 - 1) - 719162 = s / 86400 := by omega
  rw [this]
  omega

/-! ## A C library in a zone that leaves summer time once -/

/-- The zone: summer time before `T`, standard time `west` of UTC since. -/
def fallZone (west T : Int) : Zone := ⟨fun t => -west + if decide (t < T) then 3600 else 0, fun t => decide (t < T)⟩

/-- `localtime_r` there. -/
def fallLocal (west T t : Int) : Tm :=
  let s := (fallZone west T).clock t
  let f := fieldsAt s
  ⟨f.year - 1900, f.month - 1, f.day, f.hour, f.minute, f.sec, weekDay (s / 86400), if decide (t < T) then 1 else 0⟩

/-- The instant of the fields there. -/
def fallFind (west T : Int) (tm : Tm) : Int :=
  let s := tm.fields.seconds
  if tm.isdst > 0 ∧ s + west - 3600 < T then s + west - 3600 else if tm.isdst = 0 ∨ s + west ≥ T then s + west else s + west - 3600

/-- The C library there. -/
def fallLibc (west T : Int) : Libc := ⟨fallLocal west T, fun tm => (fallFind west T tm, fallLocal west T (fallFind west T tm)), west⟩

theorem fall_standard (west T : Int) : Standard (fallLibc west T) := by
  intro tm h _ _
  show fallFind west T tm = tm.fields.seconds + west
  unfold fallFind
  simp [h]

theorem fall_regular (west T : Int) : Regular (fallLibc west T) (fallZone west T) := by
  intro t
  rfl

theorem fall_conforms (west T : Int) (hw : -80000 ≤ west ∧ west ≤ 80000) : Conforms (fallLibc west T) (fallZone west T) := by
  have hf : ∀ t, (fallLocal west T t).fields = fieldsAt ((fallZone west T).clock t) := by
    intro t
    unfold fallLocal DateTimeMake.Tm.fields
    simp
  have hfind : ∀ tm t, tm.fields.seconds = (fallZone west T).clock t → (tm.isdst < 0 ∨ tm.isdst = if (fallZone west T).summer t then 1 else 0) →
      (fallZone west T).clock (fallFind west T tm) = (fallZone west T).clock t := by
    intro tm t h hd
    have h : tm.fields.seconds = t + (-west + if decide (t < T) = true then 3600 else 0) := h
    have hd : tm.isdst < 0 ∨ tm.isdst = if decide (t < T) = true then 1 else 0 := hd
    show fallFind west T tm + (-west + if decide (fallFind west T tm < T) = true then 3600 else 0) = t + (-west + if decide (t < T) = true then 3600 else 0)
    unfold fallFind
    simp only [decide_eq_true_eq] at *
    generalize tm.fields.seconds = x at *
    generalize tm.isdst = y at *
    by_cases h1 : t < T
    · simp only [h1, if_true] at h hd ⊢
      (repeat' split) <;> omega
    · simp only [h1, if_false] at h hd ⊢
      (repeat' split) <;> omega
  refine ⟨?_, ?_, ?_, ?_, ?_, fun tm t _ => hfind tm t, ?_, fun _ _ _ _ _ => rfl⟩
  · intro t
    unfold fallZone
    simp only
    split <;> omega
  · intro t _
    show (fallLocal west T t).fields.Valid
    rw [hf]
    exact fieldsAt_valid _
  · intro t _
    show (fallLocal west T t).fields.seconds = _
    rw [hf]
    exact fieldsAt_seconds _
  · intro t _
    rfl
  · intro t _
    rfl
  · intro tm t _ h hd
    show decide (fallFind west T tm < T) = decide (t < T)
    have h : tm.fields.seconds = t + (-west + if decide (t < T) = true then 3600 else 0) := h
    have hd : tm.isdst = if decide (t < T) = true then 1 else 0 := hd
    by_cases h1 : t < T
    · simp only [h1, decide_true, if_true] at h hd
      have : fallFind west T tm = t := by
        unfold fallFind
        simp only
        rw [h, hd, if_pos (by omega)]
        omega
      rw [this]
    · simp only [h1, decide_false, Bool.false_eq_true, if_false] at h hd
      have : fallFind west T tm = t := by
        unfold fallFind
        simp only
        rw [h, hd, if_neg (by omega), if_pos (by omega)]
        omega
      rw [this]

end Spec.Civil
end Frpc
