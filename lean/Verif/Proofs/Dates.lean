import Verif.Proofs.Numbers
import Verif.Proofs.DecoderInv
import Verif.Spec.Received
/-! # The bit-packed date-time -/
namespace Frpc
open BinMarshaller BinUnMarshaller

/-- What the receiver reads from the five packed bytes, zone byte and time. -/
def unpacked (d : DateTime) (unixTime : Int) : DateTime :=
  let y : Nat := if d.year ≤ 1600 then 0 else low 11 (d.year - 1600)
  { year := (if y < 1024 then (y : Int) else (y : Int) - 2048) % 65536
    month := low 4 d.month
    day := low 5 d.day
    hour := low 5 d.hour
    minute := low 6 d.minute
    sec := low 6 d.sec
    weekDay := low 3 d.weekDay
    unixTime := unixTime
    timeZone := i8 ((d.timeZone.tdiv 60).tdiv 15) }

theorem low_lt (k : Nat) (x : Int) : low k x < 2 ^ k := by
  unfold low
  have h1 : (0 : Int) < 2 ^ k := by exact_mod_cast Nat.two_pow_pos k
  have := Int.emod_lt_of_pos x h1
  have h2 := Int.emod_nonneg x (Int.ne_of_gt h1)
  have : ((x % 2 ^ k).toNat : Int) < ((2 ^ k : Nat) : Int) := by
    rw [Int.toNat_of_nonneg h2]; push_cast; exact this
  exact_mod_cast this

theorem pk0 : ∀ s : Fin 64, ∀ w : Fin 8,
    (UInt8.ofNat (((s.val &&& 0x1f) <<< 3) ||| (w.val &&& 0x07))).toNat = s.val % 32 * 8 + w.val := by decide

theorem pk1 : ∀ m : Fin 64, ∀ a b : Fin 2,
    (UInt8.ofNat (((m.val &&& 0x3f) <<< 1) ||| a.val ||| (b.val <<< 7))).toNat = m.val * 2 + a.val + b.val * 128 := by decide

theorem pk1s : ∀ s : Fin 64, (s.val &&& 0x20) >>> 5 = s.val / 32 := by decide
theorem pk1h : ∀ h : Fin 32, (h.val &&& 0x01) = h.val % 2 := by decide

theorem pk2 : ∀ h d : Fin 32,
    (UInt8.ofNat (((h.val &&& 0x1e) >>> 1) ||| ((d.val &&& 0x0f) <<< 4))).toNat = h.val / 2 + d.val % 16 * 16 := by decide

theorem pk3 : ∀ a : Fin 2, ∀ m : Fin 16, ∀ y : Fin 8,
    (UInt8.ofNat (a.val ||| ((m.val &&& 0x0f) <<< 1) ||| (y.val <<< 5))).toNat = a.val + m.val * 2 + y.val * 32 := by decide
theorem pk3d : ∀ d : Fin 32, ((d.val &&& 0x1f) >>> 4) = d.val / 16 := by decide

theorem and7 (y : Nat) : y &&& 7 = y % 8 := Nat.and_two_pow_sub_one_eq_mod y 3

theorem pk4 {y : Nat} (h : y < 2048) : (y &&& 0x07f8) >>> 3 = y / 8 := by
  rw [Nat.shiftRight_and_distrib, Nat.shiftRight_eq_div_pow]
  rw [show 0x07f8 >>> 3 = 2 ^ 8 - 1 from rfl, Nat.and_two_pow_sub_one_eq_mod]
  omega

set_option maxRecDepth 4000 in
theorem up : ∀ b : Fin 256, ((b.val &&& 0xe0) >>> 5 = b.val / 32) ∧ ((b.val &&& 0x1e) >>> 1 = b.val / 2 % 16) ∧
    ((b.val &&& 0x01) <<< 4 = b.val % 2 * 16) ∧ ((b.val &&& 0xf0) >>> 4 = b.val / 16) ∧
    ((b.val &&& 0x0f) <<< 1 = b.val % 16 * 2) ∧ ((b.val &&& 0x80) >>> 7 = b.val / 128) ∧
    ((b.val &&& 0x7e) >>> 1 = b.val / 2 % 64) ∧ ((b.val &&& 0x01) <<< 5 = b.val % 2 * 32) ∧
    ((b.val &&& 0xf8) >>> 3 = b.val / 8) ∧ (b.val &&& 0x07 = b.val % 8) := by decide

theorem or1 : ∀ a : Fin 2, ∀ b : Fin 16, (a.val * 16 ||| b.val) = a.val * 16 + b.val := by decide
theorem or2 : ∀ a : Fin 16, ∀ b : Fin 2, (a.val * 2 ||| b.val) = a.val * 2 + b.val := by decide
theorem or3 : ∀ a : Fin 2, ∀ b : Fin 32, (a.val * 32 ||| b.val) = a.val * 32 + b.val := by decide

theorem year_sign {y : Nat} (hy : y < 2048) :
    i8 ((y / 8 : Nat) : Int) * 8 + ((y % 8 : Nat) : Int) = if y < 1024 then (y : Int) else (y : Int) - 2048 := by
  unfold i8
  by_cases h : y < 1024
  · rw [if_pos h, if_pos (by omega)]; omega
  · rw [if_neg h, if_neg (by omega)]; omega

theorem getFields_packFields (d : DateTime) (t : Int) (z : UInt8) (hz : z = packZone d.timeZone) :
    ∃ f0 f1 f2 f3 f4, packFields d = [f0, f1, f2, f3, f4] ∧ getFields f0 f1 f2 f3 f4 z t = unpacked d t := by
  refine ⟨_, _, _, _, _, rfl, ?_⟩
  unfold getFields unpacked
  have hs := low_lt 6 d.sec
  have hw := low_lt 3 d.weekDay
  have hm := low_lt 6 d.minute
  have hh := low_lt 5 d.hour
  have hd := low_lt 5 d.day
  have hmo := low_lt 4 d.month
  have hy : (if d.year ≤ 1600 then 0 else low 11 (d.year - 1600)) < 2048 := by
    split
    · omega
    · exact low_lt 11 _
  simp only
  generalize (if d.year ≤ 1600 then 0 else low 11 (d.year - 1600)) = y at *
  generalize low 6 d.sec = s at *
  generalize low 3 d.weekDay = w at *
  generalize low 6 d.minute = m at *
  generalize low 5 d.hour = h at *
  generalize low 5 d.day = dd at *
  generalize low 4 d.month = mo at *
  have e0 := pk0 ⟨s, hs⟩ ⟨w, hw⟩
  have es := pk1s ⟨s, hs⟩
  have eh := pk1h ⟨h, hh⟩
  have e1 := pk1 ⟨m, hm⟩ ⟨s / 32, by omega⟩ ⟨h % 2, by omega⟩
  have e2 := pk2 ⟨h, hh⟩ ⟨dd, hd⟩
  have ed := pk3d ⟨dd, hd⟩
  have e3 := pk3 ⟨dd / 16, by omega⟩ ⟨mo, hmo⟩ ⟨y % 8, by omega⟩
  have e4 : (UInt8.ofNat ((y &&& 0x07f8) >>> 3)).toNat = y / 8 := by
    rw [pk4 hy, UInt8.toNat_ofNat']; omega
  simp only at e0 e1 e2 e3 es eh ed
  rw [es, eh, ed, and7 y]
  rw [e0, e1, e2, e3, e4]
  have u0 := up ⟨s % 32 * 8 + w, by omega⟩
  have u1 := up ⟨m * 2 + s / 32 + h % 2 * 128, by omega⟩
  have u2 := up ⟨h / 2 + dd % 16 * 16, by omega⟩
  have u3 := up ⟨dd / 16 + mo * 2 + y % 8 * 32, by omega⟩
  simp only at u0 u1 u2 u3
  obtain ⟨-, -, -, -, -, -, -, -, a1, a2⟩ := u0
  obtain ⟨-, -, -, -, -, b1, b2, b3, -, -⟩ := u1
  obtain ⟨-, -, -, c1, c2, -, -, -, -, -⟩ := u2
  obtain ⟨d1, d2, d3, -, -, -, -, -, -, -⟩ := u3
  rw [a1, a2, b1, b2, b3, c1, c2, d1, d2, d3]
  have o1 := or1 ⟨(dd / 16 + mo * 2 + y % 8 * 32) % 2, by omega⟩ ⟨(h / 2 + dd % 16 * 16) / 16, by omega⟩
  have o2 := or2 ⟨(h / 2 + dd % 16 * 16) % 16, by omega⟩ ⟨(m * 2 + s / 32 + h % 2 * 128) / 128, by omega⟩
  have o3 := or3 ⟨(m * 2 + s / 32 + h % 2 * 128) % 2, by omega⟩ ⟨(s % 32 * 8 + w) / 8, by omega⟩
  simp only at o1 o2 o3
  rw [o1, o2, o3]
  have hzone : i8 (z.toNat : Int) = i8 ((d.timeZone.tdiv 60).tdiv 15) := by
    subst hz
    unfold packZone
    rw [UInt8.toNat_ofNat']
    unfold i8 low
    have : (2 : Int) ^ 8 = 256 := rfl
    rw [this]
    split <;> split <;> omega
  rw [hzone]
  clear e0 es eh e1 e2 ed e3 e4 a1 a2 b1 b2 b3 c1 c2 d1 d2 d3 o1 o2 o3 hzone
  simp only [DateTime.mk.injEq]
  refine ⟨?_, ?_, ?_, ?_, ?_, ?_, ?_, trivial, trivial⟩
  · have hq : (dd / 16 + mo * 2 + y % 8 * 32) / 32 = y % 8 := by omega
    rw [hq]; exact congrArg (· % 65536) (year_sign hy)
  all_goals omega

/-- The time stamp as received. -/
def receivedTime (ver : Version) (t : Int) : Int :=
  if ver.major > 2 then t
  else if t.natAbs < 2 ^ 32 then i32 (u32 t) else -1

/-- The date-time as received: packing then unpacking. -/
def receivedDate (ver : Version) (d : DateTime) : DateTime :=
  finishDate (unpacked d (receivedTime ver d.unixTime))

theorem leNat_u32 (n : Int) : leNat (leBytes 4 (u32 n)) = u32 n :=
  leNat_leBytes 4 _ (by unfold u32; omega)

theorem getV3 (z : UInt8) (l : Bytes) (f0 f1 f2 f3 f4 : UInt8) (hl : l.length = 8) :
    getDateTimeV3 (z :: (l ++ [f0, f1, f2, f3, f4])) = .ok (getFields f0 f1 f2 f3 f4 z (i64 (leNat l))) := by
  match l, hl with
  | [a0, a1, a2, a3, a4, a5, a6, a7], _ => rfl

theorem getV2 (z : UInt8) (l : Bytes) (f0 f1 f2 f3 f4 : UInt8) (hl : l.length = 4) :
    getDateTime (z :: (l ++ [f0, f1, f2, f3, f4])) = .ok (getFields f0 f1 f2 f3 f4 z (i32 (leNat l))) := by
  match l, hl with
  | [a0, a1, a2, a3], _ => rfl

theorem getDate_pack (ver : Version) (d : DateTime) (ht : IsI64 d.unixTime)
    (hmin : ver.major ≤ 2 → d.unixTime ≠ -(2 : Int) ^ 63) :
    ∃ body, packDateTime ver d = ([[dataType T_DATETIME 0], body], none) ∧
      body.length = (if ver.major > 2 then 14 else 10) ∧
      getDate ver body = .ok (unpacked d (receivedTime ver d.unixTime)) := by
  obtain ⟨f0, f1, f2, f3, f4, hp, hg⟩ := getFields_packFields d (receivedTime ver d.unixTime) _ rfl
  unfold packDateTime
  rw [hp]
  by_cases h3 : ver.major > 2
  · rw [if_pos h3]
    refine ⟨_, rfl, by simp [h3], ?_⟩
    unfold getDate
    rw [if_pos h3, ← hg]
    have hx : i64 (leNat (leBytes 8 (u64 d.unixTime))) = d.unixTime := by
      rw [leNat_leBytes 8 _ (u64_lt _), i64_u64 ht]
    have hr : receivedTime ver d.unixTime = d.unixTime := by simp [receivedTime, h3]
    rw [hr]
    rw [getV3 _ _ _ _ _ _ _ (by simp), hx]
  · rw [if_neg h3, if_neg (hmin (by simpa using h3))]
    refine ⟨_, rfl, by simp [h3], ?_⟩
    unfold getDate
    rw [if_neg h3, ← hg]
    have hr : (if (if d.unixTime > 0 then d.unixTime else -d.unixTime) < 2 ^ 32 then i32 (u32 d.unixTime) else -1)
        = receivedTime ver d.unixTime := by
      simp only [receivedTime, h3, if_false]
      by_cases hh : d.unixTime.natAbs < 2 ^ 32
      · rw [if_pos hh, if_pos (by split <;> omega)]
      · rw [if_neg hh, if_neg (by split <;> omega)]
    rw [hr]
    have hx : i32 (leNat (leBytes 4 (u32 (receivedTime ver d.unixTime)))) = receivedTime ver d.unixTime := by
      rw [leNat_u32, i32_u32]
      simp only [receivedTime, h3, if_false]
      split
      · exact i32_isI32 _
      · unfold IsI32; omega
    rw [getV2 _ _ _ _ _ _ _ (by simp), hx]

open Spec in
/-- Within the safe range nothing but (possibly) the time stamp changes. -/
theorem receivedDate_eq (ver : Version) (d : DateTime) (hc : Calendar d) (hy : 1601 ≤ d.year ∧ d.year ≤ 2623)
    (hz : QuarterZone d.timeZone) :
    receivedDate ver d = { d with unixTime := receivedTime ver d.unixTime } := by
  obtain ⟨⟨m1, m2⟩, ⟨d1, d2⟩, ⟨h1, h2⟩, ⟨n1, n2⟩, ⟨s1, s2⟩, ⟨w1, w2⟩⟩ := hc
  obtain ⟨q, q1, q2, hq⟩ := hz
  have htz : (d.timeZone.tdiv 60).tdiv 15 = q := by
    rw [hq]
    have h9 : q * 900 = (q * 15) * 60 := by omega
    rw [h9, Int.mul_tdiv_cancel _ (by decide), Int.mul_tdiv_cancel _ (by decide)]
  unfold receivedDate finishDate unpacked
  simp only [htz]
  rw [if_neg (show ¬ d.year ≤ 1600 by omega)]
  have l11 : (low 11 (d.year - 1600) : Int) = d.year - 1600 := by unfold low; omega
  have l4 : (low 4 d.month : Int) = d.month := by unfold low; omega
  have l5 : (low 5 d.day : Int) = d.day := by unfold low; omega
  have l5' : (low 5 d.hour : Int) = d.hour := by unfold low; omega
  have l6 : (low 6 d.minute : Int) = d.minute := by unfold low; omega
  have l6' : (low 6 d.sec : Int) = d.sec := by unfold low; omega
  have l3 : (low 3 d.weekDay : Int) = d.weekDay := by unfold low; omega
  have hi8 : i8 q = q := by unfold i8; split <;> omega
  rw [if_pos (show low 11 (d.year - 1600) < 1024 by omega)]
  simp only [l11, l4, l5, l5', l6, l6', l3, hi8]
  rw [if_pos (by left; omega)]
  obtain ⟨yy, mm, dd, hh, nn, ss, ww, uu, tz⟩ := d
  simp only at *
  simp only [DateTime.mk.injEq, true_and]
  refine ⟨?_, ?_⟩
  · unfold i16; split <;> omega
  · omega

end Frpc
