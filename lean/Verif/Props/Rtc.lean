import Verif.Model.Rtc
import Mathlib.Data.List.Forall2
import Mathlib.Tactic.SplitIfs

set_option autoImplicit false

/-!
# C132: the clock
-/

namespace Verif.RtcSpec

theorem daysIn_le (m y : Nat) : 28 ≤ daysIn m y ∧ daysIn m y ≤ 31 := by
  unfold daysIn; split
  · split_ifs <;> omega
  all_goals omega

theorem before_next (m y : Nat) (h : 1 ≤ m) (h' : m < 12) : daysBefore (m + 1) y = daysBefore m y + daysIn m y := by
  have : m = 1 ∨ m = 2 ∨ m = 3 ∨ m = 4 ∨ m = 5 ∨ m = 6 ∨ m = 7 ∨ m = 8 ∨ m = 9 ∨ m = 10 ∨ m = 11 := by omega
  rcases this with h | h | h | h | h | h | h | h | h | h | h <;> subst h <;>
    simp [daysBefore, daysIn] <;> split_ifs <;> rfl

theorem before_mono (m n y : Nat) (h : 1 ≤ m) (hn : n ≤ 12) (hmn : m < n) :
    daysBefore m y + daysIn m y ≤ daysBefore n y := by
  induction n with
  | zero => omega
  | succ n ih =>
    rcases Nat.lt_or_ge m n with hlt | hge
    · have := ih (by omega) hlt
      rw [before_next n y (by omega) (by omega)]; omega
    · have : m = n := by omega
      subst this; rw [before_next m y h (by omega)]; exact Nat.le_refl _

theorem year_length (y : Nat) : daysBefore 12 y + 31 = if y % 4 = 0 then 366 else 365 := by
  simp [daysBefore, leap]; split_ifs <;> rfl

/-- Two moments at the same distance from a third are the same. -/
theorem After.unique {x r r' : Moment} {k : Nat} (h : After x k r) (h' : After x k r') : r = r' := by
  have ht : secOfDay r = secOfDay r' := by rw [h.time, h'.time]
  have hd : dayNo r = dayNo r' := by rw [h.date, h'.date]
  have hw : r.weekday = r'.weekday := by rw [h.weekday, h'.weekday]
  have v := h.valid
  have v' := h'.valid
  have range : ∀ z : Moment, Valid z → daysBefore z.month z.year + (z.day - 1) <
      if z.year % 4 = 0 then 366 else 365 := by
    intro z hz
    rw [← year_length]
    have h1 := hz.day
    rcases Nat.lt_or_ge z.month 12 with hlt | hge
    · have := before_mono z.month 12 z.year hz.month.1 (by omega) hlt
      omega
    · have : z.month = 12 := by have := hz.month; omega
      have h2 := daysIn_le z.month z.year
      rw [this] at h1 h2 ⊢; omega
  have ha := range r v
  have hb := range r' v'
  have hyear : r.year = r'.year := by
    unfold dayNo at hd
    split_ifs at ha hb <;> omega
  have hmonth : r.month = r'.month := by
    unfold dayNo at hd
    rw [hyear] at hd
    have h1 := v.day
    have h2 := v'.day
    rw [hyear] at h1
    rcases Nat.lt_trichotomy r.month r'.month with hlt | heq | hgt
    · have := before_mono r.month r'.month r'.year v.month.1 v'.month.2 hlt; omega
    · exact heq
    · have := before_mono r'.month r.month r'.year v'.month.1 v.month.2 hgt; omega
  have hday : r.day = r'.day := by
    unfold dayNo at hd
    rw [hyear, hmonth] at hd
    have h1 := v.day
    have h2 := v'.day
    omega
  unfold secOfDay at ht
  have := v.min; have := v'.min; have := v.sec; have := v'.sec
  have h1 : r.hour = r'.hour := by omega
  have h2 : r.min = r'.min := by omega
  have h3 : r.sec = r'.sec := by omega
  cases r; cases r'; simp_all

/-- The last day of the century is day 36524. -/
theorem dayNo_lt (x : Moment) (hv : Valid x) : dayNo x < 36525 := by
  have h1 := hv.day
  have h2 := daysIn_le x.month x.year
  have h3 := hv.year
  have h4 := year_length x.year
  have h5 : daysBefore x.month x.year + (x.day - 1) < if x.year % 4 = 0 then 366 else 365 := by
    rw [← year_length]
    rcases Nat.lt_or_ge x.month 12 with hlt | hge
    · have := before_mono x.month 12 x.year hv.month.1 (by omega) hlt
      omega
    · have : x.month = 12 := by have := hv.month; omega
      rw [this] at h1 h2 ⊢; omega
  unfold dayNo
  split_ifs at h5 <;> omega

theorem secOfDay_lt (x : Moment) (hv : Valid x) : secOfDay x < 86400 := by
  have := hv.hour; have := hv.min; have := hv.sec
  unfold secOfDay; omega

theorem After.refl (x : Moment) (hv : Valid x) : After x 0 x := by
  have h1 := secOfDay_lt x hv
  have h2 := dayNo_lt x hv
  have h3 := hv.weekday
  exact ⟨hv, by omega, by omega, by omega⟩

theorem After.trans {x y z : Moment} {k l : Nat} (h : After x k y) (h' : After y l z) : After x (k + l) z := by
  refine ⟨h'.valid, ?_, ?_, ?_⟩
  · rw [h'.time, h.time]; omega
  · rw [h'.date, h.date, h.time]; omega
  · rw [h'.weekday, h.weekday, h.time]; omega

end Verif.RtcSpec

namespace Verif.Rtc
open RtcSpec

/-! ## Registers -/

theorem or_add (a b i : Nat) (h : b < 2 ^ i) : a <<< i ||| b = a * 2 ^ i + b := by
  rw [← Nat.shiftLeft_add_eq_or_of_lt h, Nat.shiftLeft_eq]

theorem and_split (i a b c d : Nat) (hb : b < 2 ^ i) (hd : d < 2 ^ i) :
    (a * 2 ^ i + b) &&& (c * 2 ^ i + d) = (a &&& c) * 2 ^ i + (b &&& d) := by
  have hp : 0 < 2 ^ i := Nat.two_pow_pos i
  have h1 := Nat.div_add_mod ((a * 2 ^ i + b) &&& (c * 2 ^ i + d)) (2 ^ i)
  rw [Nat.and_div_two_pow, Nat.and_mod_two_pow] at h1
  rw [Nat.mul_comm a, Nat.mul_comm c] at h1 ⊢
  rw [Nat.mul_add_div hp, Nat.mul_add_div hp, Nat.mul_add_mod, Nat.mul_add_mod, Nat.div_eq_of_lt hb,
    Nat.div_eq_of_lt hd, Nat.mod_eq_of_lt hb, Nat.mod_eq_of_lt hd] at h1
  simp only [Nat.add_zero] at h1
  rw [← h1, Nat.mul_comm]

theorem and_mask (a n : Nat) (h : a < 2 ^ n) : a &&& (2 ^ n - 1) = a := by
  rw [Nat.and_two_pow_sub_one_eq_mod, Nat.mod_eq_of_lt h]

theorem bcdLoop_eq (n : Nat) : ∀ hi, bcdLoop hi n = ((hi + n / 10) <<< 4) % 256 ||| n % 10 := by
  induction n using Nat.strongRecOn with
  | _ n ih =>
    intro hi
    rw [bcdLoop]
    split
    · rename_i h
      rw [ih (n - 10) (by omega)]
      have h1 : hi + 1 + (n - 10) / 10 = hi + n / 10 := by omega
      have h2 : (n - 10) % 10 = n % 10 := by omega
      rw [h1, h2]
    · rename_i h
      have h1 : n / 10 = 0 := by omega
      have h2 : n % 10 = n := by omega
      rw [h1, h2, Nat.add_zero]

theorem bcd_eq (n : Nat) (h : n < 100) : byteToBcd2 n = n / 10 * 16 + n % 10 := by
  have h1 : ((n / 10) <<< 4) % 256 = (n / 10) <<< 4 := by
    rw [Nat.shiftLeft_eq]; omega
  rw [byteToBcd2, bcdLoop_eq, Nat.zero_add, h1, or_add _ _ 4 (by omega)]

theorem unbcd_eq (a b : Nat) (ha : a < 10) (hb : b < 10) : bcd2ToByte (a * 16 + b) = a * 10 + b := by
  have h1 := and_split 4 a b 15 0 (by omega) (by omega)
  have h2 := and_split 4 a b 0 15 (by omega) (by omega)
  have h3 := and_mask a 4 (by omega)
  have h4 := and_mask b 4 (by omega)
  simp only [Nat.reducePow, Nat.reduceMul, Nat.reduceAdd, Nat.reduceSub, Nat.and_zero, Nat.add_zero, Nat.zero_add,
    Nat.zero_mul] at h1 h2 h3 h4
  rw [bcd2ToByte, h1, h2, h3, h4, Nat.shiftRight_eq_div_pow]
  omega

/-- Three bytes masked. -/
theorem and_bytes (a b c p q r : Nat) (hb : b < 256) (hc : c < 256) (hq : q < 256) (hr : r < 256) :
    (a * 65536 + b * 256 + c) &&& (p * 65536 + q * 256 + r) =
      (a &&& p) * 65536 + (b &&& q) * 256 + (c &&& r) := by
  have h1 := and_split 16 a (b * 256 + c) p (q * 256 + r) (by omega) (by omega)
  have h2 := and_split 8 b c q r (by omega) (by omega)
  simp only [Nat.reducePow] at h1 h2
  rw [h2] at h1
  rw [Nat.add_assoc, Nat.add_assoc, Nat.add_assoc, h1]

/-- Time of day of a moment. -/
def timeOf (x : Moment) : Time := ⟨x.hour, x.min, x.sec, 0⟩

/-- Date of a moment. -/
def dateOf (x : Moment) : Date := ⟨x.weekday, x.day, x.month, x.year⟩

theorem load_time (a b c d e f : Nat) (ha : a < 3) (hb : b < 10) (hc : c < 6) (hd : d < 10) (he : e < 6)
    (hf : f < 10) : loadTime ((a * 16 + b) * 65536 + (c * 16 + d) * 256 + (e * 16 + f)) =
      ⟨a * 10 + b, c * 10 + d, e * 10 + f, 0⟩ := by
  simp only [loadTime, Time.mk.injEq]
  refine ⟨?_, ?_, ?_, ?_⟩
  · have h1 : ((a * 16 + b) * 65536 + (c * 16 + d) * 256 + (e * 16 + f)) / 2 ^ 20 = a := by omega
    have h2 : ((a * 16 + b) * 65536 + (c * 16 + d) * 256 + (e * 16 + f)) / 2 ^ 16 = a * 16 + b := by omega
    rw [h1, h2]; omega
  · have h1 : ((a * 16 + b) * 65536 + (c * 16 + d) * 256 + (e * 16 + f)) / 2 ^ 12 = (a * 16 + b) * 16 + c := by omega
    have h2 : ((a * 16 + b) * 65536 + (c * 16 + d) * 256 + (e * 16 + f)) / 2 ^ 8 = (a * 16 + b) * 256 + (c * 16 + d) := by
      omega
    rw [h1, h2]; omega
  · omega
  · have h1 : ((a * 16 + b) * 65536 + (c * 16 + d) * 256 + (e * 16 + f)) / 2 ^ 22 = 0 := by omega
    rw [h1]

theorem load_date (a b c d e f w : Nat) (ha : a < 10) (hb : b < 10) (hc : c < 2) (hd : d < 10) (he : e < 4)
    (hf : f < 10) (hw : w < 8) :
    loadDate ((a * 16 + b) * 65536 + (w * 32 + (c * 16 + d)) * 256 + (e * 16 + f)) =
      ⟨w, e * 10 + f, c * 10 + d, a * 10 + b⟩ := by
  simp only [loadDate, Date.mk.injEq]
  refine ⟨?_, ?_, ?_, ?_⟩
  · have h1 : ((a * 16 + b) * 65536 + (w * 32 + (c * 16 + d)) * 256 + (e * 16 + f)) / 2 ^ 13 = (a * 16 + b) * 8 + w := by
      omega
    rw [h1]; omega
  · omega
  · have h1 : ((a * 16 + b) * 65536 + (w * 32 + (c * 16 + d)) * 256 + (e * 16 + f)) / 2 ^ 12 =
        (a * 16 + b) * 16 + w * 2 + c := by omega
    have h2 : ((a * 16 + b) * 65536 + (w * 32 + (c * 16 + d)) * 256 + (e * 16 + f)) / 2 ^ 8 =
        (a * 16 + b) * 256 + (w * 32 + (c * 16 + d)) := by omega
    rw [h1, h2]; omega
  · have h1 : ((a * 16 + b) * 65536 + (w * 32 + (c * 16 + d)) * 256 + (e * 16 + f)) / 2 ^ 20 = a := by omega
    have h2 : ((a * 16 + b) * 65536 + (w * 32 + (c * 16 + d)) * 256 + (e * 16 + f)) / 2 ^ 16 = a * 16 + b := by omega
    rw [h1, h2]; omega

theorem write_time (x : Moment) (hv : Valid x) :
    loadTime (((byteToBcd2 x.hour <<< 16 ||| byteToBcd2 x.min <<< 8 ||| byteToBcd2 x.sec) ||| 0 <<< 22) &&& trMask) =
      timeOf x := by
  have h1 := hv.hour
  have h2 := hv.min
  have h3 := hv.sec
  rw [bcd_eq _ (by omega), bcd_eq _ (by omega), bcd_eq _ (by omega), Nat.zero_shiftLeft, Nat.or_zero, Nat.or_assoc,
    or_add _ (x.sec / 10 * 16 + x.sec % 10) 8 (by omega), or_add _ _ 16 (by omega)]
  have h4 := and_bytes (x.hour / 10 * 16 + x.hour % 10) (x.min / 10 * 16 + x.min % 10) (x.sec / 10 * 16 + x.sec % 10)
    127 127 127 (by omega) (by omega) (by omega) (by omega)
  have ha := and_mask (x.hour / 10 * 16 + x.hour % 10) 7 (by omega)
  have hb := and_mask (x.min / 10 * 16 + x.min % 10) 7 (by omega)
  have hc := and_mask (x.sec / 10 * 16 + x.sec % 10) 7 (by omega)
  simp only [Nat.reducePow, Nat.reduceMul, Nat.reduceAdd, Nat.reduceSub] at h4 ha hb hc ⊢
  rw [ha, hb, hc] at h4
  rw [trMask, ← Nat.add_assoc, h4, load_time _ _ _ _ _ _ (by omega) (by omega) (by omega) (by omega) (by omega)
    (by omega)]
  clear h4 ha hb hc
  simp only [timeOf, Time.mk.injEq, and_true]
  refine ⟨?_, ?_, ?_⟩ <;> omega

theorem month_eq (m : Nat) (h : m ≤ 12) :
    (if m &&& 0x10 = 0x10 then ((m &&& 0xEF) + 0x0A) % 256 else m) = m := by
  have : ∀ m : Fin 13, (if m.1 &&& 0x10 = 0x10 then ((m.1 &&& 0xEF) + 0x0A) % 256 else m.1) = m.1 := by decide
  exact this ⟨m, by omega⟩

theorem day_le (x : Moment) (hv : Valid x) : x.day ≤ 31 := by
  have h1 := hv.day
  have h2 := daysIn_le x.month x.year
  omega

theorem write_date (x : Moment) (hv : Valid x) :
    loadDate ((byteToBcd2 x.year <<< 16 ||| byteToBcd2 x.month <<< 8 ||| byteToBcd2 x.day ||| x.weekday <<< 13) &&&
      drMask) = dateOf x := by
  have h1 := hv.year
  have h2 := hv.month
  have h3 := day_le x hv
  have h4 := hv.weekday
  rw [bcd_eq _ (by omega), bcd_eq _ (by omega), bcd_eq _ (by omega)]
  -- the weekday lies above the month in the middle byte
  have e1 : ((x.year / 10 * 16 + x.year % 10) <<< 16 ||| (x.month / 10 * 16 + x.month % 10) <<< 8 |||
      (x.day / 10 * 16 + x.day % 10) ||| x.weekday <<< 13) =
      (x.year / 10 * 16 + x.year % 10) * 65536 + (x.weekday * 32 + (x.month / 10 * 16 + x.month % 10)) * 256 +
        (x.day / 10 * 16 + x.day % 10) := by
    have hw : x.weekday <<< 13 = (x.weekday * 32) <<< 8 := by
      rw [Nat.shiftLeft_eq, Nat.shiftLeft_eq]; omega
    have h5 : x.weekday * 32 ||| (x.month / 10 * 16 + x.month % 10) =
        x.weekday * 32 + (x.month / 10 * 16 + x.month % 10) := by
      have := or_add x.weekday (x.month / 10 * 16 + x.month % 10) 5 (by omega)
      rw [Nat.shiftLeft_eq] at this; simpa using this
    rw [hw, Nat.or_assoc, Nat.or_assoc, Nat.or_comm (x.day / 10 * 16 + x.day % 10), ← Nat.or_assoc (_ <<< 8),
      ← Nat.shiftLeft_or_distrib, Nat.or_comm (x.month / 10 * 16 + x.month % 10), h5, or_add _ _ 8 (by omega),
      or_add _ _ 16 (by omega)]
    omega
  have h5 := and_bytes (x.year / 10 * 16 + x.year % 10) (x.weekday * 32 + (x.month / 10 * 16 + x.month % 10))
    (x.day / 10 * 16 + x.day % 10) 255 255 63 (by omega) (by omega) (by omega) (by omega)
  have ha := and_mask (x.year / 10 * 16 + x.year % 10) 8 (by omega)
  have hb := and_mask (x.weekday * 32 + (x.month / 10 * 16 + x.month % 10)) 8 (by omega)
  have hc := and_mask (x.day / 10 * 16 + x.day % 10) 6 (by omega)
  simp only [Nat.reducePow, Nat.reduceMul, Nat.reduceAdd, Nat.reduceSub] at h5 ha hb hc
  rw [ha, hb, hc] at h5
  rw [e1, drMask, h5, load_date _ _ _ _ _ _ _ (by omega) (by omega) (by omega) (by omega) (by omega) (by omega)
    (by omega)]
  clear h5 ha hb hc e1
  simp only [dateOf, Date.mk.injEq, true_and]
  refine ⟨?_, ?_, ?_⟩ <;> omega

/-- What is read of the time. -/
theorem read_time (x : Moment) (hv : Valid x) :
    let w := showTime (timeOf x) &&& trMask
    bcd2ToByte (((w &&& 0x003F0000) >>> 16) % 256) = x.hour ∧ bcd2ToByte (((w &&& 0x00007F00) >>> 8) % 256) = x.min ∧
      bcd2ToByte ((w &&& 0x0000007F) % 256) = x.sec ∧ ((w &&& 0x00400000) >>> 22) % 256 = 0 := by
  have h1 := hv.hour
  have h2 := hv.min
  have h3 := hv.sec
  have e : showTime (timeOf x) = (x.hour / 10 * 16 + x.hour % 10) * 65536 + (x.min / 10 * 16 + x.min % 10) * 256 +
      (x.sec / 10 * 16 + x.sec % 10) := by simp only [showTime, timeOf]; omega
  have A := and_bytes (x.hour / 10 * 16 + x.hour % 10) (x.min / 10 * 16 + x.min % 10) (x.sec / 10 * 16 + x.sec % 10)
  have m0 := A 127 127 127 (by omega) (by omega) (by omega) (by omega)
  have m1 := A 63 0 0 (by omega) (by omega) (by omega) (by omega)
  have m2 := A 0 127 0 (by omega) (by omega) (by omega) (by omega)
  have m3 := A 0 0 127 (by omega) (by omega) (by omega) (by omega)
  have m4 := A 64 0 0 (by omega) (by omega) (by omega) (by omega)
  have ha := and_mask (x.hour / 10 * 16 + x.hour % 10) 7 (by omega)
  have ha' := and_mask (x.hour / 10 * 16 + x.hour % 10) 6 (by omega)
  have hb := and_mask (x.min / 10 * 16 + x.min % 10) 7 (by omega)
  have hc := and_mask (x.sec / 10 * 16 + x.sec % 10) 7 (by omega)
  have hz := and_split 6 0 (x.hour / 10 * 16 + x.hour % 10) 1 0 (by omega) (by omega)
  simp only [Nat.reducePow, Nat.reduceMul, Nat.reduceAdd, Nat.reduceSub, Nat.and_zero, Nat.add_zero, Nat.zero_add,
    Nat.zero_mul, Nat.zero_and] at m0 m1 m2 m3 m4 ha ha' hb hc hz
  rw [ha, hb, hc] at m0
  rw [ha'] at m1
  rw [hb] at m2
  rw [hc] at m3
  rw [hz] at m4
  dsimp only
  rw [e, trMask, m0, m1, m2, m3, m4]
  clear m0 m1 m2 m3 m4 ha ha' hb hc hz A e
  simp only [Nat.shiftRight_eq_div_pow]
  refine ⟨?_, ?_, ?_, by simp⟩
  · rw [show (x.hour / 10 * 16 + x.hour % 10) * 65536 / 2 ^ 16 % 256 = x.hour / 10 * 16 + x.hour % 10 by omega,
      unbcd_eq _ _ (by omega) (by omega)]; omega
  · rw [show (x.min / 10 * 16 + x.min % 10) * 256 / 2 ^ 8 % 256 = x.min / 10 * 16 + x.min % 10 by omega,
      unbcd_eq _ _ (by omega) (by omega)]; omega
  · rw [show (x.sec / 10 * 16 + x.sec % 10) % 256 = x.sec / 10 * 16 + x.sec % 10 by omega,
      unbcd_eq _ _ (by omega) (by omega)]; omega

/-- What is read of the date. -/
theorem read_date (x : Moment) (hv : Valid x) :
    let w := showDate (dateOf x) &&& drMask
    ((w &&& 0x0000E000) >>> 13) % 256 = x.weekday ∧ bcd2ToByte (((w &&& 0x00001F00) >>> 8) % 256) = x.month ∧
      bcd2ToByte ((w &&& 0x0000003F) % 256) = x.day ∧ bcd2ToByte (((w &&& 0x00FF0000) >>> 16) % 256) = x.year := by
  have h1 := hv.year
  have h2 := hv.month
  have h3 := day_le x hv
  have h4 := hv.weekday
  have e : showDate (dateOf x) = (x.year / 10 * 16 + x.year % 10) * 65536 +
      (x.weekday * 32 + (x.month / 10 * 16 + x.month % 10)) * 256 + (x.day / 10 * 16 + x.day % 10) := by
    simp only [showDate, dateOf]; omega
  have A := and_bytes (x.year / 10 * 16 + x.year % 10) (x.weekday * 32 + (x.month / 10 * 16 + x.month % 10))
    (x.day / 10 * 16 + x.day % 10)
  have m0 := A 255 255 63 (by omega) (by omega) (by omega) (by omega)
  have m1 := A 255 0 0 (by omega) (by omega) (by omega) (by omega)
  have m2 := A 0 31 0 (by omega) (by omega) (by omega) (by omega)
  have m3 := A 0 0 63 (by omega) (by omega) (by omega) (by omega)
  have m4 := A 0 224 0 (by omega) (by omega) (by omega) (by omega)
  have ha := and_mask (x.year / 10 * 16 + x.year % 10) 8 (by omega)
  have hb := and_mask (x.weekday * 32 + (x.month / 10 * 16 + x.month % 10)) 8 (by omega)
  have hc := and_mask (x.day / 10 * 16 + x.day % 10) 6 (by omega)
  have hlo := and_split 5 x.weekday (x.month / 10 * 16 + x.month % 10) 0 31 (by omega) (by omega)
  have hhi := and_split 5 x.weekday (x.month / 10 * 16 + x.month % 10) 7 0 (by omega) (by omega)
  have hm := and_mask (x.month / 10 * 16 + x.month % 10) 5 (by omega)
  have hw := and_mask x.weekday 3 (by omega)
  simp only [Nat.reducePow, Nat.reduceMul, Nat.reduceAdd, Nat.reduceSub, Nat.and_zero, Nat.add_zero, Nat.zero_add,
    Nat.zero_mul, Nat.zero_and] at m0 m1 m2 m3 m4 ha hb hc hlo hhi hm hw
  rw [ha, hb, hc] at m0
  rw [ha] at m1
  rw [hlo, hm] at m2
  rw [hc] at m3
  rw [hhi, hw] at m4
  dsimp only
  rw [e, drMask, m0, m1, m2, m3, m4]
  clear m0 m1 m2 m3 m4 ha hb hc hlo hhi hm hw A e
  simp only [Nat.shiftRight_eq_div_pow]
  refine ⟨by omega, ?_, ?_, ?_⟩
  · rw [show (x.month / 10 * 16 + x.month % 10) * 256 / 2 ^ 8 % 256 = x.month / 10 * 16 + x.month % 10 by omega,
      unbcd_eq _ _ (by omega) (by omega)]; omega
  · rw [show (x.day / 10 * 16 + x.day % 10) % 256 = x.day / 10 * 16 + x.day % 10 by omega,
      unbcd_eq _ _ (by omega) (by omega)]; omega
  · rw [show (x.year / 10 * 16 + x.year % 10) * 65536 / 2 ^ 16 % 256 = x.year / 10 * 16 + x.year % 10 by omega,
      unbcd_eq _ _ (by omega) (by omega)]; omega

/-! ## A second passes -/

/-- The moment the calendar shows. -/
def moment (t : Time) (d : Date) : Moment := ⟨t.hour, t.min, t.sec, d.weekday, d.day, d.month, d.year⟩

theorem nextDate_spec (x : Moment) (hv : Valid x) (hm : x.hour = 23 ∧ x.min = 59 ∧ x.sec = 59) :
    After x 1 (moment ⟨0, 0, 0, 0⟩ (nextDate (dateOf x))) := by
  have h2 := hv.month
  have h3 := hv.day
  have h4 := hv.weekday
  have h5 := hv.year
  have hs : secOfDay x = 86399 := by simp [secOfDay, hm.1, hm.2.1, hm.2.2]
  have hlt := dayNo_lt x hv
  have hwd : (if x.weekday = 7 then 1 else x.weekday + 1) = (x.weekday - 1 + 1) % 7 + 1 := by split_ifs <;> omega
  have hw7 : 1 ≤ (x.weekday - 1 + 1) % 7 + 1 ∧ (x.weekday - 1 + 1) % 7 + 1 ≤ 7 := by omega
  have fin : ∀ r : Moment, r.hour = 0 → r.min = 0 → r.sec = 0 → r.weekday = (x.weekday - 1 + 1) % 7 + 1 →
      (1 ≤ r.month ∧ r.month ≤ 12) → (1 ≤ r.day ∧ r.day ≤ daysIn r.month r.year) → r.year < 100 →
      dayNo r = (dayNo x + 1) % 36525 → After x 1 r := by
    intro r a b c d e f g i
    refine ⟨⟨by omega, by omega, by omega, by omega, e, f, g⟩, ?_, ?_, ?_⟩
    · rw [hs]; simp [secOfDay, a, b, c]
    · rw [hs]; exact i
    · rw [hs]; exact d
  have e : nextDate (dateOf x) =
      if x.day < daysIn x.month x.year then ⟨if x.weekday = 7 then 1 else x.weekday + 1, x.day + 1, x.month, x.year⟩
      else if x.month < 12 then ⟨if x.weekday = 7 then 1 else x.weekday + 1, 1, x.month + 1, x.year⟩
      else ⟨if x.weekday = 7 then 1 else x.weekday + 1, 1, 1, if x.year < 99 then x.year + 1 else 0⟩ := rfl
  rw [e]
  by_cases c1 : x.day < daysIn x.month x.year
  · rw [if_pos c1]
    refine fin _ rfl rfl rfl hwd h2 (by dsimp only [moment]; omega) h5 ?_
    have hb : dayNo (moment ⟨0, 0, 0, 0⟩ ⟨if x.weekday = 7 then 1 else x.weekday + 1, x.day + 1, x.month, x.year⟩) =
        dayNo x + 1 := by simp only [dayNo, moment]; omega
    -- still a day of the century
    have hv' : Valid (moment ⟨0, 0, 0, 0⟩
        ⟨if x.weekday = 7 then 1 else x.weekday + 1, x.day + 1, x.month, x.year⟩) :=
      ⟨by simp [moment], by simp [moment], by simp [moment], by simp only [moment]; omega, h2,
        by simp only [moment]; omega, h5⟩
    have := dayNo_lt _ hv'
    rw [hb] at this ⊢
    omega
  · rw [if_neg c1]
    by_cases c2 : x.month < 12
    · rw [if_pos c2]
      have hd := daysIn_le (x.month + 1) x.year
      have h6 : 1 ≤ x.month + 1 ∧ x.month + 1 ≤ 12 := by omega
      refine fin _ rfl rfl rfl hwd h6 (by dsimp only [moment]; omega) h5 ?_
      have hb : dayNo (moment ⟨0, 0, 0, 0⟩ ⟨if x.weekday = 7 then 1 else x.weekday + 1, 1, x.month + 1, x.year⟩) =
          dayNo x + 1 := by
        simp only [dayNo, moment, before_next x.month x.year h2.1 c2]; omega
      have hv' : Valid (moment ⟨0, 0, 0, 0⟩ ⟨if x.weekday = 7 then 1 else x.weekday + 1, 1, x.month + 1, x.year⟩) :=
        ⟨by simp [moment], by simp [moment], by simp [moment], by simp only [moment]; omega, h6,
          by simp only [moment]; omega, h5⟩
      have := dayNo_lt _ hv'
      rw [hb] at this ⊢
      omega
    · rw [if_neg c2]
      have h6 : x.month = 12 := by omega
      have h7 := year_length x.year
      have h8 : daysIn 12 x.year = 31 := rfl
      rw [h6, h8] at h3 c1
      have h9 : dayNo x + 1 = 365 * (x.year + 1) + (x.year + 4) / 4 := by
        simp only [dayNo, h6]
        split_ifs at h7 <;> omega
      have h10 : ∀ y, daysIn 1 y = 31 := fun _ => rfl
      refine fin _ rfl rfl rfl hwd (by simp [moment]) (by simp [moment, h10]) (by simp only [moment]; split_ifs <;> omega) ?_
      rw [h9]
      clear h9 h7 fin hwd hw7
      simp only [dayNo, moment, daysBefore]
      by_cases c3 : x.year < 99
      · rw [if_pos c3, Nat.mod_eq_of_lt (by omega)]; omega
      · rw [if_neg c3]
        have : x.year = 99 := by omega
        rw [this]

/-- One second of the calendar. -/
theorem tick_spec (x : Moment) (hv : Valid x) :
    ∃ y, After x 1 y ∧ (nextTime (timeOf x)).1 = timeOf y ∧
      (if (nextTime (timeOf x)).2 then nextDate (dateOf x) else dateOf x) = dateOf y := by
  have h1 := hv.hour
  have h2 := hv.min
  have h3 := hv.sec
  have hs := secOfDay_lt x hv
  have hd := dayNo_lt x hv
  have hw := hv.weekday
  have keep : ∀ hr mi se, hr < 24 → mi < 60 → se < 60 → 3600 * hr + 60 * mi + se = secOfDay x + 1 →
      After x 1 ⟨hr, mi, se, x.weekday, x.day, x.month, x.year⟩ := by
    intro hr mi se a b c d
    refine ⟨⟨a, b, c, hv.weekday, hv.month, hv.day, hv.year⟩, ?_, ?_, ?_⟩
    · show 3600 * hr + 60 * mi + se = _; omega
    · show dayNo x = _; omega
    · show x.weekday = _; omega
  have e : nextTime (timeOf x) =
      if x.sec < 59 then (⟨x.hour, x.min, x.sec + 1, 0⟩, false)
      else if x.min < 59 then (⟨x.hour, x.min + 1, 0, 0⟩, false)
      else if x.hour < 23 then (⟨x.hour + 1, 0, 0, 0⟩, false)
      else (⟨0, 0, 0, 0⟩, true) := rfl
  rw [e]
  by_cases c1 : x.sec < 59
  · rw [if_pos c1]
    exact ⟨_, keep x.hour x.min (x.sec + 1) h1 h2 (by omega) (by unfold secOfDay; omega), rfl, rfl⟩
  rw [if_neg c1]
  by_cases c2 : x.min < 59
  · rw [if_pos c2]
    exact ⟨_, keep x.hour (x.min + 1) 0 h1 (by omega) (by omega) (by unfold secOfDay; omega), rfl, rfl⟩
  rw [if_neg c2]
  by_cases c3 : x.hour < 23
  · rw [if_pos c3]
    exact ⟨_, keep (x.hour + 1) 0 0 (by omega) (by omega) (by omega) (by unfold secOfDay; omega), rfl, rfl⟩
  rw [if_neg c3]
  exact ⟨_, nextDate_spec x hv ⟨by omega, by omega, by omega⟩, rfl, rfl⟩

/-- The hardware alone: seconds pass and the calendar is copied. -/
def Solo (es : List Ev) : Prop := ∀ e ∈ es, e = .tick ∨ e = .sync

instance (es : List Ev) : Decidable (Solo es) := inferInstanceAs (Decidable (∀ e ∈ es, e = .tick ∨ e = .sync))

/-- Seconds that pass. -/
def secs (es : List Ev) : Nat := es.count .tick

/-- `k` seconds after `x`, and the shadow registers show some moment in between. -/
structure Runs (x : Moment) (lo k : Nat) (h : Hw) : Prop where
  run : h.init = false
  cal : ∃ y, After x k y ∧ h.time = timeOf y ∧ h.date = dateOf y
  sh : ∃ l y, lo ≤ l ∧ l ≤ k ∧ After x l y ∧ h.shTime = timeOf y ∧ h.shDate = dateOf y

theorem runs_ev {x : Moment} {lo k : Nat} {h : Hw} (r : Runs x lo k h) (e : Ev) (he : e = .tick ∨ e = .sync)
    (hh : h.holdTime = h.holdDate) :
    Runs x lo (k + secs [e]) (h.ev e) := by
  obtain ⟨h1, ⟨y, h2, h3, h4⟩, ⟨l, z, h5, h6, h7, h8, h9⟩⟩ := r
  rcases he with rfl | rfl
  · obtain ⟨y', a, b, c⟩ := tick_spec y h2.valid
    refine ⟨?_, ⟨y', h2.trans a, ?_, ?_⟩, ⟨l, z, h5, by omega, h7, ?_, ?_⟩⟩ <;> simp [Hw.ev, h1]
    · rw [h3, b]
    · rw [h3, h4]; exact c
    · exact h8
    · exact h9
  · by_cases hd : h.holdDate = true
    · refine ⟨?_, ⟨y, h2, ?_, ?_⟩, ⟨l, z, h5, h6, h7, ?_, ?_⟩⟩ <;> simp [Hw.ev, h1, hh, hd, h3, h4, h8, h9]
    · refine ⟨?_, ⟨y, h2, ?_, ?_⟩, ⟨k, y, by omega, by simp [secs], h2, ?_, ?_⟩⟩ <;> simp [Hw.ev, h1, hh, hd, h3, h4]

theorem hold_ev (h : Hw) (e : Ev) (he : e = .tick ∨ e = .sync) :
    (h.ev e).holdTime = h.holdTime ∧ (h.ev e).holdDate = h.holdDate := by
  rcases he with rfl | rfl <;> simp only [Hw.ev] <;> split_ifs <;> exact ⟨rfl, rfl⟩

theorem hold_evs (es : List Ev) : ∀ (h : Hw), Solo es →
    (h.evs es).holdTime = h.holdTime ∧ (h.evs es).holdDate = h.holdDate := by
  induction es with
  | nil => intro h _; exact ⟨rfl, rfl⟩
  | cons e es ih =>
    intro h hs
    have h1 := hold_ev h e (hs e (by simp))
    have h2 := ih (h.ev e) (fun e' he' => hs e' (by simp [he']))
    exact ⟨h2.1.trans h1.1, h2.2.trans h1.2⟩

theorem runs_evs {x : Moment} {lo : Nat} (es : List Ev) : ∀ {k : Nat} {h : Hw}, Runs x lo k h → Solo es →
    h.holdTime = h.holdDate → Runs x lo (k + secs es) (h.evs es) := by
  induction es with
  | nil => intro k h r _ _; exact r
  | cons e es ih =>
    intro k h r hs hh
    have he := hs e (by simp)
    have h1 := runs_ev r e he hh
    have h2 := hold_ev h e he
    have h3 := ih h1 (fun e' he' => hs e' (by simp [he'])) (by rw [h2.1, h2.2, hh])
    have : k + secs [e] + secs es = k + secs (e :: es) := by
      simp only [secs, List.count_cons, List.count_nil]; omega
    rw [← this]; exact h3

/-- Held back, the shadow registers stay. -/
theorem held_evs (es : List Ev) : ∀ (h : Hw), Solo es → h.holdTime = true → h.holdDate = true →
    (h.evs es).shTime = h.shTime ∧ (h.evs es).shDate = h.shDate := by
  induction es with
  | nil => intro h _ _ _; exact ⟨rfl, rfl⟩
  | cons e es ih =>
    intro h hs ht hd
    have he := hs e (by simp)
    have h1 := hold_ev h e he
    have h2 := ih (h.ev e) (fun e' he' => hs e' (by simp [he'])) (h1.1.trans ht) (h1.2.trans hd)
    have h3 : (h.ev e).shTime = h.shTime ∧ (h.ev e).shDate = h.shDate := by
      rcases he with rfl | rfl <;> simp only [Hw.ev, ht, hd] <;> split_ifs <;> exact ⟨rfl, rfl⟩
    exact ⟨h2.1.trans h3.1, h2.2.trans h3.2⟩

/-- A reading is the moment in the shadow registers when it begins, whatever the hardware does meanwhile. -/
theorem get_solo (h : Hw) (y : Moment) (hv : Valid y) (ht : h.shTime = timeOf y) (hd : h.shDate = dateOf y)
    (between pause : List Ev) (hb : Solo between) (hp : Solo pause) : (getDateTime h between pause).1 = y := by
  have h1 := held_evs between (h.ev .ssr) hb rfl rfl
  have h2 := hold_evs between (h.ev .ssr) hb
  have h3 := held_evs pause (((h.ev .ssr).evs between).ev .tr) hp h2.1 rfl
  have e1 : ((h.ev .ssr).evs between).shTime = timeOf y := h1.1.trans ht
  have e2 : ((((h.ev .ssr).evs between).ev .tr).evs pause).shDate = dateOf y := h3.2.trans (h1.2.trans hd)
  obtain ⟨a, b, c, d⟩ := read_time y hv
  obtain ⟨a', b', c', d'⟩ := read_date y hv
  simp only [getDateTime, getTime, getDate, e1, e2, a, b, c, a', b', c', d']

theorem runs_get {x : Moment} {lo k : Nat} {h : Hw} (r : Runs x lo k h)
    (between pause : List Ev) (hb : Solo between) (hp : Solo pause) :
    Runs x lo (k + secs between + secs pause) (getDateTime h between pause).2 ∧
      (getDateTime h between pause).2.holdTime = false ∧ (getDateTime h between pause).2.holdDate = false := by
  have r1 : Runs x lo k (h.ev .ssr) := ⟨r.run, r.cal, r.sh⟩
  have r2 := runs_evs between r1 hb rfl
  have h2 := hold_evs between (h.ev .ssr) hb
  have r3 : Runs x lo (k + secs between) (((h.ev .ssr).evs between).ev .tr) := ⟨r2.run, r2.cal, r2.sh⟩
  have r4 := runs_evs pause r3 hp h2.1
  exact ⟨⟨r4.run, r4.cal, r4.sh⟩, rfl, rfl⟩

/-! ## Setting the clock -/

/-- The time of day is `k` seconds after that of `x`; nothing is said about the date. -/
def TimeRuns (x : Moment) (k : Nat) (h : Hw) : Prop :=
  h.init = false ∧ ∃ y, After x k y ∧ h.time = timeOf y

/-- The calendar is `k` seconds after `x`. -/
def CalRuns (x : Moment) (k : Nat) (h : Hw) : Prop :=
  h.init = false ∧ ∃ y, After x k y ∧ h.time = timeOf y ∧ h.date = dateOf y

theorem time_evs {x : Moment} (es : List Ev) : ∀ {k : Nat} {h : Hw}, TimeRuns x k h → Solo es →
    TimeRuns x (k + secs es) (h.evs es) := by
  induction es with
  | nil => intro k h r _; exact r
  | cons e es ih =>
    intro k h ⟨h1, y, h2, h3⟩ hs
    have : k + secs [e] + secs es = k + secs (e :: es) := by
      simp only [secs, List.count_cons, List.count_nil]; omega
    rw [← this]
    refine ih ?_ (fun e' he' => hs e' (by simp [he']))
    rcases hs e (by simp) with rfl | rfl
    · obtain ⟨y', a, b, c⟩ := tick_spec y h2.valid
      exact ⟨by simp [Hw.ev, h1], y', h2.trans a, by simp [Hw.ev, h1, h3, b]⟩
    · exact ⟨by simp [Hw.ev, h1], y, h2, by simp [Hw.ev, h1, h3]⟩

theorem cal_evs {x : Moment} (es : List Ev) : ∀ {k : Nat} {h : Hw}, CalRuns x k h → Solo es →
    CalRuns x (k + secs es) (h.evs es) := by
  induction es with
  | nil => intro k h r _; exact r
  | cons e es ih =>
    intro k h ⟨h1, y, h2, h3, h4⟩ hs
    have : k + secs [e] + secs es = k + secs (e :: es) := by
      simp only [secs, List.count_cons, List.count_nil]; omega
    rw [← this]
    refine ih ?_ (fun e' he' => hs e' (by simp [he']))
    rcases hs e (by simp) with rfl | rfl
    · obtain ⟨y', a, b, c⟩ := tick_spec y h2.valid
      refine ⟨by simp [Hw.ev, h1], y', h2.trans a, by simp [Hw.ev, h1, h3, b], ?_⟩
      rw [← c]; simp [Hw.ev, h1, h3, h4]
    · exact ⟨by simp [Hw.ev, h1], y, h2, by simp [Hw.ev, h1, h3], by simp [Hw.ev, h1, h4]⟩

/-- Before midnight the date stays. -/
theorem same_day {x y : Moment} {k : Nat} (hv : Valid x) (h : After x k y) (hk : secOfDay x + k < 86400) :
    dateOf y = dateOf x := by
  have hd := dayNo_lt x hv
  have hw := hv.weekday
  have h1 : After x k ⟨y.hour, y.min, y.sec, x.weekday, x.day, x.month, x.year⟩ := by
    refine ⟨⟨h.valid.hour, h.valid.min, h.valid.sec, hv.weekday, hv.month, hv.day, hv.year⟩, h.time, ?_, ?_⟩
    · show dayNo x = _; omega
    · show x.weekday = _; omega
  have h2 := h.unique h1
  rw [h2]; rfl

/-- Setting the clock, when midnight does not pass between its time and its date. -/
theorem set_runs (h : Hw) (x : Moment) (hv : Valid x) (hT : h.holdTime = false) (hD : h.holdDate = false)
    (before1 wait1 before2 wait2 : List Ev) (s1 : Solo before1) (s2 : Solo wait1) (s3 : Solo before2)
    (s4 : Solo wait2) (hk : secOfDay x + (secs wait1 + secs before2) < 86400) :
    let k := secs wait1 + secs before2 + secs wait2
    let h' := setDateTime h x before1 wait1 before2 wait2
    Runs x k k h' ∧ h'.holdTime = false ∧ h'.holdDate = false := by
  -- the time is written
  let a : Hw := { h.evs before1 with time := timeOf x, init := false }
  have ha : TimeRuns x 0 a := ⟨rfl, x, After.refl x hv, rfl⟩
  have hb : TimeRuns x (0 + secs (wait1 ++ [.sync])) (a.evs (wait1 ++ [.sync])) := by
    refine time_evs _ ha ?_
    intro e he
    simp only [List.mem_append, List.mem_singleton] at he
    rcases he with he | he
    · exact s2 e he
    · exact Or.inr he
  have hb' : setTime h x.hour x.min x.sec before1 wait1 = a.evs (wait1 ++ [.sync]) := by
    simp only [setTime, write_time x hv, Hw.evs, List.foldl_append, List.foldl_cons, List.foldl_nil]
    rfl
  have hc := time_evs before2 hb s3
  have e1 : secs (wait1 ++ [.sync]) = secs wait1 := by simp [secs, List.count_append]
  rw [e1, Nat.zero_add] at hb hc
  -- the date is written
  obtain ⟨hc1, y, hc2, hc3⟩ := hc
  let b : Hw := { (a.evs (wait1 ++ [.sync])).evs before2 with date := dateOf x, init := false }
  have hb2 : CalRuns x (secs wait1 + secs before2) b := ⟨rfl, y, hc2, hc3, (same_day hv hc2 hk).symm⟩
  have hb3 : setDateTime h x before1 wait1 before2 wait2 = (b.evs wait2).ev .sync := by
    simp only [setDateTime, hb', setDate, month_eq x.month hv.month.2, write_date x hv]
    rfl
  obtain ⟨hd1, z, hd2, hd3, hd4⟩ := cal_evs wait2 hb2 s4
  have s2' : Solo (wait1 ++ [.sync]) := by
    intro e he
    simp only [List.mem_append, List.mem_singleton] at he
    rcases he with he | he
    · exact s2 e he
    · exact Or.inr he
  have q1 := hold_evs before1 h s1
  have q2 := hold_evs (wait1 ++ [.sync]) a s2'
  have q3 := hold_evs before2 (a.evs (wait1 ++ [.sync])) s3
  have q4 := hold_evs wait2 b s4
  have f1 : (b.evs wait2).holdTime = false := q4.1.trans (q3.1.trans (q2.1.trans (q1.1.trans hT)))
  have f2 : (b.evs wait2).holdDate = false := q4.2.trans (q3.2.trans (q2.2.trans (q1.2.trans hD)))
  dsimp only
  rw [hb3]
  refine ⟨⟨?_, ⟨z, hd2, ?_, ?_⟩, ⟨_, z, Nat.le_refl _, Nat.le_refl _, hd2, ?_, ?_⟩⟩, ?_, ?_⟩ <;>
    simp [Hw.ev, hd1, hd3, hd4, f1, f2]

/-! ## C132 -/

/-- A series of readings, each with what the hardware does before it and during it. -/
def readings (h : Hw) : List (List Ev × List Ev × List Ev) → List Moment
  | [] => []
  | (before, between, pause) :: rest =>
    let g := getDateTime (h.evs before) between pause
    g.1 :: readings g.2 rest

/-- Seconds that pass during a series of readings. -/
def during (rs : List (List Ev × List Ev × List Ev)) : Nat :=
  (rs.map fun r => secs r.1 + secs r.2.1 + secs r.2.2).sum

theorem readings_run {x : Moment} (rs : List (List Ev × List Ev × List Ev)) : ∀ {lo k : Nat} {h : Hw},
    Runs x lo k h → h.holdTime = h.holdDate → h.holdDate = false →
    (∀ r ∈ rs, Solo r.1 ∧ Solo r.2.1 ∧ Solo r.2.2) →
    ∃ ks : List Nat, List.Forall₂ (After x) ks (readings h rs) ∧ ks.Pairwise (· ≤ ·) ∧
      ∀ l ∈ ks, lo ≤ l ∧ l ≤ k + during rs := by
  induction rs with
  | nil => intro lo k h _ _ _ _; exact ⟨[], .nil, .nil, by simp⟩
  | cons r rs ih =>
    intro lo k h hr hh hd hs
    obtain ⟨before, between, pause⟩ := r
    obtain ⟨s1, s2, s3⟩ := hs _ (List.mem_cons_self ..)
    have r1 := runs_evs before hr s1 hh
    obtain ⟨l, y, a1, a2, a3, a4, a5⟩ := r1.sh
    have e := get_solo _ y a3.valid a4 a5 between pause s2 s3
    -- from here on nothing earlier than this reading is shown
    have r1' : Runs x l (k + secs before) (h.evs before) := ⟨r1.run, r1.cal, ⟨l, y, Nat.le_refl _, a2, a3, a4, a5⟩⟩
    obtain ⟨r2, f1, f2⟩ := runs_get r1' between pause s2 s3
    obtain ⟨ks, b1, b2, b3⟩ := ih r2 (f1.trans f2.symm) f2 (fun r' hr' => hs r' (List.mem_cons_of_mem _ hr'))
    have e2 : during ((before, between, pause) :: rs) = secs before + secs between + secs pause + during rs := by
      simp [during]
    refine ⟨l :: ks, .cons (by rw [e]; exact a3) b1, List.pairwise_cons.mpr ⟨fun l' hl' => (b3 l' hl').1, b2⟩, ?_⟩
    intro l' hl'
    rw [e2]
    rcases List.mem_cons.mp hl' with rfl | hl'
    · exact ⟨a1, by omega⟩
    · have := b3 l' hl'; exact ⟨by omega, by omega⟩

/-- `RTC_SetDateTime` with any moment of the years 2000 to 2099 and then any series of `RTC_GetDateTime` by one
task, whenever seconds pass: every reading is the moment set plus a number of seconds that have passed since,
at least those that had passed when the call that set the clock returned and never fewer than in an earlier
reading — provided midnight did not pass inside the call that set it, between its writing the time and its
writing the date. -/
theorem C132_clock_partial (h : Hw) (x : Moment) (hv : Valid x) (hT : h.holdTime = false) (hD : h.holdDate = false)
    (before1 wait1 before2 wait2 : List Ev) (s1 : Solo before1) (s2 : Solo wait1) (s3 : Solo before2)
    (s4 : Solo wait2) (hk : secOfDay x + (secs wait1 + secs before2) < 86400)
    (rs : List (List Ev × List Ev × List Ev)) (hs : ∀ r ∈ rs, Solo r.1 ∧ Solo r.2.1 ∧ Solo r.2.2) :
    ∃ ks : List Nat,
      List.Forall₂ (After x) ks (readings (setDateTime h x before1 wait1 before2 wait2) rs) ∧
      ks.Pairwise (· ≤ ·) ∧
      ∀ l ∈ ks, secs wait1 + secs before2 + secs wait2 ≤ l ∧
        l ≤ secs wait1 + secs before2 + secs wait2 + during rs := by
  obtain ⟨r, f1, f2⟩ := set_runs h x hv hT hD before1 wait1 before2 wait2 s1 s2 s3 s4 hk
  exact readings_run rs r (f1.trans f2.symm) f2 hs

/-- Within the same second the reading is what was set, in every member. -/
theorem C132_round_trip (h : Hw) (x : Moment) (hv : Valid x) (hT : h.holdTime = false) (hD : h.holdDate = false)
    (before1 wait1 before2 wait2 before between pause : List Ev) (s1 : Solo before1) (s2 : Solo wait1)
    (s3 : Solo before2) (s4 : Solo wait2) (s5 : Solo before) (s6 : Solo between) (s7 : Solo pause)
    (hz : secs (wait1 ++ before2 ++ wait2 ++ before) = 0) :
    (getDateTime ((setDateTime h x before1 wait1 before2 wait2).evs before) between pause).1 = x := by
  simp only [secs, List.count_append] at hz
  have hlt := secOfDay_lt x hv
  obtain ⟨r, f1, f2⟩ := set_runs h x hv hT hD before1 wait1 before2 wait2 s1 s2 s3 s4 (by simp only [secs]; omega)
  have r1 := runs_evs before r s5 (f1.trans f2.symm)
  obtain ⟨l, y, a1, a2, a3, a4, a5⟩ := r1.sh
  rw [get_solo _ y a3.valid a4 a5 between pause s6 s7]
  have : l = 0 := by simp only [secs] at a2; omega
  subst this
  exact a3.unique (After.refl x hv)

/-- Not so at midnight: for every date, a clock set to 23:59:59 with a second passing inside the call, after the
time is written, is a whole day behind. -/
theorem C132_day_behind (h : Hw) (x : Moment) (hv : Valid x) (hT : h.holdTime = false) (hD : h.holdDate = false)
    (hm : x.hour = 23 ∧ x.min = 59 ∧ x.sec = 59) (y : Moment) (hy : After x 1 y) :
    let r := (getDateTime (setDateTime h x [] [.tick] [] []) [] []).1
    After r 86400 y ∧ ¬ After x 1 r := by
  have e : (getDateTime (setDateTime h x [] [.tick] [] []) [] []).1 = { x with hour := 0, min := 0, sec := 0 } := by
    have hv' : Valid { x with hour := 0, min := 0, sec := 0 } :=
      ⟨by simp, by simp, by simp, hv.weekday, hv.month, hv.day, hv.year⟩
    refine get_solo _ _ hv' ?_ ?_ _ _ (by simp [Solo]) (by simp [Solo])
    · simp only [setDateTime, setDate, setTime, write_time x hv, Hw.evs, List.foldl_nil, List.foldl_cons]
      simp [Hw.ev, hT, hD, timeOf, nextTime, hm.1, hm.2.1, hm.2.2]
    · simp only [setDateTime, setDate, month_eq x.month hv.month.2, write_date x hv, setTime, Hw.evs, List.foldl_nil,
        List.foldl_cons]
      simp [Hw.ev, hT, hD, dateOf]
  dsimp only
  rw [e]
  have hs : secOfDay x = 86399 := by simp [secOfDay, hm.1, hm.2.1, hm.2.2]
  have hs0 : secOfDay { x with hour := 0, min := 0, sec := 0 } = 0 := by simp [secOfDay]
  have hd0 : dayNo { x with hour := 0, min := 0, sec := 0 } = dayNo x := rfl
  have h1 := hy.time
  have h2 := hy.date
  have h3 := hy.weekday
  rw [hs] at h1 h2 h3
  refine ⟨⟨hy.valid, ?_, ?_, ?_⟩, ?_⟩
  · rw [hs0, h1]
  · rw [hs0, hd0, h2]
  · rw [hs0, h3]
  · intro hc
    have h4 := hc.date
    rw [hs, hd0] at h4
    have := dayNo_lt x hv
    omega

/-- Not so either with two tasks: for every date, if another task reads the clock between the two reads of a
reading begun at 23:59:59 and midnight passes, the reading is a whole day ahead. -/
theorem C132_day_ahead (h : Hw) (x : Moment) (hv : Valid x) (hi : h.init = false)
    (hm : x.hour = 23 ∧ x.min = 59 ∧ x.sec = 59)
    (h1 : h.time = timeOf x) (h2 : h.date = dateOf x) (h3 : h.shTime = timeOf x) :
    After x 86400 (getDateTime h [] [.ssr, .tr, .dr, .tick, .sync]).1 := by
  obtain ⟨y, a, b, c⟩ := tick_spec x hv
  have hn : (nextTime (timeOf x)).2 = true := by simp [nextTime, timeOf, hm.1, hm.2.1, hm.2.2]
  rw [if_pos hn] at c
  have hs : secOfDay x = 86399 := by simp [secOfDay, hm.1, hm.2.1, hm.2.2]
  have vy := a.valid
  have v : Valid { y with hour := 23, min := 59, sec := 59 } :=
    ⟨by simp, by simp, by simp, vy.weekday, vy.month, vy.day, vy.year⟩
  have e : (getDateTime h [] [.ssr, .tr, .dr, .tick, .sync]).1 = { y with hour := 23, min := 59, sec := 59 } := by
    obtain ⟨t1, t2, t3, _⟩ := read_time x hv
    obtain ⟨d1, d2, d3, d4⟩ := read_date y vy
    have e1 : ((h.ev .ssr).evs []).shTime = timeOf x := h3
    have e2 : ((((h.ev .ssr).evs []).ev .tr).evs [.ssr, .tr, .dr, .tick, .sync]).shDate = dateOf y := by
      simp [Hw.evs, Hw.ev, hi, h1, h2, hn, c]
    simp only [getDateTime, getTime, getDate, e1, e2, t1, t2, t3, d1, d2, d3, d4, hm.1, hm.2.1, hm.2.2]
  rw [e]
  have g1 := a.date
  have g2 := a.weekday
  rw [hs] at g1 g2
  refine ⟨v, ?_, ?_, ?_⟩
  · rw [hs]; simp [secOfDay]
  · rw [hs]; exact g1
  · rw [hs]; exact g2

/-- The month may be given as the constant of the library (`RTC_MONTH_OCTOBER` is 0x10) or as a number: the
clock is set to the same. -/
theorem C132_month_constants (h : Hw) (w d y : Nat) (before wait : List Ev) :
    setDate h w 0x10 d y before wait = setDate h w 10 d y before wait ∧
      setDate h w 0x11 d y before wait = setDate h w 11 d y before wait ∧
      setDate h w 0x12 d y before wait = setDate h w 12 d y before wait := by
  have e1 : (if (0x10 : Nat) &&& 0x10 = 0x10 then (((0x10 : Nat) &&& 0xEF) + 0x0A) % 256 else 0x10) = 10 := by decide
  have e2 : (if (0x11 : Nat) &&& 0x10 = 0x10 then (((0x11 : Nat) &&& 0xEF) + 0x0A) % 256 else 0x11) = 11 := by decide
  have e3 : (if (0x12 : Nat) &&& 0x10 = 0x10 then (((0x12 : Nat) &&& 0xEF) + 0x0A) % 256 else 0x12) = 12 := by decide
  unfold setDate
  simp only [e1, e2, e3, month_eq 10 (by decide), month_eq 11 (by decide), month_eq 12 (by decide)]
  exact ⟨trivial, trivial, trivial⟩

/-- 28 February 2028, 23:59:58, a Monday. -/
def eve : Moment := ⟨23, 59, 58, 1, 28, 2, 28⟩

/-- A clock just reset. -/
def reset : Hw := ⟨⟨0, 0, 0, 0⟩, ⟨1, 1, 1, 0⟩, ⟨0, 0, 0, 0⟩, ⟨1, 1, 1, 0⟩, false, false, false⟩

-- set, and read at once, a second later, and two seconds later, when it is the 29th
example : Valid eve := ⟨by decide, by decide, by decide, by decide, by decide, by decide, by decide⟩

example : readings (setDateTime reset eve [.tick] [] [.sync] [])
    [([], [.tick, .sync], []), ([.sync], [], [.tick]), ([.tick, .sync], [], [])] =
    [eve, ⟨23, 59, 59, 1, 28, 2, 28⟩, ⟨0, 0, 1, 2, 29, 2, 28⟩] := by decide +kernel

-- a second later and midnight inside the call: 28 February again
example : (getDateTime (setDateTime reset { eve with sec := 59 } [] [.tick] [] []) [] []).1 =
    ⟨0, 0, 0, 1, 28, 2, 28⟩ := by decide +kernel

end Verif.Rtc
