set_option autoImplicit false

/-!
# Specification of the clock: moments of the years 2000 to 2099 and how many seconds lie between them
-/

namespace Verif.RtcSpec

/-- A moment; weekday 1 is Monday. -/
structure Moment where
  hour : Nat
  min : Nat
  sec : Nat
  weekday : Nat
  day : Nat
  month : Nat
  year : Nat
deriving DecidableEq, Repr

/-- 29 February exists. -/
def leap (year : Nat) : Bool := year % 4 = 0

/-- Days of a month. -/
def daysIn (month year : Nat) : Nat :=
  match month with
  | 2 => if leap year then 29 else 28
  | 4 | 6 | 9 | 11 => 30
  | _ => 31

/-- Days of the year before the first of a month. -/
def daysBefore (month year : Nat) : Nat :=
  match month with
  | 0 | 1 => 0
  | 2 => 31
  | m => [59, 90, 120, 151, 181, 212, 243, 273, 304, 334].getD (m - 3) 0 + (if leap year then 1 else 0)

/-- Days since 1 January 2000. -/
def dayNo (x : Moment) : Nat := 365 * x.year + (x.year + 3) / 4 + daysBefore x.month x.year + (x.day - 1)

/-- Seconds since midnight. -/
def secOfDay (x : Moment) : Nat := 3600 * x.hour + 60 * x.min + x.sec

/-- A moment of the years 2000 to 2099. -/
structure Valid (x : Moment) : Prop where
  hour : x.hour < 24
  min : x.min < 60
  sec : x.sec < 60
  weekday : 1 ≤ x.weekday ∧ x.weekday ≤ 7
  month : 1 ≤ x.month ∧ x.month ≤ 12
  day : 1 ≤ x.day ∧ x.day ≤ daysIn x.month x.year
  year : x.year < 100

/-- `r` is `k` seconds after `x` (after 2099 comes 2000). -/
structure After (x : Moment) (k : Nat) (r : Moment) : Prop where
  valid : Valid r
  time : secOfDay r = (secOfDay x + k) % 86400
  date : dayNo r = (dayNo x + (secOfDay x + k) / 86400) % 36525
  weekday : r.weekday = (x.weekday - 1 + (secOfDay x + k) / 86400) % 7 + 1

end Verif.RtcSpec
