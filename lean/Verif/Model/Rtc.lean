import Verif.Spec.Rtc

set_option autoImplicit false

/-!
# Clock: system-lib/rtc/rtc.c and HAL_RTC_SetTime/GetTime/SetDate/GetDate (stm32f7xx_hal_rtc.c)

The hardware (reference manual RM0410, 32.3.1-32.3.8) is a calendar that advances once a second unless it is
in initialisation mode, and shadow registers, which are what is read: the calendar is copied to them
regularly (`sync`), except that a read of RTC_SSR or RTC_TR holds the higher ones back until RTC_DR is read.
What the hardware and other tasks do between two accesses of a function is an input of the function.

Simplifications: numbers are natural numbers and conversions to `uint8_t` are written out; write
protection, which the functions lift and restore, is left out; `__HAL_LOCK` is free, no other task is
setting the clock; a time-out while waiting for the hardware is not modelled, the waits end; sub-seconds and
the deprecated members `DayLightSaving` and `StoreOperation` (none) are left out.  `assert_param` is
empty (stm32f7xx_hal_conf.h 198).
-/

namespace Verif.Rtc
open RtcSpec

/-- Time of day in the calendar; `pm` is the bit for the afternoon in 12-hour format. stm32f7xx_hal_rtc.h 84-114. -/
structure Time where
  hour : Nat
  min : Nat
  sec : Nat
  pm : Nat
deriving DecidableEq, Repr

/-- Date in the calendar. stm32f767xx.h 12166-12207. -/
structure Date where
  weekday : Nat
  day : Nat
  month : Nat
  year : Nat
deriving DecidableEq, Repr

/-- RTC_TR as decimal digits in their fields (stm32f767xx.h 12123-12163). -/
def showTime (t : Time) : Nat :=
  t.pm * 2 ^ 22 + t.hour / 10 * 2 ^ 20 + t.hour % 10 * 2 ^ 16 + t.min / 10 * 2 ^ 12 + t.min % 10 * 2 ^ 8 +
    t.sec / 10 * 2 ^ 4 + t.sec % 10

/-- RTC_TR written. stm32f7xx_hal_rtc.c 772; fields at stm32f767xx.h 12123-12163. -/
def loadTime (w : Nat) : Time where
  hour := w / 2 ^ 20 % 4 * 10 + w / 2 ^ 16 % 16
  min := w / 2 ^ 12 % 8 * 10 + w / 2 ^ 8 % 16
  sec := w / 2 ^ 4 % 8 * 10 + w % 16
  pm := w / 2 ^ 22 % 2

/-- RTC_DR as decimal digits in their fields (stm32f767xx.h 12166-12207). -/
def showDate (d : Date) : Nat :=
  d.year / 10 * 2 ^ 20 + d.year % 10 * 2 ^ 16 + d.weekday * 2 ^ 13 + d.month / 10 * 2 ^ 12 +
    d.month % 10 * 2 ^ 8 + d.day / 10 * 2 ^ 4 + d.day % 10

/-- RTC_DR written. stm32f7xx_hal_rtc.c 919; fields at stm32f767xx.h 12166-12207. -/
def loadDate (w : Nat) : Date where
  weekday := w / 2 ^ 13 % 8
  day := w / 2 ^ 4 % 4 * 10 + w % 16
  month := w / 2 ^ 12 % 2 * 10 + w / 2 ^ 8 % 16
  year := w / 2 ^ 20 % 16 * 10 + w / 2 ^ 16 % 16

/-- The clock of the microcontroller. Hardware; read and written at stm32f7xx_hal_rtc.c 708-972. -/
structure Hw where
  time : Time
  date : Date
  shTime : Time
  shDate : Date
  /-- RTC_SSR was read and RTC_DR not yet: the shadow of the time is held -/
  holdTime : Bool
  /-- RTC_SSR or RTC_TR was read and RTC_DR not yet: the shadow of the date is held -/
  holdDate : Bool
  /-- initialisation mode -/
  init : Bool
deriving DecidableEq, Repr

/-- The day after (RM0410 32.3.4: the calendar corrects for 28, 29, 30 and 31 days). Hardware behind rtc.c. -/
def nextDate (d : Date) : Date :=
  let wd := if d.weekday = 7 then 1 else d.weekday + 1
  if d.day < daysIn d.month d.year then { d with weekday := wd, day := d.day + 1 }
  else if d.month < 12 then { d with weekday := wd, day := 1, month := d.month + 1 }
  else ⟨wd, 1, 1, if d.year < 99 then d.year + 1 else 0⟩

/-- The second after, in 24-hour format; and whether midnight has passed. Hardware behind rtc.c. -/
def nextTime (t : Time) : Time × Bool :=
  if t.sec < 59 then ({ t with sec := t.sec + 1 }, false)
  else if t.min < 59 then ({ t with sec := 0, min := t.min + 1 }, false)
  else if t.hour < 23 then ({ t with sec := 0, min := 0, hour := t.hour + 1 }, false)
  else ({ t with sec := 0, min := 0, hour := 0 }, true)

/-- What happens outside a function. Hardware, and other callers of rtc.c 36-60. -/
inductive Ev where
  /-- a second passes -/
  | tick
  /-- the calendar is copied to the shadow registers -/
  | sync
  /-- another task reads RTC_SSR, RTC_TR, RTC_DR -/
  | ssr | tr | dr
deriving DecidableEq, Repr

/-- One event at the hardware. Hardware (RM0410 32.3.8). Behind rtc.c. -/
def Hw.ev (h : Hw) : Ev → Hw
  | .tick =>
    if h.init then h
    else { h with time := (nextTime h.time).1, date := if (nextTime h.time).2 then nextDate h.date else h.date }
  | .sync =>
    if h.init then h
    else { h with
      shTime := if h.holdTime then h.shTime else h.time
      shDate := if h.holdDate then h.shDate else h.date }
  | .ssr => { h with holdTime := true, holdDate := true }
  | .tr => { h with holdDate := true }
  | .dr => { h with holdTime := false, holdDate := false }

/-- Several events. Hardware (RM0410 32.3.8). Behind rtc.c. -/
def Hw.evs (h : Hw) (es : List Ev) : Hw := es.foldl Hw.ev h

/-- Loop of `RTC_ByteToBcd2` (stm32f7xx_hal_rtc.c 1886-1892). -/
def bcdLoop (bcdhigh number : Nat) : Nat :=
  if 10 ≤ number then bcdLoop (bcdhigh + 1) (number - 10)
  else (bcdhigh <<< 4) % 256 ||| number
termination_by number

/-- `RTC_ByteToBcd2` (stm32f7xx_hal_rtc.c 1882-1893). -/
def byteToBcd2 (number : Nat) : Nat := bcdLoop 0 number

/-- `RTC_Bcd2ToByte` (stm32f7xx_hal_rtc.c 1900-1905). -/
def bcd2ToByte (number : Nat) : Nat := ((((number &&& 0xF0) >>> 4) * 10) + (number &&& 0x0F)) % 256

/-- `RTC_TR_RESERVED_MASK`, `RTC_DR_RESERVED_MASK` (stm32f7xx_hal_rtc.h 772-779). -/
def trMask : Nat := 0x007F7F7F
/-- `RTC_DR_RESERVED_MASK` (stm32f7xx_hal_rtc.h 772-779). -/
def drMask : Nat := 0x00FFFF3F

/-- `HAL_RTC_SetTime` in 24-hour format (stm32f7xx_hal_rtc.c 708-796) with `RTC_EnterInitMode` (1821-1848) and
`RTC_ExitInitMode` (1856-1875): `before` happens before the initialisation mode is entered, `wait` until
the shadow registers are seen to be copied again. -/
def setTime (h : Hw) (hours minutes seconds : Nat) (before wait : List Ev) : Hw :=
  let tmpreg := (byteToBcd2 hours <<< 16 ||| byteToBcd2 minutes <<< 8 ||| byteToBcd2 seconds) ||| 0 <<< 22
  let h := h.evs before
  let h := { h with init := true }
  let h := { h with time := loadTime (tmpreg &&& trMask) }
  let h := { h with init := false }
  (h.evs wait).ev .sync

/-- `HAL_RTC_SetDate` (stm32f7xx_hal_rtc.c 867-937). -/
def setDate (h : Hw) (weekday month date year : Nat) (before wait : List Ev) : Hw :=
  let month := if month &&& 0x10 = 0x10 then ((month &&& 0xEF) + 0x0A) % 256 else month
  let datetmpreg := byteToBcd2 year <<< 16 ||| byteToBcd2 month <<< 8 ||| byteToBcd2 date ||| weekday <<< 13
  let h := h.evs before
  let h := { h with init := true }
  let h := { h with date := loadDate (datetmpreg &&& drMask) }
  let h := { h with init := false }
  (h.evs wait).ev .sync

/-- `RTC_SetDateTime` (rtc.c 36-47). -/
def setDateTime (h : Hw) (x : Moment) (before1 wait1 before2 wait2 : List Ev) : Hw :=
  setDate (setTime h x.hour x.min x.sec before1 wait1) x.weekday x.month x.day x.year before2 wait2

/-- `HAL_RTC_GetTime` (stm32f7xx_hal_rtc.c 822-855): hours, minutes, seconds, `TimeFormat`; `between` happens
between the reads of RTC_SSR and RTC_TR. -/
def getTime (h : Hw) (between : List Ev) : (Nat × Nat × Nat × Nat) × Hw :=
  let h := h.ev .ssr
  let h := h.evs between
  let tmpreg := showTime h.shTime &&& trMask
  let h := h.ev .tr
  let hours := ((tmpreg &&& 0x003F0000) >>> 16) % 256
  let minutes := ((tmpreg &&& 0x00007F00) >>> 8) % 256
  let seconds := (tmpreg &&& 0x0000007F) % 256
  let format := ((tmpreg &&& 0x00400000) >>> 22) % 256
  ((bcd2ToByte hours, bcd2ToByte minutes, bcd2ToByte seconds, format), h)

/-- `HAL_RTC_GetDate` (stm32f7xx_hal_rtc.c 956-980): weekday, month, date, year. -/
def getDate (h : Hw) : (Nat × Nat × Nat × Nat) × Hw :=
  let datetmpreg := showDate h.shDate &&& drMask
  let h := h.ev .dr
  let year := ((datetmpreg &&& 0x00FF0000) >>> 16) % 256
  let month := ((datetmpreg &&& 0x00001F00) >>> 8) % 256
  let date := (datetmpreg &&& 0x0000003F) % 256
  let weekDay := ((datetmpreg &&& 0x0000E000) >>> 13) % 256
  ((weekDay, bcd2ToByte month, bcd2ToByte date, bcd2ToByte year), h)

/-- `RTC_GetDateTime` (rtc.c 49-60); `pause` happens between its two calls. -/
def getDateTime (h : Hw) (between pause : List Ev) : Moment × Hw :=
  let (t, h) := getTime h between
  let h := h.evs pause
  let (d, h) := getDate h
  (⟨t.1, t.2.1, t.2.2.1, d.1, d.2.2.1, d.2.1, d.2.2.2⟩, h)

end Verif.Rtc
