import Verif.Model.Rtc

set_option autoImplicit false

/-!
# The clock's second: `MX_RTC_Init`, `HAL_RTC_MspInit`, `HAL_RTC_Init`, and the prescalers

The backup domain keeps calendar, prescalers and clock selection through a restart. Its hardware (RM0410 5.3.20,
32.3.1, 32.3.3, 32.6.4, 32.6.5) counts cycles of the selected oscillator with two prescalers and advances the
calendar of `Model/Rtc` when both have run through. The waits of the functions end (no time-out modelled), write
protection is lifted where they lift it.
-/

namespace Verif.RtcRate

open Rtc

/-- Oscillators the clock can be connected to. stm32f7xx_hal_rcc.h 250-253. -/
inductive Source where
  | none | lse | lsi | hse
deriving DecidableEq, Repr

/-- Backup domain: calendar, prescaler register, prescaler counters, RCC_BDCR. stm32f767xx.h (RTC_PRER, RCC_BDCR);
written at stm32f7xx_hal_rtc.c 330-331 and stm32f7xx_hal_rcc_ex.c 204-234. -/
structure Dom where
  cal : Hw
  predA : Nat
  predS : Nat
  cntA : Nat
  cntS : Nat
  sel : Source
  on : Bool
deriving DecidableEq, Repr

/-- After power-on or a reset of the backup domain. Hardware (RM0410 32.6.2, 32.6.5), for stm32f7xx_hal_rcc_ex.c 212. -/
def powerOn : Dom :=
  ⟨⟨⟨0, 0, 0, 0⟩, ⟨1, 1, 1, 0⟩, ⟨0, 0, 0, 0⟩, ⟨1, 1, 1, 0⟩, false, false, false⟩, 127, 255, 0, 0, .none, false⟩

/-- The flag `INITS`: the year is not zero. Hardware (RM0410 32.6.4), read at stm32f7xx_hal_rtc.h 496. -/
def inits (d : Dom) : Bool := d.cal.date.year != 0

/-- `HAL_RCCEx_PeriphCLKConfig` for the clock, stm32f7xx_hal_rcc_ex.c 179-235. The bits of RCC_BDCR besides the
selection are put back after the reset. -/
def periphClk (d : Dom) (source : Source) : Dom :=
  let d := if d.sel ≠ .none ∧ d.sel ≠ source then { powerOn with on := d.on } else d
  { d with sel := source }

/-- `HAL_RTC_MspInit`, stm32f7xx_hal_msp.c 638-663. -/
def mspInit (d : Dom) : Dom := { periphClk d .lsi with on := true }

/-- Initialisation mode entered, prescalers written and mode left, stm32f7xx_hal_rtc.c 319-335; the prescaler
counters begin anew (RM0410 32.3.7). -/
def configure (d : Dom) (asynch synch : Nat) : Dom :=
  { d with predA := asynch % 128, predS := synch % 32768, cntA := 0, cntS := 0 }

/-- `HAL_RTC_Init`, stm32f7xx_hal_rtc.c 254-358, after a restart of the program. -/
def halInit (d : Dom) (asynch synch : Nat) : Dom :=
  let d := mspInit d
  if inits d then d else configure d asynch synch

/-- `MX_RTC_Init`, main.c 623-651. -/
def mxRtcInit (d : Dom) : Dom := halInit d 127 255

/-- A cycle of the selected oscillator. Hardware (RM0410 32.3.3); set up at stm32f7xx_hal_rtc.c 330-331. -/
def cycle (d : Dom) : Dom :=
  if d.on = false ∨ d.cal.init = true then d
  else if d.cntA < d.predA then { d with cntA := d.cntA + 1 }
  else if d.cntS < d.predS then { d with cntA := 0, cntS := d.cntS + 1 }
  else { d with cntA := 0, cntS := 0, cal := d.cal.ev .tick }

/-- Some cycles. Hardware (RM0410 32.3.3); set up at stm32f7xx_hal_rtc.c 330-331. -/
def cycles : Nat → Dom → Dom
  | 0, d => d
  | n + 1, d => cycles n (cycle d)

/-- Frequency of the internal oscillator, stm32f7xx_hal_conf.h 117. -/
def lsiHz : Nat := 32000

/-- Frequency of an external watch crystal, stm32f7xx_hal_conf.h 125. -/
def lseHz : Nat := 32768

end Verif.RtcRate
