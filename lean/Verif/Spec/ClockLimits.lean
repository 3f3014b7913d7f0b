import Verif.Model.ClockStart

set_option autoImplicit false

/-!
# What the processor stands (STM32F767 datasheet, tables of operating conditions; reference manual, FLASH,
PWR and RCC), for the supply of 3.3 V

All limits scaled by a tolerance `t` for the oscillators: `f` is the crystal, `h` the internal oscillator,
both in Hz, nominally 16 MHz.
-/

namespace Verif.ClockStart

/-- Frequency of the system clock. -/
def sysclk (f h : ℚ) (s : Hw) : ℚ :=
  match s.h.sws with
  | .hsi => h
  | .hse => f
  | .pll => Clock.sysClock (if Clock.field s.r.pll 22 1 = 1 then f else h) s.r.pll

/-- Frequency of the processor and of the two peripheral buses. -/
def core (f h : ℚ) (s : Hw) : ℚ := sysclk f h s / Clock.ahbDiv (Clock.field s.r.cfgr 4 4)
def bus1 (f h : ℚ) (s : Hw) : ℚ := core f h s / Clock.apbDiv (Clock.field s.r.cfgr 10 3)
def bus2 (f h : ℚ) (s : Hw) : ℚ := core f h s / Clock.apbDiv (Clock.field s.r.cfgr 13 3)

/-- Highest processor clock for the voltage scale (VOS 3: scale 1, 2: scale 2, 1: scale 3) and over-drive. -/
def coreMax (vos : Nat) (od : Bool) : ℚ :=
  if od then (if vos = 3 then 216000000 else 180000000)
  else if vos = 3 then 180000000 else if vos = 2 then 168000000 else 144000000

/-- Every limit is kept. -/
structure Safe (f h t : ℚ) (s : Hw) : Prop where
  /-- The flash is given enough wait states: one for every 30 MHz begun beyond the first. -/
  flash : core f h s ≤ 30000000 * (s.r.latency + 1) * t
  /-- The processor clock fits the supply of the core. -/
  core : core f h s ≤ coreMax s.r.vos s.h.odSw * t
  bus1 : bus1 f h s ≤ (if s.h.odSw then 54000000 else 45000000) * t
  bus2 : bus2 f h s ≤ (if s.h.odSw then 108000000 else 90000000) * t
  /-- The system runs from the PLL only while the PLL is on and locked and its source runs. -/
  locked : s.h.sws = .pll → s.r.pllOn = true ∧ s.h.pll = true ∧ s.h.hse = true ∧ s.r.hseOn = true
  /-- While the PLL is on it has an input of 1 to 2 MHz, and its oscillator runs at 100 to 432 MHz. -/
  pll : s.r.pllOn = true →
    let i := (if Clock.field s.r.pll 22 1 = 1 then f else h) / Clock.field s.r.pll 0 6
    let v := i * Clock.field s.r.pll 6 9
    1000000 ≤ i * t ∧ i ≤ 2000000 * t ∧ 100000000 ≤ v * t ∧ v ≤ 432000000 * t
  /-- Over-drive is switched to while the system does not run from the PLL. -/
  switching : s.r.odSwEn = true → s.h.odSw = false → s.h.sws ≠ .pll

end Verif.ClockStart
