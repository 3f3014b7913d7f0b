import Verif.Model.AdcRegs
import Verif.Model.Clock
import Verif.Spec.Board

set_option autoImplicit false

/-!
# What the converter does with its registers (reference manual RM0410, chapter 15), and what it should do
-/

namespace Verif.AdcRegs.Spec

open Verif.AdcRegs
open Verif.Board (Port)
open Verif.Board.Spec (field)

/-- The input converted `k`-th, counting from 0 (RM0410 15.13.9-11). -/
def slot (r : Regs) (k : Nat) : Nat :=
  if k < 6 then (field 5 r.sqr3 k).toNat
  else if k < 12 then (field 5 r.sqr2 (k - 6)).toNat
  else (field 5 r.sqr1 (k - 12)).toNat

/-- The number of conversions programmed. -/
def length (r : Regs) : Nat := (field 4 r.sqr1 5).toNat + 1

/-- The inputs of one sweep: all those programmed in scan mode, otherwise just the first. -/
def sweep (r : Regs) : List Nat :=
  if r.cr1.getLsbD 8 = true then (List.range (length r)).map (slot r) else [slot r 0]

/-- The code of the sampling time of an input (RM0410 15.13.4-5). -/
def timeCode (r : Regs) (ch : Nat) : BitVec 3 :=
  if ch < 10 then field 3 r.smpr2 ch else field 3 r.smpr1 (ch - 10)

/-- The sampling time in cycles of the converter. -/
def sampling (c : BitVec 3) : Nat :=
  match c.toNat with
  | 0 => 3 | 1 => 15 | 2 => 28 | 3 => 56 | 4 => 84 | 5 => 112 | 6 => 144 | _ => 480

/-- Bits of a result, which is also the number of cycles it takes after sampling. -/
def bits (r : Regs) : Nat := 12 - 2 * (field 2 r.cr1 12).toNat

/-- Cycles a sweep takes. -/
def sweepCycles (r : Regs) : Nat :=
  ((sweep r).map fun ch => sampling (timeCode r ch) + bits r).sum

/-- The converter's clock is that of the bus divided by 2, 4, 6 or 8. -/
def divider (r : Regs) : Nat := 2 * (field 2 r.ccr 8).toNat + 2

/-- The converter's clock with a crystal of `f` Hz. -/
def adcClk (r : Regs) (f : ℚ) : ℚ := Clock.pclk2 f Clock.shippedPll Clock.shippedCfgr / divider r

/-- Seconds a sweep takes. -/
def sweepTime (r : Regs) (f : ℚ) : ℚ := sweepCycles r / adcClk r f

/-- Sweep follows sweep without anything having to trigger it. -/
def FreeRunning (r : Regs) : Prop :=
  r.cr2.getLsbD 1 = true ∧ r.cr1.getLsbD 11 = false ∧ field 2 r.cr2 14 = 0#2

/-- The converter is on, has been started, and hands its results to the DMA stream. -/
def Started (r : Regs) : Prop :=
  r.cr2.getLsbD 0 = true ∧ r.cr2.getLsbD 30 = true ∧ r.cr2.getLsbD 8 = true

/-- Results stand at the low end of the data register. -/
def RightAligned (r : Regs) : Prop := r.cr2.getLsbD 11 = false

/-- The converter keeps asking for transfers after the stream has made the number it was set up for. -/
def KeepsAsking (r : Regs) : Prop := r.cr2.getLsbD 9 = true

/-- The pin behind an input of ADC1 (STM32F767 data sheet, as in stm32f7xx_hal_msp.c 117-130). -/
def pinOfInput : Nat → Option (Port × Nat)
  | 8 => some (.b, 0)
  | 9 => some (.b, 1)
  | n => if n < 8 then some (.a, n) else if n < 16 then some (.c, n - 10) else none

/-- The signals in the order the application numbers them (deviceMapping.h 28-41): multi-purpose inputs 7, 8,
5, 6, 3, 4, 1, 2; throttle 1 and 2; front and rear brake; and the pins they come in on. -/
def signals : List (Port × Nat) :=
  [(.a, 0), (.a, 1), (.a, 2), (.a, 3), (.a, 4), (.a, 5), (.a, 6), (.a, 7), (.b, 0), (.b, 1), (.c, 4), (.c, 5)]

/-- A call the driver accepts (`assert_param`, stm32f7xx_hal_adc.c 1674-1677). -/
def Fits (c : Call) : Prop := c.channel ≤ 18 ∧ 1 ≤ c.rank ∧ c.rank ≤ 16 ∧ c.time.toNat < 8

instance (c : Call) : Decidable (Fits c) := by unfold Fits; infer_instance

/-- Settings the driver accepts, without the discontinuous mode (`assert_param`, stm32f7xx_hal_adc.c 332-347). -/
def InitFits (a : Init) : Prop :=
  a.prescaler.toNat < 4 ∧ a.resolution.toNat < 4 ∧ 1 ≤ a.conversions.toNat ∧ a.conversions.toNat ≤ 16 ∧
  a.disc = none ∧ ∀ t, a.trigger = some t → t.1.toNat < 16 ∧ t.2.toNat < 4

end Verif.AdcRegs.Spec
