import Verif.Model.Vectors
import Verif.Model.CanBus

set_option autoImplicit false

/-!
# After the software has stopped

The firmware stops in three ways, each an endless loop: a failed assertion (`configASSERT`, FreeRTOSConfig.h 122: all
interrupts up to the kernel's are masked, then `for(;;)`), `Error_Handler` (main.c 1073-1082: `__disable_irq()`, then
`while(1)`), and the handlers of processor faults (stm32f7xx_it.c 103-158; only the hard fault is enabled, so that the
others become one).  What still happens is what interrupt handlers above the loop's execution priority do, and what the
peripherals do by themselves.
-/

namespace Verif.Halt
open Verif.Vectors

/-- The ways to stop. FreeRTOSConfig.h 122; main.c 1073-1082; stm32f7xx_it.c 103-113. -/
inductive Way where
  | assertion
  | errorHandler
  | hardFault
deriving DecidableEq, Repr

/-- The execution priority of the endless loop (ARMv7-M B1.5.4; smaller is more urgent), `cur` being that of the code
that stopped: BASEPRI 5 (FreeRTOSConfig.h 110, 122; portmacro.h `vPortRaiseBASEPRI`), PRIMASK (main.c 1077), the hard
fault's −1 (stm32f7xx_it.c 103). -/
def Way.priority (cur : Int) : Way → Int
  | .assertion => min cur 5
  | .errorHandler => min cur 0
  | .hardFault => min cur (-1)

/-- What the outside sees of the VCU: its three CAN peripherals (deviceMapping.h 109-111), its output pins, and the bytes
handed to the serial ports (uart.c 211-265). -/
structure St where
  can : Fin 3 → CanBus.St
  pins : Nat → Bool
  bytes : List UInt8

/-- What a handler or task may do to it. can.c 302-344, gpio.c 18-26, uart.c 211-265. -/
inductive Act where
  | send (bus : Fin 3) (f : CanBus.Frame) (m : Fin 3)
  | pin (n : Nat) (v : Bool)
  | write (d : List UInt8)

/-- An action's effect. can.c 302-344, gpio.c 18-26, uart.c 211-265. -/
def act (s : St) : Act → St
  | .send b f m => { s with can := CanBus.upd s.can b (CanBus.send f m (s.can b)).1 }
  | .pin n v => { s with pins := CanBus.upd s.pins n v }
  | .write d => { s with bytes := s.bytes ++ d }

/-- Calls of handlers that end inside the vendor library. Timer 1: `HAL_IncTick` and the comparison of the timer instance
(main.c 1053-1066, tasktimer.c 104, wheelspeed.c 211). DMA for I2C2: stm32f7xx_hal_i2c.c 6437-6558. All other handlers
lead to the firmware's own callbacks (see `Critical.irqs`). -/
def inner : Call → Bool
  | .tim n => n == 1
  | .dma .i2c2_rx => true
  | .dma .i2c2_tx => true
  | _ => false

/-- What happens after the stop: an interrupt is requested, its handler wanting to do `acts`; a CAN bus becomes idle or
has been quiet. stm32f7xx_it.c 177-; hardware. -/
inductive Ev where
  | irq (i : Irq) (acts : List Act)
  | slot (bus : Fin 3) (rival : Option Nat) (fault : Option CanBus.Fault)
  | quiet (bus : Fin 3)

/-- One event, with the loop at execution priority `prio` and the interrupt controller set to `nvic`: an interrupt that
is enabled and more urgent is served (stm32f7xx_it.c). -/
def step (enabled : Nat → Bool) (level : Nat → Nat) (prio : Int) (s : St) : Ev → St
  | .irq i acts =>
    if enabled i.number && decide ((level i.number : Int) < prio) then
      match body i with
      | some calls => if calls.all inner then s else acts.foldl act s
      | none => s
    else s
  | .slot b rival fault =>
    { s with can := CanBus.upd s.can b (CanBus.slot CanBus.shipped rival fault (s.can b)) }
  | .quiet b => { s with can := CanBus.upd s.can b (CanBus.step CanBus.shipped (s.can b) .quiet) }

/-- A history. See `step`. stm32f7xx_it.c 183-562. -/
def run (enabled : Nat → Bool) (level : Nat → Nat) (prio : Int) (s : St) (es : List Ev) : St :=
  es.foldl (step enabled level prio) s

end Verif.Halt
