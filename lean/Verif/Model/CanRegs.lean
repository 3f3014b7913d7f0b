import Verif.Model.Clock

set_option autoImplicit false

/-!
# The registers of a CAN controller: cube-proj/Core/Src/main.c 385-490 and stm32f7xx_hal_can.c 275-450, 1033-1077

Positions of the fields: stm32f767xx.h 2218-2243 (MCR), 2449-2474 (BTR).  The handle's state and error code and the
waiting for the acknowledge flags are left out (a controller that does not answer leads to `Error_Handler`, or to a
failed start-up: C113, C72).
-/

namespace Verif.CanRegs

/-- Master control register and bit timing register (stm32f767xx.h 2218-2243, 2449-2474). -/
structure Regs where
  mcr : BitVec 32
  btr : BitVec 32
deriving DecidableEq, Repr

/-- `CAN_InitTypeDef` (stm32f7xx_hal_can.h; main.c 396-406), mode and times as the bit patterns the constants stand
for. -/
structure Init where
  prescaler : BitVec 32
  mode : BitVec 32
  syncJumpWidth : BitVec 32
  timeSeg1 : BitVec 32
  timeSeg2 : BitVec 32
  timeTriggered : Bool
  autoBusOff : Bool
  autoWakeUp : Bool
  autoRetransmission : Bool
  receiveFifoLocked : Bool
  transmitFifoPriority : Bool
deriving DecidableEq, Repr

/-- `SET_BIT` if the condition holds, `CLEAR_BIT` otherwise (stm32f7xx_hal_can.c 375-433). -/
def putBit (on : Bool) (mask r : BitVec 32) : BitVec 32 := if on then r ||| mask else r &&& ~~~ mask

/-- `HAL_CAN_Init` (stm32f7xx_hal_can.c 275-450): initialisation requested, sleep left, TTCM, ABOM, AWUM, NART (set
when retransmission is not wanted), RFLM, TXFP, and BTR written whole. -/
def canInit (r : Regs) (i : Init) : Regs :=
  let m := r.mcr ||| 0x1#32
  let m := m &&& ~~~ 0x2#32
  let m := putBit i.timeTriggered 0x80#32 m
  let m := putBit i.autoBusOff 0x40#32 m
  let m := putBit i.autoWakeUp 0x20#32 m
  let m := putBit (!i.autoRetransmission) 0x10#32 m
  let m := putBit i.receiveFifoLocked 0x8#32 m
  let m := putBit i.transmitFifoPriority 0x4#32 m
  ⟨m, i.mode ||| i.syncJumpWidth ||| i.timeSeg1 ||| i.timeSeg2 ||| (i.prescaler - 1#32)⟩

/-- `HAL_CAN_Start` (stm32f7xx_hal_can.c 1033-1077): the request for initialisation is withdrawn. -/
def canStart (r : Regs) : Regs := ⟨r.mcr &&& ~~~ 0x1#32, r.btr⟩

/-- The settings of CAN1 (main.c 396-406; stm32f7xx_hal_can.h 333, 346, 371, 381). -/
def can1 : Init := ⟨3#32, 0#32, 0#32, 0xE0000#32, 0x100000#32, false, false, false, false, false, false⟩
/-- The settings of CAN2 (main.c 433-443). -/
def can2 : Init := ⟨3#32, 0#32, 0#32, 0xE0000#32, 0x100000#32, false, false, false, false, false, false⟩
/-- The settings of CAN3 (main.c 470-480). -/
def can3 : Init := ⟨3#32, 0#32, 0#32, 0xE0000#32, 0x100000#32, false, false, false, false, false, false⟩

/-- The clock of the three controllers with a crystal of `f` Hz: APB1 (stm32f7xx_hal_msp.c 235-330, main.c 212-220). -/
def clock (f : ℚ) : ℚ := Clock.pclk1 f Clock.shippedPll Clock.shippedCfgr

/-- The registers after reset (RM0410 40.9.2). Hardware, before main.c 385. -/
def reset : Regs := ⟨0x10002#32, 0x1230000#32⟩

end Verif.CanRegs
