import Verif.Model.Clock

set_option autoImplicit false

/-!
# The registers of a serial port: cube-proj/Core/Src/main.c 748-846 and stm32f7xx_hal_uart.c 289-354, 2899-3035

Positions of the fields: stm32f767xx.h 15132-15333.  The handle's state, lock and the waiting for the acknowledge
flags (`UART_CheckIdleState`) are left out.  The advanced features are not configured (main.c 767, 802, 837).
-/

namespace Verif.UartRegs

/-- Control registers and baud rate register (stm32f767xx.h 15132-15345). -/
structure Regs where
  cr1 : BitVec 32
  cr2 : BitVec 32
  cr3 : BitVec 32
  brr : Nat
deriving DecidableEq, Repr

/-- `UART_InitTypeDef` (main.c 759-766), the members as the bit patterns the constants stand for. -/
structure Init where
  baud : Nat
  wordLength : BitVec 32
  stopBits : BitVec 32
  parity : BitVec 32
  mode : BitVec 32
  flow : BitVec 32
  over : BitVec 32
  oneBit : BitVec 32
deriving DecidableEq, Repr

/-- `MODIFY_REG` (stm32f7xx.h 170-190). -/
def modifyReg (reg mask set : BitVec 32) : BitVec 32 := (reg &&& ~~~ mask) ||| set

/-- `USART_CR1_FIELDS` (stm32f7xx_hal_uart.c 176-177): M1 and M0, PCE, PS, TE, RE, OVER8. -/
def cr1Fields : BitVec 32 := 0x10001000#32 ||| 0x400#32 ||| 0x200#32 ||| 0x8#32 ||| 0x4#32 ||| 0x8000#32

/-- `USART_CR3_FIELDS` (stm32f7xx_hal_uart.c 179-180): RTSE, CTSE, ONEBIT. -/
def cr3Fields : BitVec 32 := 0x100#32 ||| 0x200#32 ||| 0x800#32

/-- The baud rate register for oversampling by 8 (stm32f7xx_hal_uart.c 2977-2987, stm32f7xx_hal_uart.h
`UART_DIV_SAMPLING8`). -/
def brr8 (pclk baud : Nat) : Option Nat :=
  let d := (pclk * 2 + baud / 2) / baud
  if 16 ≤ d ∧ d ≤ 0xFFFF then some (d / 16 * 16 + d % 16 / 2) else none

/-- `UART_SetConfig` (stm32f7xx_hal_uart.c 2899-3035) with a peripheral clock of `pclk` Hz; `none` is HAL_ERROR. -/
def setConfig (r : Regs) (i : Init) (pclk : Nat) : Option Regs :=
  let cr1 := modifyReg r.cr1 cr1Fields (i.wordLength ||| i.parity ||| i.mode ||| i.over)
  let cr2 := modifyReg r.cr2 0x3000#32 i.stopBits
  let cr3 := modifyReg r.cr3 cr3Fields (i.flow ||| i.oneBit)
  match (if i.over = 0x8000#32 then brr8 pclk i.baud else Clock.brr pclk i.baud) with
  | none => none
  | some d => some ⟨cr1, cr2, cr3, d⟩

/-- `HAL_UART_Init` (stm32f7xx_hal_uart.c 289-354): off, the settings, LINEN and CLKEN, SCEN, HDSEL and IREN
cleared, on. -/
def uartInit (r : Regs) (i : Init) (pclk : Nat) : Option Regs :=
  match setConfig { r with cr1 := r.cr1 &&& ~~~ 0x1#32 } i pclk with
  | none => none
  | some r => some ⟨r.cr1 ||| 0x1#32, r.cr2 &&& ~~~ 0x4800#32, r.cr3 &&& ~~~ 0x2A#32, r.brr⟩

/-- The settings of the first PC port, USART1 (main.c 759-766). -/
def usart1 : Init := ⟨115200, 0#32, 0#32, 0#32, 0xC#32, 0#32, 0#32, 0#32⟩
/-- The settings of the second PC port, USART3 (main.c 794-801). -/
def usart3 : Init := ⟨115200, 0#32, 0#32, 0#32, 0xC#32, 0#32, 0#32, 0#32⟩
/-- The settings of the port of the GPS receiver, USART6 (main.c 829-836). -/
def usart6 : Init := ⟨9600, 0#32, 0#32, 0#32, 0xC#32, 0#32, 0#32, 0#32⟩

/-- The clocks the vendor driver takes the ports to have (stm32f7xx_hal_msp.c 783-784, 857-858, 931-932: PCLK2, PCLK1,
PCLK2; stm32f7xx_hal_uart.c 2946-2975). -/
def clock1 : Nat := Clock.halPclk2 Clock.shippedPll Clock.shippedCfgr
/-- See `clock1`. stm32f7xx_hal_msp.c 857-858. -/
def clock3 : Nat := Clock.halPclk1 Clock.shippedPll Clock.shippedCfgr
/-- See `clock1`. stm32f7xx_hal_msp.c 931-932. -/
def clock6 : Nat := Clock.halPclk2 Clock.shippedPll Clock.shippedCfgr

/-- The clock of USART1 and USART6 with a crystal of `f` Hz (stm32f7xx_hal_msp.c 783-784, 931-932). -/
def apb2 (f : ℚ) : ℚ := Clock.pclk2 f Clock.shippedPll Clock.shippedCfgr
/-- The clock of USART3 with a crystal of `f` Hz (stm32f7xx_hal_msp.c 857-858). -/
def apb1 (f : ℚ) : ℚ := Clock.pclk1 f Clock.shippedPll Clock.shippedCfgr

/-- The registers after reset (RM0410 34.8): all zero. Hardware, before main.c 748. -/
def reset : Regs := ⟨0#32, 0#32, 0#32, 0⟩

/-- The PC's port (log_view.py 15-16, serial_common.py 27, sim-server.py 8-9, 31): baud rate and number of stop bits;
eight data bits and no parity are pyserial's defaults. -/
def pcBaud : Nat := 115200

end Verif.UartRegs
