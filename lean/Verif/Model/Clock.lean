import Mathlib.Data.Rat.Defs
import Mathlib.Algebra.Order.Field.Rat

set_option autoImplicit false

/-!
# Clocks and the intervals derived from them

`SystemClock_Config` and the timer, CAN and UART settings of cube-proj/Core/Src/main.c, the registers the
vendor drivers (cube-proj/Drivers/STM32F7xx_HAL_Driver) write from them, what the vendor drivers believe
the frequencies to be (integer arithmetic), and what the hardware makes of the registers (rational
arithmetic, for a crystal of any frequency `f` in Hz).

Hardware facts used (STM32F76x reference manual, RCC, general-purpose timers, bxCAN bit timing, USART;
ARMv7-M SysTick): the division factors each register field stands for; timers on a bus whose prescaler is
not 1 run at twice the bus clock (TIMPRE is clear); a timer with PSC and ARR overflows every
(PSC+1)(ARR+1) cycles; SysTick with reload value L every L+1 cycles; a CAN bit has 1+(TS1+1)+(TS2+1) time
quanta of BRP+1 cycles; a USART with oversampling 16 has BRR cycles per bit.

Simplification: register fields that play no role here (flash latency, over-drive, other PLL outputs) are
left out here (see `Model/ClockStart`); the oscillator starts and the PLL locks (otherwise `Error_Handler` is
called, main.c 202-226).
-/

namespace Verif.Clock

/-- `HSE_VALUE`, Core/Inc/stm32f7xx_hal_conf.h 97. -/
def hseValue : Nat := 16000000

/-- Bits `hi` down to `lo` of a register. `(reg & mask) >> pos`, as in stm32f7xx_hal_rcc.c 1021-1036. -/
def field (reg lo width : Nat) : Nat := reg / 2 ^ lo % 2 ^ width

/-! ## PLL -/

/-- `__HAL_RCC_PLL_CONFIG`, stm32f7xx_hal_rcc_ex.h 2541-2546; the source is HSE, bit 22. -/
def pllcfgr (m n p q r : Nat) : Nat :=
  2 ^ 22 ||| m ||| n <<< 6 ||| (p >>> 1 - 1) <<< 16 ||| q <<< 24 ||| r <<< 28

/-- main.c 197-201. -/
def shippedPll : Nat := pllcfgr 8 216 2 9 2

/-- `HAL_RCC_GetSysClockFreq` with the PLL selected and HSE as its source, stm32f7xx_hal_rcc.c
1021-1036. -/
def halSysClock (reg : Nat) : Nat :=
  (hseValue * field reg 6 9 / field reg 0 6) / ((field reg 16 2 + 1) * 2)

/-- The PLL output that drives the system, for a crystal of `f` Hz. Hardware; the register is that of main.c
197-201. -/
def sysClock (f : ℚ) (reg : Nat) : ℚ :=
  f / field reg 0 6 * field reg 6 9 / ((field reg 16 2 + 1) * 2)

/-! ## Bus prescalers -/

/-- `AHBPrescTable` and `APBPrescTable`, Core/Src/system_stm32f7xx.c 126-127. -/
def ahbTable : List Nat := [0, 0, 0, 0, 0, 0, 0, 0, 1, 2, 3, 4, 6, 7, 8, 9]
/-- `APBPrescTable`, Core/Src/system_stm32f7xx.c 127. -/
def apbTable : List Nat := [0, 0, 0, 0, 1, 2, 3, 4]

/-- CFGR as `HAL_RCC_ClockConfig` leaves it (stm32f7xx_hal_rcc.c 771, 839, 846): HPRE, PPRE1, and PPRE2
shifted by 3. -/
def cfgr (ahb apb1 apb2 : Nat) : Nat := ahb ||| apb1 ||| apb2 <<< 3

/-- main.c 219-221 with RCC_SYSCLK_DIV1 = 0, RCC_HCLK_DIV4 = 0x1400, RCC_HCLK_DIV2 = 0x1000. -/
def shippedCfgr : Nat := cfgr 0 0x1400 0x1000

/-- `SystemCoreClock` as set in stm32f7xx_hal_rcc.c 850. -/
def systemCoreClock (pll cfgr : Nat) : Nat := halSysClock pll >>> ahbTable.getD (field cfgr 4 4) 0
/-- `HAL_RCC_GetPCLK1Freq`, stm32f7xx_hal_rcc.c 1066-1070. -/
def halPclk1 (pll cfgr : Nat) : Nat := systemCoreClock pll cfgr >>> apbTable.getD (field cfgr 10 3) 0
/-- `HAL_RCC_GetPCLK2Freq`, stm32f7xx_hal_rcc.c 1078-1082. -/
def halPclk2 (pll cfgr : Nat) : Nat := systemCoreClock pll cfgr >>> apbTable.getD (field cfgr 13 3) 0

/-- Division factor of HPRE (reference manual, RCC_CFGR). Used for main.c 219. -/
def ahbDiv (k : Nat) : Nat :=
  if k < 8 then 1 else [2, 4, 8, 16, 64, 128, 256, 512].getD (k - 8) 1
/-- Division factor of PPRE1, PPRE2. Hardware, for main.c 220-221. -/
def apbDiv (k : Nat) : Nat := if k < 4 then 1 else [2, 4, 8, 16].getD (k - 4) 1

/-- Processor clock, bus clocks, and clocks of the timers on the two buses. main.c 219-221. -/
def hclk (f : ℚ) (pll cfgr : Nat) : ℚ := sysClock f pll / ahbDiv (field cfgr 4 4)
/-- Clock of APB1, main.c 220. -/
def pclk1 (f : ℚ) (pll cfgr : Nat) : ℚ := hclk f pll cfgr / apbDiv (field cfgr 10 3)
/-- Clock of APB2, main.c 221. -/
def pclk2 (f : ℚ) (pll cfgr : Nat) : ℚ := hclk f pll cfgr / apbDiv (field cfgr 13 3)
/-- Clock of the timers on APB1, main.c 220 (hardware: doubled unless the prescaler is 1). -/
def timClk1 (f : ℚ) (pll cfgr : Nat) : ℚ :=
  if apbDiv (field cfgr 10 3) = 1 then pclk1 f pll cfgr else 2 * pclk1 f pll cfgr
/-- Clock of the timers on APB2, main.c 221. -/
def timClk2 (f : ℚ) (pll cfgr : Nat) : ℚ :=
  if apbDiv (field cfgr 13 3) = 1 then pclk2 f pll cfgr else 2 * pclk2 f pll cfgr

/-! ## Intervals, in seconds, for a crystal of `f` Hz -/

/-- Time between overflows of a timer clocked with `clk`. Hardware; PSC and ARR as in main.c 672-674. -/
def overflow (clk : ℚ) (psc arr : Nat) : ℚ := (psc + 1) * (arr + 1) / clk

/-- SysTick reload value: `vPortSetupTimerInterrupt`,
cube-proj/Lib/FreeRTOS/Source/portable/GCC/ARM_CM7/r0p1/port.c 685, with configTICK_RATE_HZ = 1000
(FreeRTOSConfig.h 63-64). -/
def sysTickReload : Nat := systemCoreClock shippedPll shippedCfgr / 1000 - 1

/-- Kernel tick: SysTick runs on the processor clock (port.c 686, CLK bit). -/
def tick (f : ℚ) : ℚ := (sysTickReload + 1) / hclk f shippedPll shippedCfgr

/-- The task timer: TIM2, on APB1 (main.c 672-674; deviceMapping.h 129). -/
def taskTimer (f : ℚ) : ℚ := overflow (timClk1 f shippedPll shippedCfgr) 999 1079

/-- Wheel-speed sampling: TIM3, on APB1 (main.c 717-719; deviceMapping.h 104). -/
def wheelSample (f : ℚ) : ℚ := overflow (timClk1 f shippedPll shippedCfgr) 99 539

/-- Prescaler of the vendor library's time base, TIM1 on APB2: `HAL_InitTick`,
Core/Src/stm32f7xx_hal_timebase_tim.c 59-63. -/
def halTickPsc : Nat := 2 * halPclk2 shippedPll shippedCfgr / 1000000 - 1

/-- The vendor library's millisecond (the same file, 74-75). stm32f7xx_hal_timebase_tim.c 74-75. -/
def halTick (f : ℚ) : ℚ := overflow (timClk2 f shippedPll shippedCfgr) halTickPsc (1000000 / 1000 - 1)

/-- CAN BTR: `HAL_CAN_Init`, stm32f7xx_hal_can.c 436-440, with CAN_BS1_15TQ, CAN_BS2_2TQ, prescaler 3
(main.c 396-400; the same for all three); mode and SJW fields are 0. -/
def btr : Nat := 0xE0000 ||| 0x100000 ||| (3 - 1)

/-- A CAN bit. Hardware; BTR as in stm32f7xx_hal_can.c 436-440. -/
def canBit (f : ℚ) : ℚ :=
  (1 + (field btr 16 4 + 1) + (field btr 20 3 + 1)) * (field btr 0 10 + 1) / pclk1 f shippedPll shippedCfgr

/-- Where in the bit it is sampled. Hardware; BTR as in stm32f7xx_hal_can.c 436-440. -/
def samplePoint : ℚ :=
  (1 + (field btr 16 4 + 1)) / (1 + (field btr 16 4 + 1) + (field btr 20 3 + 1))

/-- `UART_SetConfig` for oversampling 16: `UART_DIV_SAMPLING16` (stm32f7xx_hal_uart.h 1217) and the limits
(stm32f7xx_hal_uart.c 183-184, 3018-3026). `none` is HAL_ERROR. -/
def brr (pclk baud : Nat) : Option Nat :=
  let d := (pclk + baud / 2) / baud
  if 16 ≤ d ∧ d ≤ 0xFFFF then some d else none

end Verif.Clock
