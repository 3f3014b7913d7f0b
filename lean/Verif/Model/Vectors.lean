import Verif.Model.Board
import Verif.Model.Critical

set_option autoImplicit false

/-!
# The vector table, the handlers behind it and the interrupt controller

The vector table (Core/Startup/startup_stm32f767zitx.s), the handlers (Core/Src/stm32f7xx_it.c), the
numbers of the interrupts (stm32f767xx.h), the functions that enable interrupts and set priorities
(stm32f7xx_hal_cortex.c, core_cm7.h) with all their calls in the firmware, and the handling of the
external lines (stm32f7xx_hal_gpio.c). The code the HAL handlers run is modelled elsewhere, by device.
-/

namespace Verif.Vectors

/-- The interrupts of the device, by the names of their handlers without `_IRQHandler`
(startup_stm32f767zitx.s 148-257), which are also the names of their numbers without `_IRQn`
(stm32f767xx.h 60-167). -/
inductive Irq where
  | WWDG | PVD | TAMP_STAMP | RTC_WKUP | FLASH | RCC | EXTI0 | EXTI1 | EXTI2 | EXTI3 | EXTI4
  | DMA1_Stream0 | DMA1_Stream1 | DMA1_Stream2 | DMA1_Stream3 | DMA1_Stream4 | DMA1_Stream5
  | DMA1_Stream6 | ADC | CAN1_TX | CAN1_RX0 | CAN1_RX1 | CAN1_SCE | EXTI9_5 | TIM1_BRK_TIM9
  | TIM1_UP_TIM10 | TIM1_TRG_COM_TIM11 | TIM1_CC | TIM2 | TIM3 | TIM4 | I2C1_EV | I2C1_ER
  | I2C2_EV | I2C2_ER | SPI1 | SPI2 | USART1 | USART2 | USART3 | EXTI15_10 | RTC_Alarm
  | OTG_FS_WKUP | TIM8_BRK_TIM12 | TIM8_UP_TIM13 | TIM8_TRG_COM_TIM14 | TIM8_CC | DMA1_Stream7
  | FMC | SDMMC1 | TIM5 | SPI3 | UART4 | UART5 | TIM6_DAC | TIM7 | DMA2_Stream0 | DMA2_Stream1
  | DMA2_Stream2 | DMA2_Stream3 | DMA2_Stream4 | ETH | ETH_WKUP | CAN2_TX | CAN2_RX0 | CAN2_RX1
  | CAN2_SCE | OTG_FS | DMA2_Stream5 | DMA2_Stream6 | DMA2_Stream7 | USART6 | I2C3_EV | I2C3_ER
  | OTG_HS_EP1_OUT | OTG_HS_EP1_IN | OTG_HS_WKUP | OTG_HS | DCMI | RNG | FPU | UART7 | UART8
  | SPI4 | SPI5 | SPI6 | SAI1 | LTDC | LTDC_ER | DMA2D | SAI2 | QUADSPI | LPTIM1 | CEC | I2C4_EV
  | I2C4_ER | SPDIF_RX | DFSDM1_FLT0 | DFSDM1_FLT1 | DFSDM1_FLT2 | DFSDM1_FLT3 | SDMMC2 | CAN3_TX
  | CAN3_RX0 | CAN3_RX1 | CAN3_SCE | JPEG | MDIOS
deriving DecidableEq, Repr

/-- `g_pfnVectors` from the external interrupts on (startup_stm32f767zitx.s 148-257); `none` for the
entries `0`. -/
def vectors : List (Option Irq) :=
  [some .WWDG, some .PVD, some .TAMP_STAMP, some .RTC_WKUP, some .FLASH, some .RCC, some .EXTI0,
   some .EXTI1, some .EXTI2, some .EXTI3, some .EXTI4, some .DMA1_Stream0, some .DMA1_Stream1,
   some .DMA1_Stream2, some .DMA1_Stream3, some .DMA1_Stream4, some .DMA1_Stream5,
   some .DMA1_Stream6, some .ADC, some .CAN1_TX, some .CAN1_RX0, some .CAN1_RX1, some .CAN1_SCE,
   some .EXTI9_5, some .TIM1_BRK_TIM9, some .TIM1_UP_TIM10, some .TIM1_TRG_COM_TIM11,
   some .TIM1_CC, some .TIM2, some .TIM3, some .TIM4, some .I2C1_EV, some .I2C1_ER,
   some .I2C2_EV, some .I2C2_ER, some .SPI1, some .SPI2, some .USART1, some .USART2,
   some .USART3, some .EXTI15_10, some .RTC_Alarm, some .OTG_FS_WKUP, some .TIM8_BRK_TIM12,
   some .TIM8_UP_TIM13, some .TIM8_TRG_COM_TIM14, some .TIM8_CC, some .DMA1_Stream7, some .FMC,
   some .SDMMC1, some .TIM5, some .SPI3, some .UART4, some .UART5, some .TIM6_DAC, some .TIM7,
   some .DMA2_Stream0, some .DMA2_Stream1, some .DMA2_Stream2, some .DMA2_Stream3,
   some .DMA2_Stream4, some .ETH, some .ETH_WKUP, some .CAN2_TX, some .CAN2_RX0, some .CAN2_RX1,
   some .CAN2_SCE, some .OTG_FS, some .DMA2_Stream5, some .DMA2_Stream6, some .DMA2_Stream7,
   some .USART6, some .I2C3_EV, some .I2C3_ER, some .OTG_HS_EP1_OUT, some .OTG_HS_EP1_IN,
   some .OTG_HS_WKUP, some .OTG_HS, some .DCMI, none, some .RNG, some .FPU, some .UART7,
   some .UART8, some .SPI4, some .SPI5, some .SPI6, some .SAI1, some .LTDC, some .LTDC_ER,
   some .DMA2D, some .SAI2, some .QUADSPI, some .LPTIM1, some .CEC, some .I2C4_EV, some .I2C4_ER,
   some .SPDIF_RX, none, some .DFSDM1_FLT0, some .DFSDM1_FLT1, some .DFSDM1_FLT2,
   some .DFSDM1_FLT3, some .SDMMC2, some .CAN3_TX, some .CAN3_RX0, some .CAN3_RX1,
   some .CAN3_SCE, some .JPEG, some .MDIOS]

/-- `IRQn_Type` (stm32f767xx.h 60-167). -/
def Irq.number : Irq → Nat
  | .WWDG => 0 | .PVD => 1 | .TAMP_STAMP => 2 | .RTC_WKUP => 3 | .FLASH => 4 | .RCC => 5
  | .EXTI0 => 6 | .EXTI1 => 7 | .EXTI2 => 8 | .EXTI3 => 9 | .EXTI4 => 10 | .DMA1_Stream0 => 11
  | .DMA1_Stream1 => 12 | .DMA1_Stream2 => 13 | .DMA1_Stream3 => 14 | .DMA1_Stream4 => 15
  | .DMA1_Stream5 => 16 | .DMA1_Stream6 => 17 | .ADC => 18 | .CAN1_TX => 19 | .CAN1_RX0 => 20
  | .CAN1_RX1 => 21 | .CAN1_SCE => 22 | .EXTI9_5 => 23 | .TIM1_BRK_TIM9 => 24
  | .TIM1_UP_TIM10 => 25 | .TIM1_TRG_COM_TIM11 => 26 | .TIM1_CC => 27 | .TIM2 => 28 | .TIM3 => 29
  | .TIM4 => 30 | .I2C1_EV => 31 | .I2C1_ER => 32 | .I2C2_EV => 33 | .I2C2_ER => 34 | .SPI1 => 35
  | .SPI2 => 36 | .USART1 => 37 | .USART2 => 38 | .USART3 => 39 | .EXTI15_10 => 40
  | .RTC_Alarm => 41 | .OTG_FS_WKUP => 42 | .TIM8_BRK_TIM12 => 43 | .TIM8_UP_TIM13 => 44
  | .TIM8_TRG_COM_TIM14 => 45 | .TIM8_CC => 46 | .DMA1_Stream7 => 47 | .FMC => 48 | .SDMMC1 => 49
  | .TIM5 => 50 | .SPI3 => 51 | .UART4 => 52 | .UART5 => 53 | .TIM6_DAC => 54 | .TIM7 => 55
  | .DMA2_Stream0 => 56 | .DMA2_Stream1 => 57 | .DMA2_Stream2 => 58 | .DMA2_Stream3 => 59
  | .DMA2_Stream4 => 60 | .ETH => 61 | .ETH_WKUP => 62 | .CAN2_TX => 63 | .CAN2_RX0 => 64
  | .CAN2_RX1 => 65 | .CAN2_SCE => 66 | .OTG_FS => 67 | .DMA2_Stream5 => 68 | .DMA2_Stream6 => 69
  | .DMA2_Stream7 => 70 | .USART6 => 71 | .I2C3_EV => 72 | .I2C3_ER => 73 | .OTG_HS_EP1_OUT => 74
  | .OTG_HS_EP1_IN => 75 | .OTG_HS_WKUP => 76 | .OTG_HS => 77 | .DCMI => 78 | .RNG => 80
  | .FPU => 81 | .UART7 => 82 | .UART8 => 83 | .SPI4 => 84 | .SPI5 => 85 | .SPI6 => 86
  | .SAI1 => 87 | .LTDC => 88 | .LTDC_ER => 89 | .DMA2D => 90 | .SAI2 => 91 | .QUADSPI => 92
  | .LPTIM1 => 93 | .CEC => 94 | .I2C4_EV => 95 | .I2C4_ER => 96 | .SPDIF_RX => 97
  | .DFSDM1_FLT0 => 99 | .DFSDM1_FLT1 => 100 | .DFSDM1_FLT2 => 101 | .DFSDM1_FLT3 => 102
  | .SDMMC2 => 103 | .CAN3_TX => 104 | .CAN3_RX0 => 105 | .CAN3_RX1 => 106 | .CAN3_SCE => 107
  | .JPEG => 108 | .MDIOS => 109

/-- The four requests of a bxCAN. startup_stm32f767zitx.s 148-257, e.g. `CAN1_TX`, `CAN1_RX0`, `CAN1_RX1`,
`CAN1_SCE`. -/
inductive CanReq where
  | tx | rx0 | rx1 | sce
deriving DecidableEq, Repr

/-- A device that can ask for an interrupt: a line of EXTI, a DMA stream, a request of a CAN, the
update of a timer, a USART. stm32f7xx_it.c 183-558. -/
inductive Dev where
  | line (n : Nat)
  | stream (s : Board.Stream)
  | can (n : Nat) (r : CanReq)
  | tim (n : Nat)
  | usart (n : Nat)
deriving DecidableEq, Repr

/-- The `DMA_HandleTypeDef` variables (stm32f7xx_it.c 57-71). -/
inductive DmaHandle where
  | adc1 | i2c2_rx | i2c2_tx | usart1_rx | usart1_tx | usart3_rx | usart3_tx | usart6_rx | usart6_tx
deriving DecidableEq, Repr

/-- Their `Instance` (stm32f7xx_hal_msp.c 149, 503, 521, 807, 825, 881, 899, 963, 981). -/
def DmaHandle.instance : DmaHandle → Board.Stream
  | .adc1 => ⟨true, 0⟩
  | .i2c2_tx => ⟨false, 4⟩
  | .i2c2_rx => ⟨false, 2⟩
  | .usart1_rx => ⟨true, 2⟩
  | .usart1_tx => ⟨true, 7⟩
  | .usart3_rx => ⟨false, 1⟩
  | .usart3_tx => ⟨false, 3⟩
  | .usart6_rx => ⟨true, 1⟩
  | .usart6_tx => ⟨true, 6⟩

/-- A call in a handler: the function of the HAL and its argument. The handles `hcan1` to `hcan3`,
`htim1` to `htim3` and `huart1`, `huart3`, `huart6` are given by their number. stm32f7xx_it.c 183-562. -/
inductive Call where
  | gpio (pin : Nat)
  | dma (h : DmaHandle)
  | can (n : Nat)
  | tim (n : Nat)
  | uart (n : Nat)
deriving DecidableEq, Repr

/-- Whether a call looks at a device: `Instance` of the handle (main.c 395, 432, 469, 671, 716, 758,
793, 828, stm32f7xx_hal_timebase_tim.c 64), the line of the pin. `HAL_CAN_IRQHandler` looks at all
requests of its CAN (stm32f7xx_hal_can.c 1718-2090). -/
def Call.serves : Call → Dev → Bool
  | .gpio p, .line n => p == n
  | .dma h, .stream s => h.instance == s
  | .can m, .can n _ => m == n
  | .tim m, .tim n => m == n
  | .uart m, .usart n => m == n
  | _, _ => false

/-- The handlers (stm32f7xx_it.c 183-558); without a definition there, the weak alias of the start-up
file stands for `Default_Handler`, an endless loop (startup_stm32f767zitx.s 112-114): `none`. The pins
are those of main.h 107, 134-145. -/
def body : Irq → Option (List Call)
  | .EXTI4 => some [.gpio 4]
  | .DMA1_Stream1 => some [.dma .usart3_rx]
  | .DMA1_Stream2 => some [.dma .i2c2_rx]
  | .DMA1_Stream3 => some [.dma .usart3_tx]
  | .DMA1_Stream4 => some [.dma .i2c2_tx]
  | .CAN1_TX => some [.can 1]
  | .CAN1_RX0 => some [.can 1]
  | .CAN1_RX1 => some [.can 1]
  | .EXTI9_5 => some [.gpio 9]
  | .TIM1_UP_TIM10 => some [.tim 1]
  | .TIM2 => some [.tim 2]
  | .TIM3 => some [.tim 3]
  | .USART1 => some [.uart 1]
  | .USART3 => some [.uart 3]
  | .EXTI15_10 => some [.gpio 10, .gpio 14, .gpio 15]
  | .DMA2_Stream0 => some [.dma .adc1]
  | .DMA2_Stream1 => some [.dma .usart6_rx]
  | .DMA2_Stream2 => some [.dma .usart1_rx]
  | .CAN2_TX => some [.can 2]
  | .CAN2_RX0 => some [.can 2]
  | .CAN2_RX1 => some [.can 2]
  | .DMA2_Stream6 => some [.dma .usart6_tx]
  | .DMA2_Stream7 => some [.dma .usart1_tx]
  | .USART6 => some [.uart 6]
  | .CAN3_TX => some [.can 3]
  | .CAN3_RX0 => some [.can 3]
  | .CAN3_RX1 => some [.can 3]
  | _ => none

/-- The interrupt controller: `SCB->AIRCR`, the enable bits (written through `ISER` and `ICER`), the
priorities `IP`. core_cm7.h 1865-2084. -/
structure Nvic where
  aircr : BitVec 32
  en : Nat → BitVec 32
  ip : Nat → BitVec 8

/-- Calls of the HAL that change it. stm32f7xx_hal_cortex.c 142-210. -/
inductive Act where
  | grouping (g : BitVec 32)
  | priority (i : Irq) (pre sub : BitVec 32)
  | enable (i : Irq)
  | disable (i : Irq)
deriving DecidableEq, Repr

/-- `__NVIC_GetPriorityGrouping` (core_cm7.h 1884-1887). -/
def prigroup (s : Nvic) : BitVec 32 := (s.aircr &&& 0x700#32) >>> 8

/-- `NVIC_EncodePriority` (core_cm7.h 2071-2084), `__NVIC_PRIO_BITS` 4 (stm32f767xx.h 179). -/
def encode (group pre sub : BitVec 32) : BitVec 32 :=
  let tmp := group &&& 7#32
  let preBits := if 4#32 < 7#32 - tmp then 4#32 else 7#32 - tmp
  let subBits := if tmp + 4#32 < 7#32 then 0#32 else (tmp - 7#32) + 4#32
  ((pre &&& ((1#32 <<< preBits) - 1#32)) <<< subBits) ||| (sub &&& ((1#32 <<< subBits) - 1#32))

/-- The bit of an interrupt in its register (core_cm7.h 1900, 1936). -/
def bit (n : Nat) : BitVec 32 := 1#32 <<< (n % 32)

/-- One call: `HAL_NVIC_SetPriorityGrouping` (stm32f7xx_hal_cortex.c 142-149, core_cm7.h 1865-1876),
`HAL_NVIC_SetPriority` (164-175, core_cm7.h 2024-2034), `HAL_NVIC_EnableIRQ` (186-193, core_cm7.h
1896-1902: a write to `ISER` sets the bits written as one), `HAL_NVIC_DisableIRQ` (core_cm7.h
1932-1940, `ICER` clears them). -/
def step (s : Nvic) : Act → Nvic
  | .grouping g =>
      { s with aircr := (s.aircr &&& ~~~(0xFFFF0700#32)) ||| 0x05FA0000#32 ||| ((g &&& 7#32) <<< 8) }
  | .priority i pre sub =>
      { s with ip := fun n => if n = i.number
          then ((encode (prigroup s) pre sub <<< 4) &&& 0xFF#32).setWidth 8 else s.ip n }
  | .enable i =>
      { s with en := fun r => if r = i.number / 32 then s.en r ||| bit i.number else s.en r }
  | .disable i =>
      { s with en := fun r => if r = i.number / 32 then s.en r &&& ~~~bit i.number else s.en r }

/-- A sequence of calls. stm32f7xx_hal_cortex.c 142-210. -/
def run (s : Nvic) : List Act → Nvic
  | [] => s
  | a :: l => run (step s a) l

/-- `HAL_NVIC_SetPriority` and then `HAL_NVIC_EnableIRQ`, as everywhere in the generated code. E.g. main.c
1030-1031. -/
def prioEnable (i : Irq) (p : BitVec 32) : List Act := [.priority i p 0#32, .enable i]

/-- `HAL_InitTick` (stm32f7xx_hal_timebase_tim.c 86-91), here as called with priority 0
(`TICK_INT_PRIORITY`, stm32f7xx_hal_conf.h 149). -/
def initTick : List Act := [.enable .TIM1_UP_TIM10, .priority .TIM1_UP_TIM10 0#32 0#32]

/-- The calls of `main` before `ECU_Init` (main.c 123-155): `HAL_Init` (stm32f7xx_hal.c 151-154),
`SystemClock_Config` (the tick again, through `HAL_RCC_ClockConfig`), `MX_GPIO_Init` (main.c
1030-1037), the CAN (stm32f7xx_hal_msp.c 254-259, 289-294, 320-325), USART1, USART3, USART6 (843-844,
917-918, 999-1000), `MX_DMA_Init` (main.c 860-885), TIM2 and TIM3 (stm32f7xx_hal_msp.c 703-704,
717-718). -/
def boot : List Act :=
  [.grouping 3#32] ++ initTick ++ initTick ++
  prioEnable .EXTI4 6#32 ++ prioEnable .EXTI9_5 6#32 ++ prioEnable .EXTI15_10 6#32 ++
  prioEnable .CAN1_TX 6#32 ++ prioEnable .CAN1_RX0 6#32 ++ prioEnable .CAN1_RX1 6#32 ++
  prioEnable .CAN2_TX 6#32 ++ prioEnable .CAN2_RX0 6#32 ++ prioEnable .CAN2_RX1 6#32 ++
  prioEnable .CAN3_TX 6#32 ++ prioEnable .CAN3_RX0 6#32 ++ prioEnable .CAN3_RX1 6#32 ++
  prioEnable .USART1 7#32 ++ prioEnable .USART3 7#32 ++ prioEnable .USART6 7#32 ++
  prioEnable .DMA1_Stream1 6#32 ++ prioEnable .DMA1_Stream2 0#32 ++
  prioEnable .DMA1_Stream3 6#32 ++ prioEnable .DMA1_Stream4 0#32 ++
  prioEnable .DMA2_Stream0 6#32 ++ prioEnable .DMA2_Stream1 6#32 ++
  prioEnable .DMA2_Stream2 6#32 ++ prioEnable .DMA2_Stream6 6#32 ++
  prioEnable .DMA2_Stream7 6#32 ++ prioEnable .TIM2 5#32 ++ prioEnable .TIM3 5#32

/-- The interrupts drivers hold back and let through again while running: the transmit streams of the
serial ports (uart.c 241, 259; deviceMapping.c 72, 77, 89) and the stream of the converter (adc.c
150, 176; deviceMapping.h 131). -/
def driverIrqs : List Irq := [.DMA2_Stream7, .DMA1_Stream3, .DMA2_Stream6, .DMA2_Stream0]

/-- Such a call. uart.c 241, 259; adc.c 150, 176. -/
def Act.ofDriver (a : Act) : Prop := ∃ i ∈ driverIrqs, a = .enable i ∨ a = .disable i

end Verif.Vectors
