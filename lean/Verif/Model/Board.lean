import Verif.C.Basic

set_option autoImplicit false

/-!
# Setting up pins and DMA streams (main.c, stm32f7xx_hal_msp.c, stm32f7xx_hal_gpio.c, stm32f7xx_hal_dma.c)

What `main` does with the GPIO, EXTI and DMA registers between reset and `ECU_Init` (main.c
115-165; paths relative to `/repo/firmware/src/cube-proj/Core/Src`, the HAL in
`Drivers/STM32F7xx_HAL_Driver/Src`).  A register of a peripheral whose clock is off in
`RCC->AHB1ENR`/`APB2ENR` reads as zero and ignores writes (RM0410, peripheral clock enable).

Simplifications: registers not written by these functions are left out; a stream that is told to
stop stops at once (none is running during start-up), so that `HAL_DMA_Init` never times out; FIFO
mode, which no stream uses, is left out; the other peripherals' own initialisation succeeds.
-/

namespace Verif.Board

/-- GPIO ports in use (main.c 899-906). -/
inductive Port where
  | a | b | c | d | e | f | g | h
deriving DecidableEq, Repr

/-- `GPIO_GET_INDEX` (stm32f7xx_hal_gpio_ex.h 398-407). -/
def Port.index : Port → Nat
  | .a => 0 | .b => 1 | .c => 2 | .d => 3 | .e => 4 | .f => 5 | .g => 6 | .h => 7

/-- Peripherals with a clock enable bit of their own (`RCC->AHB1ENR`, `RCC->APB2ENR`;
stm32f7xx_hal_rcc_ex.h). -/
inductive Periph where
  | gpio (p : Port)
  | dma1
  | dma2
  | syscfg
deriving DecidableEq, Repr

/-- A DMA stream: controller and number (`DMA1_Stream0`…, stm32f767xx.h). -/
structure Stream where
  second : Bool
  num : Nat
deriving DecidableEq, Repr

/-- The controller's clock (main.c 855-856). -/
def Stream.periph (s : Stream) : Periph := if s.second then .dma2 else .dma1

/-- Registers of a port (`GPIO_TypeDef`, stm32f767xx.h). -/
structure Gpio where
  moder : BitVec 32
  otyper : BitVec 32
  ospeedr : BitVec 32
  pupdr : BitVec 32
  odr : BitVec 32
  afr : Nat → BitVec 32

/-- Clocks and registers (`RCC_TypeDef`, `SYSCFG_TypeDef`, `EXTI_TypeDef`, `DMA_Stream_TypeDef`,
stm32f767xx.h). -/
structure St where
  clk : Periph → Bool
  gpio : Port → Gpio
  exticr : Nat → BitVec 32
  rtsr : BitVec 32
  ftsr : BitVec 32
  emr : BitVec 32
  imr : BitVec 32
  cr : Stream → BitVec 32
  fcr : Stream → BitVec 32

/-- The read-modify-write the HAL uses for a field of `w` bits (stm32f7xx_hal_gpio.c 191-194):
`temp &= ~(mask << (position * w)); temp |= (value << (position * w))`. -/
def setField (w mask : Nat) (x : BitVec 32) (i : Nat) (v : BitVec 32) : BitVec 32 :=
  (x &&& ~~~ (BitVec.ofNat 32 mask <<< (i * w))) ||| (v <<< (i * w))

/-- `temp &= ~iocurrent; if (on) temp |= iocurrent` (stm32f7xx_hal_gpio.c 247-253). -/
def setBit (x : BitVec 32) (i : Nat) (on : Bool) : BitVec 32 :=
  let y := x &&& ~~~ (1#32 <<< i)
  if on then y ||| (1#32 <<< i) else y

/-- `GPIO_InitTypeDef`; `mode` with the encoding of stm32f7xx_hal_gpio.h 117-131, 254-270. -/
structure PinInit where
  pins : BitVec 16
  mode : BitVec 32
  pull : BitVec 32
  speed : BitVec 32
  alternate : BitVec 32
deriving DecidableEq, Repr

/-- Output or alternate function (stm32f7xx_hal_gpio.c 186). -/
def PinInit.drives (c : PinInit) : Bool := c.mode &&& 3#32 = 1#32 ∨ c.mode &&& 3#32 = 2#32

/-- The port registers after one round of the loop of `HAL_GPIO_Init` (stm32f7xx_hal_gpio.c
184-232).  `MODER` comes last, and is the only one of them that can make the pin an output. -/
def portPos (g : Gpio) (c : PinInit) (i : Nat) : Gpio :=
  let g := if c.drives then
      { g with
        ospeedr := setField 2 3 g.ospeedr i c.speed
        otyper := setField 1 1 g.otyper i ((c.mode &&& 0x10#32) >>> 4) }
    else g
  let g := if c.mode &&& 3#32 ≠ 3#32 then { g with pupdr := setField 2 3 g.pupdr i c.pull } else g
  let g := if c.mode &&& 3#32 = 2#32 then
      { g with afr := fun k =>
          if k = i / 8 then setField 4 15 (g.afr (i / 8)) (i % 8) c.alternate else g.afr k }
    else g
  { g with moder := setField 2 3 g.moder i (c.mode &&& 3#32) }

/-- The interrupt registers after the same round (stm32f7xx_hal_gpio.c 234-279). -/
def extiPos (s : St) (p : Port) (c : PinInit) (i : Nat) : St :=
  if c.mode &&& 0x30000#32 ≠ 0#32 then
    { s with
      clk := fun q => if q = .syscfg then true else s.clk q
      exticr := fun k =>
        if k = i / 4 then setField 4 15 (s.exticr (i / 4)) (i % 4) (BitVec.ofNat 32 p.index)
        else s.exticr k
      rtsr := setBit s.rtsr i (c.mode &&& 0x100000#32 ≠ 0#32)
      ftsr := setBit s.ftsr i (c.mode &&& 0x200000#32 ≠ 0#32)
      emr := setBit s.emr i (c.mode &&& 0x20000#32 ≠ 0#32)
      imr := setBit s.imr i (c.mode &&& 0x10000#32 ≠ 0#32) }
  else s

/-- `DMA_InitTypeDef` without the FIFO fields (stm32f7xx_hal_dma.h 48-100). -/
structure DmaInit where
  channel : BitVec 32
  direction : BitVec 32
  periphInc : BitVec 32
  memInc : BitVec 32
  periphSize : BitVec 32
  memSize : BitVec 32
  mode : BitVec 32
  priority : BitVec 32
deriving DecidableEq, Repr

/-- `CHSEL | MBURST | PBURST | PL | MSIZE | PSIZE | MINC | PINC | CIRC | DIR | CT | DBM`
(stm32f7xx_hal_dma.c 233-236; stm32f767xx.h 6549-6600). -/
def crConfig : BitVec 32 := 0x1FEF7FC0#32

/-- The bits `HAL_DMA_Init` puts together (stm32f7xx_hal_dma.c 239-242). -/
def DmaInit.bits (d : DmaInit) : BitVec 32 :=
  d.channel ||| d.direction ||| d.periphInc ||| d.memInc ||| d.periphSize ||| d.memSize ||| d.mode |||
    d.priority

/-- What one call does, in the order of the register accesses. Each constructor names the function; they are called
from main.c 137-151. -/
inductive Act where
  /-- `__HAL_RCC_…_CLK_ENABLE` -/
  | clock (q : Periph)
  /-- `HAL_GPIO_WritePin` (stm32f7xx_hal_gpio.c 404-418) -/
  | write (p : Port) (pins : BitVec 16) (on : Bool)
  /-- the round of `HAL_GPIO_Init` for pin `i` -/
  | pin (p : Port) (c : PinInit) (i : Nat)
  /-- `HAL_DMA_Init` (stm32f7xx_hal_dma.c 171-303) -/
  | dma (st : Stream) (d : DmaInit)
deriving DecidableEq, Repr

/-- A write to `BSRR`: the low half sets, the high half clears, setting wins (RM0410). Written by stm32f7xx_hal_gpio.c 412, 416. -/
def bsrr (odr v : BitVec 32) : BitVec 32 :=
  (odr &&& ~~~ (v >>> 16)) ||| (v &&& 0xFFFF#32)

/-- `HAL_GPIO_WritePin` on the output register (stm32f7xx_hal_gpio.c 410-417). -/
def writePin (odr : BitVec 32) (pins : BitVec 16) (on : Bool) : BitVec 32 :=
  if on then bsrr odr (pins.zeroExtend 32) else bsrr odr (pins.zeroExtend 32 <<< 16)

/-- `HAL_GPIO_TogglePin` (stm32f7xx_hal_gpio.c 426-438). -/
def togglePin (odr : BitVec 32) (pins : BitVec 16) : BitVec 32 :=
  bsrr odr (((odr &&& pins.zeroExtend 32) <<< 16) ||| (~~~ odr &&& pins.zeroExtend 32))

/-- `HAL_GPIO_ReadPin` on the input register (stm32f7xx_hal_gpio.c 370-386). -/
def readPin (idr : BitVec 32) (pins : BitVec 16) : Bool := idr &&& pins.zeroExtend 32 ≠ 0#32

/-- The effect of one step on the registers (citations at `Act`): nothing when the peripheral's clock
is off. main.c 137-151 and the functions called there. -/
def step (s : St) : Act → St
  | .clock q => { s with clk := fun r => if r = q then true else s.clk r }
  | .write p pins on =>
      if s.clk (.gpio p) then
        { s with gpio := fun q =>
            if q = p then { s.gpio p with odr := writePin (s.gpio p).odr pins on } else s.gpio q }
      else s
  | .pin p c i =>
      let s := if s.clk (.gpio p) then
          { s with gpio := fun q => if q = p then portPos (s.gpio p) c i else s.gpio q }
        else s
      extiPos s p c i
  | .dma st d =>
      if s.clk st.periph then
        { s with
          cr := fun k =>
            if k = st then ((s.cr st &&& ~~~ 1#32) &&& ~~~ crConfig) ||| d.bits else s.cr k
          fcr := fun k => if k = st then s.fcr st &&& ~~~ 7#32 else s.fcr k }
      else s

/-- Steps one after the other (main.c 137-151). -/
def run (s : St) : List Act → St
  | [] => s
  | a :: as => run (step s a) as

/-- `HAL_GPIO_Init` (stm32f7xx_hal_gpio.c 162-282): a round for every pin in the mask. -/
def gpioInit (p : Port) (c : PinInit) : List Act :=
  ((List.range 16).filter (fun i => c.pins.getLsbD i)).map (fun i => .pin p c i)

/-- Pin masks (main.h 58-150), by number. -/
def mask (l : List Nat) : BitVec 16 := l.foldl (fun m i => m ||| (1#16 <<< i)) 0#16

/-- `GPIO_MODE_OUTPUT_PP`, no pull, low speed (e.g. main.c 938-941). -/
def output (l : List Nat) : PinInit := ⟨mask l, 1#32, 0#32, 0#32, 0#32⟩
/-- `GPIO_MODE_INPUT`, no pull (e.g. main.c 945-947). The structure keeps the speed of the previous call, which is not
used. -/
def input (l : List Nat) : PinInit := ⟨mask l, 0#32, 0#32, 0#32, 0#32⟩
/-- `GPIO_MODE_IT_RISING`, no pull (e.g. main.c 1018-1020). -/
def rising (l : List Nat) : PinInit := ⟨mask l, 0x110000#32, 0#32, 0#32, 0#32⟩
/-- `GPIO_MODE_ANALOG`, no pull (e.g. stm32f7xx_hal_msp.c 133-134). -/
def analog (l : List Nat) : PinInit := ⟨mask l, 3#32, 0#32, 0#32, 0#32⟩
/-- `GPIO_MODE_AF_PP`, very high speed (e.g. stm32f7xx_hal_msp.c 246-250). -/
def altPP (l : List Nat) (pull af : BitVec 32) : PinInit := ⟨mask l, 2#32, pull, 3#32, af⟩
/-- `GPIO_MODE_AF_OD` with pull-up, very high speed (stm32f7xx_hal_msp.c 491-495, 562-566). -/
def altOD (l : List Nat) (af : BitVec 32) : PinInit := ⟨mask l, 0x12#32, 1#32, 3#32, af⟩

/-- `MX_GPIO_Init` (main.c 894-1039). -/
def mxGpio : List Act :=
  [.clock (.gpio .e), .clock (.gpio .c), .clock (.gpio .f), .clock (.gpio .h), .clock (.gpio .a),
   .clock (.gpio .b), .clock (.gpio .g), .clock (.gpio .d),
   .write .e (mask [2, 3, 4, 8, 10, 11, 15, 0, 1]) false,
   .write .b (mask [2, 12, 13, 9]) false,
   .write .f (mask [11, 12, 13, 15]) false,
   .write .g (mask [1, 2, 3, 4, 5, 6, 7, 8]) false,
   .write .d (mask [10, 11, 15, 4]) false,
   .write .c (mask [6]) false,
   .write .a (mask [12]) false] ++
  gpioInit .e (output [2, 3, 4, 8, 10, 11, 15, 0, 1]) ++
  gpioInit .e (input [5, 6, 7, 9]) ++
  gpioInit .b (output [2, 12, 13, 9]) ++
  gpioInit .f (output [11, 12, 13, 15]) ++
  gpioInit .f (input [14]) ++
  gpioInit .g (input [0]) ++
  gpioInit .g (output [1, 2, 3, 4, 5, 6, 7, 8]) ++
  gpioInit .d (output [10, 11, 15, 4]) ++
  gpioInit .d (rising [14]) ++
  gpioInit .c (output [6]) ++
  gpioInit .a (input [11]) ++
  gpioInit .a (output [12]) ++
  gpioInit .g (rising [9, 10, 15]) ++
  gpioInit .b (rising [4])

/-- Peripheral to memory, bytes, memory address counting, not circular (e.g. stm32f7xx_hal_msp.c
807-816). -/
def rx (channel : BitVec 32) : DmaInit :=
  ⟨channel, 0#32, 0#32, 0x400#32, 0#32, 0#32, 0#32, 0#32⟩
/-- Memory to peripheral, bytes, memory address counting, not circular (e.g. stm32f7xx_hal_msp.c
825-834). -/
def tx (channel : BitVec 32) : DmaInit :=
  ⟨channel, 0x40#32, 0#32, 0x400#32, 0#32, 0#32, 0#32, 0#32⟩

/-- `hdma_adc1.Init` (stm32f7xx_hal_msp.c 149-158): halfwords, circular. -/
def adcDma : DmaInit := ⟨0#32, 0#32, 0#32, 0x400#32, 0x800#32, 0x2000#32, 0x100#32, 0#32⟩
/-- `HAL_ADC_MspInit` (stm32f7xx_hal_msp.c 103-166). -/
def mxAdc : List Act :=
  [.clock (.gpio .a), .clock (.gpio .c), .clock (.gpio .b)] ++
  gpioInit .a (analog [0, 1, 2, 3, 4, 5, 6, 7]) ++ gpioInit .c (analog [4, 5]) ++
  gpioInit .b (analog [0, 1]) ++ [.dma ⟨true, 0⟩ adcDma]

/-- `HAL_CAN_MspInit` (stm32f7xx_hal_msp.c 227-330) for the three buses. -/
def mxCan : List Act :=
  [.clock (.gpio .d)] ++ gpioInit .d (altPP [0, 1] 0#32 9#32) ++
  [.clock (.gpio .b)] ++ gpioInit .b (altPP [5, 6] 0#32 9#32) ++
  [.clock (.gpio .a)] ++ gpioInit .a (altPP [8, 15] 0#32 11#32)

/-- `HAL_I2C_MspInit` for I2C4 (stm32f7xx_hal_msp.c 553-567). -/
def mxI2c4 : List Act := [.clock (.gpio .d)] ++ gpioInit .d (altOD [12, 13] 4#32)

/-- `HAL_UART_MspInit` for USART1 (stm32f7xx_hal_msp.c 787-840). -/
def mxUsart1 : List Act :=
  [.clock (.gpio .a)] ++ gpioInit .a (altPP [9, 10] 1#32 7#32) ++
  [.dma ⟨true, 2⟩ (rx 0x08000000#32), .dma ⟨true, 7⟩ (tx 0x08000000#32)]

/-- `HAL_UART_MspInit` for USART3 (stm32f7xx_hal_msp.c 861-914). -/
def mxUsart3 : List Act :=
  [.clock (.gpio .d)] ++ gpioInit .d (altPP [8, 9] 0#32 7#32) ++
  [.dma ⟨false, 1⟩ (rx 0x08000000#32), .dma ⟨false, 3⟩ (tx 0x08000000#32)]

/-- `HAL_I2C_MspInit` for I2C2 (stm32f7xx_hal_msp.c 480-536). -/
def mxI2c2 : List Act :=
  [.clock (.gpio .f)] ++ gpioInit .f (altOD [0, 1] 4#32) ++
  [.dma ⟨false, 4⟩ (tx 0x10000000#32), .dma ⟨false, 2⟩ (rx 0x0E000000#32)]

/-- `HAL_UART_MspInit` for USART6 (stm32f7xx_hal_msp.c 935-996). -/
def mxUsart6 : List Act :=
  [.clock (.gpio .c), .clock (.gpio .g)] ++ gpioInit .c (altPP [7] 0#32 8#32) ++
  gpioInit .g (altPP [14] 0#32 8#32) ++
  [.dma ⟨true, 1⟩ (rx 0x0A000000#32), .dma ⟨true, 6⟩ (tx 0x0A000000#32)]

/-- `MX_DMA_Init` (main.c 851-887). -/
def mxDma : List Act := [.clock .dma2, .clock .dma1]

/-- `main` from `MX_GPIO_Init` to `MX_TIM3_Init` (main.c 137-151). -/
def shipped : List Act :=
  mxGpio ++ mxAdc ++ mxCan ++ mxI2c4 ++ mxUsart1 ++ mxUsart3 ++ mxI2c2 ++ mxUsart6 ++ mxDma

/-- The same calls with `MX_DMA_Init` before the peripherals that use DMA: not what main.c 137-151
does, but what it would have to do. -/
def reordered : List Act :=
  mxGpio ++ mxDma ++ mxAdc ++ mxCan ++ mxI2c4 ++ mxUsart1 ++ mxUsart3 ++ mxI2c2 ++ mxUsart6

/-- `HAL_DMA_Start_IT` on the stream's control register (stm32f7xx_hal_dma.c 453-502, 1158-1184),
`half`: the driver has a callback for half transfers. -/
def startIt (s : St) (st : Stream) (half : Bool) : St :=
  if s.clk st.periph then
    let v := (s.cr st &&& ~~~ 0x40000#32) ||| 0x16#32
    let v := if half then v ||| 8#32 else v
    { s with cr := fun k => if k = st then v ||| 1#32 else s.cr k }
  else s

/-- What `HAL_DMA_Init` reports (stm32f7xx_hal_dma.c 211-227, 302): success once the enable bit reads
as zero after having been cleared. -/
def dmaInitOk (s : St) (st : Stream) : Bool :=
  let read (v : BitVec 32) : BitVec 32 := if s.clk st.periph then v else 0#32
  read (s.cr st &&& ~~~ 1#32) &&& 1#32 = 0#32

end Verif.Board
