import Verif.Model.Board

set_option autoImplicit false

/-!
# The registers of the analogue-to-digital converter: cube-proj/Core/Src/main.c 234-378 and the vendor
driver's stm32f7xx_hal_adc.c

Positions of the fields: stm32f767xx.h 1667-2196.  Parameters the vendor driver takes already shifted to their
place (resolution, prescaler, alignment, trigger) are given unshifted here.  The handle's lock, state and error
code, and the waiting loops, are left out.
-/

namespace Verif.AdcRegs

open Verif.Board (setField)

/-- The registers of ADC1 that decide what is converted, and the common control register
(stm32f767xx.h 1667-2196). -/
structure Regs where
  cr1 : BitVec 32
  cr2 : BitVec 32
  smpr1 : BitVec 32
  smpr2 : BitVec 32
  sqr1 : BitVec 32
  sqr2 : BitVec 32
  sqr3 : BitVec 32
  ccr : BitVec 32
deriving DecidableEq, Repr

/-- `ADC_InitTypeDef` (main.c 248-259). `trigger`: source and edge of an external trigger, none for
`ADC_SOFTWARE_START`; `disc`: the number of conversions per trigger of the discontinuous mode, none if off. -/
structure Init where
  prescaler : BitVec 32
  scan : Bool
  resolution : BitVec 32
  alignLeft : Bool
  trigger : Option (BitVec 32 × BitVec 32)
  cont : Bool
  disc : Option (BitVec 32)
  conversions : BitVec 32
  dmaCont : Bool
  eocSingle : Bool

/-- `ENABLE`/`DISABLE` as a number (main.c 250-259; stm32f7xx_hal_adc.h 885-921). -/
def flag (b : Bool) : BitVec 32 := if b then 1#32 else 0#32

/-- `ADC_Init` (stm32f7xx_hal_adc.c 1917-1990). -/
def adcInit (r : Regs) (a : Init) : Regs :=
  let ccr := setField 2 3 r.ccr 8 a.prescaler
  let cr1 := setField 1 1 r.cr1 8 (flag a.scan)
  let cr1 := setField 2 3 cr1 12 a.resolution
  let cr2 := setField 1 1 r.cr2 11 (flag a.alignLeft)
  let cr2 := match a.trigger with
    | some (sel, edge) => setField 2 3 (setField 4 15 cr2 6 sel) 14 edge
    | none => (cr2 &&& ~~~ 0x0F000000#32) &&& ~~~ 0x30000000#32
  let cr2 := setField 1 1 cr2 1 (flag a.cont)
  let cr1 := match a.disc with
    | some n => ((cr1 ||| 0x800#32) &&& ~~~ 0xE000#32) ||| ((n - 1#32) <<< 13)
    | none => cr1 &&& ~~~ 0x800#32
  let sqr1 := setField 4 15 r.sqr1 5 (a.conversions - 1#32)
  let cr2 := setField 1 1 cr2 9 (flag a.dmaCont)
  let cr2 := setField 1 1 cr2 10 (flag a.eocSingle)
  { r with ccr := ccr, cr1 := cr1, cr2 := cr2, sqr1 := sqr1 }

/-- `ADC_ChannelConfTypeDef` (main.c 268-377): one call of `HAL_ADC_ConfigChannel`. -/
structure Call where
  channel : Nat
  rank : Nat
  time : BitVec 32
deriving DecidableEq, Repr

/-- `HAL_ADC_ConfigChannel` for ADC1 (stm32f7xx_hal_adc.c 1670-1779, macros stm32f7xx_hal_adc.h 853-883). The
temperature sensor, whose channel code has a further bit, is left out: no call asks for it. Channel 18 is the
battery (1743-1750), 17 the reference (1753-1770). -/
def configChannel (r : Regs) (c : Call) : Regs :=
  let ch := BitVec.ofNat 32 c.channel
  let r := if 9 < c.channel then { r with smpr1 := setField 3 7 r.smpr1 (c.channel - 10) c.time }
    else { r with smpr2 := setField 3 7 r.smpr2 c.channel c.time }
  let r := if c.rank < 7 then { r with sqr3 := setField 5 31 r.sqr3 (c.rank - 1) ch }
    else if c.rank < 13 then { r with sqr2 := setField 5 31 r.sqr2 (c.rank - 7) ch }
    else { r with sqr1 := setField 5 31 r.sqr1 (c.rank - 13) ch }
  if c.channel = 18 then { r with ccr := (r.ccr &&& ~~~ 0x00800000#32) ||| 0x00400000#32 }
  else if c.channel = 17 then { r with ccr := (r.ccr &&& ~~~ 0x00400000#32) ||| 0x00800000#32 }
  else r

/-- Several calls one after the other (main.c 266-377). -/
def configChannels (r : Regs) (l : List Call) : Regs := l.foldl configChannel r

/-- `hadc1.Init` (main.c 248-259). -/
def shippedInit : Init where
  prescaler := 3#32
  scan := true
  resolution := 0#32
  alignLeft := false
  trigger := none
  cont := true
  disc := none
  conversions := 12#32
  dmaCont := false
  eocSingle := true

/-- The twelve calls (main.c 266-377); the sampling time is set once and kept in `sConfig`. -/
def shippedCalls : List Call :=
  [⟨0, 1, 7#32⟩, ⟨1, 2, 7#32⟩, ⟨2, 3, 7#32⟩, ⟨3, 4, 7#32⟩, ⟨4, 5, 7#32⟩, ⟨5, 6, 7#32⟩, ⟨6, 7, 7#32⟩,
   ⟨7, 8, 7#32⟩, ⟨8, 9, 7#32⟩, ⟨9, 10, 7#32⟩, ⟨14, 11, 7#32⟩, ⟨15, 12, 7#32⟩]

/-- `MX_ADC1_Init` (main.c 234-378). -/
def mxAdc1 (r : Regs) : Regs := configChannels (adcInit r shippedInit) shippedCalls

/-- `HAL_ADC_Start_DMA` for ADC1 (stm32f7xx_hal_adc.c 1375-1505); the enable bit reads back as written. Both
branches on the multimode bits (1465-1490) start ADC1. -/
def startDma (r : Regs) : Regs :=
  let cr2 := if r.cr2 &&& 1#32 ≠ 1#32 then r.cr2 ||| 1#32 else r.cr2
  let cr1 := r.cr1 ||| 0x04000000#32
  let cr2 := cr2 ||| 0x100#32
  let cr2 := if cr2 &&& 0x30000000#32 = 0#32 then cr2 ||| 0x40000000#32 else cr2
  { r with cr1 := cr1, cr2 := cr2 }

end Verif.AdcRegs
