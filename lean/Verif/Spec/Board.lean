import Verif.Model.Board

set_option autoImplicit false

/-!
# What the pins, interrupt lines and DMA streams are meant to be set to
-/

namespace Verif.Board.Spec

open Verif.Board

/-- The `i`-th field of `w` bits of a register. -/
def field (w : Nat) (x : BitVec 32) (i : Nat) : BitVec w := x.extractLsb' (i * w) w

/-- How a pin is configured (RM0410, GPIO registers). -/
structure Pin where
  mode : BitVec 2
  openDrain : BitVec 1
  speed : BitVec 2
  pull : BitVec 2
  af : BitVec 4
deriving DecidableEq, Repr

def pinOf (s : St) (p : Port) (i : Nat) : Pin where
  mode := field 2 (s.gpio p).moder i
  openDrain := field 1 (s.gpio p).otyper i
  speed := field 2 (s.gpio p).ospeedr i
  pull := field 2 (s.gpio p).pupdr i
  af := field 4 ((s.gpio p).afr (i / 8)) (i % 8)

/-- The level an output pin drives. -/
def level (s : St) (p : Port) (i : Nat) : Bool := (s.gpio p).odr.getLsbD i

/-- The pin is a general-purpose output. -/
def IsOutput (s : St) (p : Port) (i : Nat) : Prop := (pinOf s p i).mode = 1#2

/-- The pin after being asked to become `c`: what does not matter in the new mode is kept. -/
def asked (c : PinInit) (x : Pin) : Pin :=
  let m : BitVec 2 := c.mode.setWidth 2
  { mode := m
    openDrain := if m = 1#2 ∨ m = 2#2 then field 1 c.mode 4 else x.openDrain
    speed := if m = 1#2 ∨ m = 2#2 then c.speed.setWidth 2 else x.speed
    pull := if m = 3#2 then x.pull else c.pull.setWidth 2
    af := if m = 2#2 then c.alternate.setWidth 4 else x.af }

/-- An external interrupt line. -/
structure Line where
  source : BitVec 4
  rising : Bool
  falling : Bool
  event : Bool
  interrupt : Bool
deriving DecidableEq, Repr

def lineOf (s : St) (i : Nat) : Line where
  source := field 4 (s.exticr (i / 4)) (i % 4)
  rising := s.rtsr.getLsbD i
  falling := s.ftsr.getLsbD i
  event := s.emr.getLsbD i
  interrupt := s.imr.getLsbD i

/-- The port's code in `SYSCFG_EXTICR` (RM0410, `SYSCFG_EXTICR1` to `4`, `EXTIx[3:0]`: "0000: PA[x] pin" to
"0111: PH[x] pin"). -/
def portCode : Port → BitVec 4
  | .a => 0b0000#4
  | .b => 0b0001#4
  | .c => 0b0010#4
  | .d => 0b0011#4
  | .e => 0b0100#4
  | .f => 0b0101#4
  | .g => 0b0110#4
  | .h => 0b0111#4

/-- The line after pin `i` of port `p` has been asked to become `c`. -/
def askedLine (p : Port) (c : PinInit) (x : Line) : Line :=
  if c.mode.getLsbD 16 = true ∨ c.mode.getLsbD 17 = true then
    { source := portCode p
      rising := c.mode.getLsbD 20
      falling := c.mode.getLsbD 21
      event := c.mode.getLsbD 17
      interrupt := c.mode.getLsbD 16 }
  else x

/-- Values the fields have room for (`assert_param` in `HAL_GPIO_Init`). -/
def Fits (c : PinInit) : Prop := c.pull.toNat < 4 ∧ c.speed.toNat < 4 ∧ c.alternate.toNat < 16

instance (c : PinInit) : Decidable (Fits c) := by unfold Fits; infer_instance

/-- Every pin a sequence configures exists and is given values that fit. -/
def Valid (prog : List Act) : Prop :=
  ∀ a ∈ prog, match a with
    | .pin _ c i => Fits c ∧ i < 16
    | _ => True

instance (prog : List Act) : Decidable (Valid prog) := by
  unfold Valid
  refine @List.decidableBAll _ _ (fun a => ?_) prog
  cases a <;> simp only <;> infer_instance

/-- What a sequence asks of a pin, in order. -/
def claims (prog : List Act) (p : Port) (i : Nat) : List PinInit :=
  prog.filterMap fun a => match a with
    | .pin q c k => if q = p ∧ k = i then some c else none
    | _ => none

/-- What a sequence asks of line `i`, in order. -/
def lineClaims (prog : List Act) (i : Nat) : List (Port × PinInit) :=
  prog.filterMap fun a => match a with
    | .pin q c k => if k = i then some (q, c) else none
    | _ => none

/-- Nothing is done to a port whose clock is off; `on`: the clocks known to be on. -/
def clocked : List Periph → List Act → Bool
  | _, [] => true
  | on, .clock q :: as => clocked (q :: on) as
  | on, .write p _ _ :: as => decide (.gpio p ∈ on) && clocked on as
  | on, .pin p _ _ :: as => decide (.gpio p ∈ on) && clocked on as
  | on, .dma _ _ :: as => clocked on as

/-- The role a pin has on the board. -/
inductive Role where
  | output
  | input
  | riseInterrupt
  | analog
  /-- alternate function: open drain, pull-up -/
  | alt (n : BitVec 4) (od pullUp : Bool)
deriving DecidableEq, Repr

/-- The pins of the board and what they are for (the schematic's names, main.h 58-150; the
peripherals' pins as in the comments of stm32f7xx_hal_msp.c). -/
def board : List (Port × Nat × Role) :=
  -- power distribution: P_SW1 … P_SW6
  [(.b, 9, .output), (.e, 0, .output), (.e, 1, .output), (.e, 2, .output), (.e, 3, .output),
   (.e, 4, .output),
   -- status LED, debug pin, software error line
   (.a, 12, .output), (.e, 15, .output), (.d, 4, .output),
   -- start button light, IMU address, EEPROM address and write protection
   (.f, 12, .output), (.d, 15, .output), (.g, 4, .output), (.g, 5, .output), (.g, 6, .output),
   (.g, 7, .output),
   -- MPIO_EN1-8, MPIO_OUT1-8
   (.b, 12, .output), (.b, 2, .output), (.e, 10, .output), (.d, 10, .output), (.g, 2, .output),
   (.g, 1, .output), (.f, 13, .output), (.g, 8, .output),
   (.b, 13, .output), (.e, 11, .output), (.e, 8, .output), (.d, 11, .output), (.g, 3, .output),
   (.f, 15, .output), (.f, 11, .output), (.c, 6, .output),
   -- wheel speeds, start button, GPS fix and pulse, inverter error, SD card detect
   (.g, 0, .input), (.e, 7, .input), (.e, 9, .input), (.e, 5, .input), (.e, 6, .input),
   (.f, 14, .input), (.a, 11, .input),
   -- shutdown circuit: BMS, IMD, BSPD, out; IMU
   (.g, 9, .riseInterrupt), (.g, 10, .riseInterrupt), (.g, 15, .riseInterrupt),
   (.b, 4, .riseInterrupt), (.d, 14, .riseInterrupt),
   -- ADC
   (.a, 0, .analog), (.a, 1, .analog), (.a, 2, .analog), (.a, 3, .analog), (.a, 4, .analog),
   (.a, 5, .analog), (.a, 6, .analog), (.a, 7, .analog), (.c, 4, .analog), (.c, 5, .analog),
   (.b, 0, .analog), (.b, 1, .analog),
   -- CAN1, CAN2, CAN3
   (.d, 0, .alt 9 false false), (.d, 1, .alt 9 false false), (.b, 5, .alt 9 false false),
   (.b, 6, .alt 9 false false), (.a, 8, .alt 11 false false), (.a, 15, .alt 11 false false),
   -- I2C4, I2C2
   (.d, 12, .alt 4 true true), (.d, 13, .alt 4 true true), (.f, 0, .alt 4 true true),
   (.f, 1, .alt 4 true true),
   -- USART1, USART3, USART6
   (.a, 9, .alt 7 false true), (.a, 10, .alt 7 false true), (.d, 8, .alt 7 false false),
   (.d, 9, .alt 7 false false), (.c, 7, .alt 8 false false), (.g, 14, .alt 8 false false)]

/-- The pin serves its role. -/
def Serves (x : Pin) : Role → Prop
  | .output => x.mode = 1#2 ∧ x.openDrain = 0#1 ∧ x.pull = 0#2
  | .input => x.mode = 0#2 ∧ x.pull = 0#2
  | .riseInterrupt => x.mode = 0#2 ∧ x.pull = 0#2
  | .analog => x.mode = 3#2
  | .alt n od up => x.mode = 2#2 ∧ x.af = n ∧ x.openDrain = (if od then 1#1 else 0#1) ∧
      x.pull = (if up then 1#2 else 0#2)

/-- The interrupt lines in use and the port each listens to. -/
def lines : List (Nat × Port) := [(4, .b), (9, .g), (10, .g), (14, .d), (15, .g)]

/-- The streams and what they are for: channel, from memory to the peripheral, circular with
halfwords. -/
def streams : List (Stream × Nat × Bool × Bool) :=
  [(⟨true, 0⟩, 0, false, true),                                  -- ADC1
   (⟨true, 2⟩, 4, false, false), (⟨true, 7⟩, 4, true, false),    -- USART1
   (⟨false, 1⟩, 4, false, false), (⟨false, 3⟩, 4, true, false),  -- USART3
   (⟨false, 4⟩, 8, true, false), (⟨false, 2⟩, 7, false, false),  -- I2C2
   (⟨true, 1⟩, 5, false, false), (⟨true, 6⟩, 5, true, false)]    -- USART6

/-- What a stream does according to its control register (RM0410, `DMA_SxCR`). -/
structure Cfg where
  channel : BitVec 4
  direction : BitVec 2
  peripheralInc : Bool
  memoryInc : Bool
  peripheralSize : BitVec 2
  memorySize : BitVec 2
  circular : Bool
  doubleBuffer : Bool
deriving DecidableEq, Repr

def cfgOf (cr : BitVec 32) : Cfg where
  channel := cr.extractLsb' 25 4
  direction := cr.extractLsb' 6 2
  peripheralInc := cr.getLsbD 9
  memoryInc := cr.getLsbD 10
  peripheralSize := cr.extractLsb' 11 2
  memorySize := cr.extractLsb' 13 2
  circular := cr.getLsbD 8
  doubleBuffer := cr.getLsbD 18

/-- The configuration a stream needs. -/
def needs : Nat × Bool × Bool → Cfg
  | (ch, toPeriph, half) =>
    { channel := BitVec.ofNat 4 ch
      direction := if toPeriph then 1 else 0
      peripheralInc := false
      memoryInc := true
      peripheralSize := if half then 1 else 0
      memorySize := if half then 1 else 0
      circular := half
      doubleBuffer := false }

end Verif.Board.Spec
