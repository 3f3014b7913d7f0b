import Verif.C.Basic

set_option autoImplicit false

/-!
# Acceptance filters of the CAN peripherals

`CAN_Config` (system-lib/can/can.c 217-273) and the vendor functions it calls
(`HAL_CAN_ConfigFilter`, `HAL_CAN_Start`, `HAL_CAN_ActivateNotification`;
cube-proj/Drivers/STM32F7xx_HAL_Driver/Src/stm32f7xx_hal_can.c 839-994, 1033-1076, 1654-1680), down to the
filter registers. CAN1 and CAN2 share one set of 28 filter banks, CAN3 has its own.

Hardware facts used (STM32F76x reference manual, bxCAN, identifier filtering): a bank takes part when its
bit in FA1R is set; bank numbers below the field CAN2SB of FMR belong to CAN1, the others to CAN2; while
FINIT is set nothing is received; FS1R, FM1R and FFA1R hold each bank's scale, mode and FIFO; a frame
that passes no bank is discarded. Reset values: FMR is 0x2A1C0E01, the other four registers are 0; the
bank registers FR1 and FR2 hold arbitrary values.

Not modelled: clocks and pins of the peripherals, the time the vendor code waits for the hardware's
acknowledgement (its outcome is an input).
-/

namespace Verif.CanFilter

/-- The three peripherals; also `CAN_Device_T` (system-lib/can/can.h 20-25), in order. -/
inductive Dev where
  | can1
  | can2
  | can3
deriving DecidableEq

/-- Numeric value of `CAN_Device_T` (can.h 20-25). -/
def Dev.num : Dev → Nat
  | .can1 => 0
  | .can2 => 1
  | .can3 => 2

/-- Filter registers of one set of banks: FMR, FM1R, FS1R, FFA1R, FA1R and `sFilterRegister[].FR1/FR2`
(Drivers/CMSIS/Device/ST/STM32F7xx/Include/stm32f767xx.h, `CAN_TypeDef`). -/
structure Banks where
  fmr : BitVec 32
  fm1r : BitVec 32
  fs1r : BitVec 32
  ffa1r : BitVec 32
  fa1r : BitVec 32
  fr1 : Nat → BitVec 32
  fr2 : Nat → BitVec 32

/-- `hcan->State` (stm32f7xx_hal_can.h, `HAL_CAN_StateTypeDef`), the states that occur. -/
inductive HalState where
  | reset
  | ready
  | listening
  | error
deriving DecidableEq

/-- The filter banks of CAN1/CAN2 and of CAN3; per peripheral the driver state of its handle, whether it
left initialisation mode, and whether FMPIE0 is set in IER. stm32f7xx_hal_can.c 839-985, 1033-1077, 1654-1678. -/
structure St where
  dual : Banks
  single : Banks
  hal : Dev → HalState
  started : Dev → Bool
  fmpie0 : Dev → Bool

/-- `CAN_FilterTypeDef` (stm32f7xx_hal_can.h 101-150). `list` is `FilterMode`, `wide` is `FilterScale`,
`fifo1` is `FilterFIFOAssignment`, `enable` is `FilterActivation`. -/
structure FilterConfig where
  idHigh : BitVec 32
  idLow : BitVec 32
  maskHigh : BitVec 32
  maskLow : BitVec 32
  fifo1 : Bool
  bank : Nat
  list : Bool
  wide : Bool
  enable : Bool
  slaveStart : Nat

/-- `CAN_FMR_FINIT` (stm32f767xx.h 2754). -/
def finit : BitVec 32 := 1#32
/-- `CAN_FMR_CAN2SB` (stm32f767xx.h 2755-2757). -/
def can2sb : BitVec 32 := 0x3F00#32

/-- `SET_BIT` (CMSIS stm32f7xx.h). -/
def setBit (r m : BitVec 32) : BitVec 32 := r ||| m
/-- `CLEAR_BIT` (CMSIS stm32f7xx.h). -/
def clearBit (r m : BitVec 32) : BitVec 32 := r &&& ~~~m

/-- Two half words, `((0x0000FFFFU & hi) << 16U) | (0x0000FFFFU & lo)` (stm32f7xx_hal_can.c 924-948). -/
def halves (hi lo : BitVec 32) : BitVec 32 := ((0xFFFF#32 &&& hi) <<< 16) ||| (0xFFFF#32 &&& lo)

/-- A point update. For the assignments to `sFilterRegister[bank]`, stm32f7xx_hal_can.c 924-946. -/
def upd {α β : Type} [DecidableEq α] (g : α → β) (a : α) (v : β) : α → β :=
  fun b => if b = a then v else g b

/-- The register writes of `HAL_CAN_ConfigFilter` (stm32f7xx_hal_can.c 892-982). `shared` tells that the
banks are those of CAN1 (line 897). -/
def writeFilter (shared : Bool) (c : FilterConfig) (b : Banks) : Banks :=
  let fmr := setBit b.fmr finit
  let fmr := if shared then setBit (clearBit fmr can2sb) (BitVec.ofNat 32 c.slaveStart <<< 8) else fmr
  let pos := 1#32 <<< (c.bank % 32)
  { fmr := clearBit fmr finit
    fs1r := if c.wide then setBit b.fs1r pos else clearBit b.fs1r pos
    fr1 := upd b.fr1 c.bank (if c.wide then halves c.idHigh c.idLow else halves c.maskLow c.idLow)
    fr2 := upd b.fr2 c.bank (if c.wide then halves c.maskHigh c.maskLow else halves c.maskHigh c.idHigh)
    fm1r := if c.list then setBit b.fm1r pos else clearBit b.fm1r pos
    ffa1r := if c.fifo1 then setBit b.ffa1r pos else clearBit b.ffa1r pos
    fa1r := if c.enable then setBit (clearBit b.fa1r pos) pos else clearBit b.fa1r pos }

/-- `state == HAL_CAN_STATE_READY || state == HAL_CAN_STATE_LISTENING` (stm32f7xx_hal_can.c 845-846). -/
def HalState.usable : HalState → Bool
  | .ready => true
  | .listening => true
  | .reset => false
  | .error => false

/-- `HAL_CAN_ConfigFilter` (stm32f7xx_hal_can.c 839-994): `none` is HAL_ERROR. CAN1 and CAN2 write the
banks of CAN1 (line 871). -/
def configFilter (d : Dev) (c : FilterConfig) (s : St) : Option St :=
  if (s.hal d).usable then
    match d with
    | .can3 => some { s with single := writeFilter false c s.single }
    | _ => some { s with dual := writeFilter true c s.dual }
  else none

/-- `HAL_CAN_Start` (stm32f7xx_hal_can.c 1033-1076). `ack`: the hardware acknowledges in time. -/
def start (d : Dev) (ack : Bool) (s : St) : St × Bool :=
  if s.hal d = .ready then
    if ack then ({ s with hal := upd s.hal d .listening, started := upd s.started d true }, true)
    else ({ s with hal := upd s.hal d .error }, false)
  else (s, false)

/-- `HAL_CAN_ActivateNotification(handle, CAN_IT_RX_FIFO0_MSG_PENDING)` (stm32f7xx_hal_can.c 1654-1680). -/
def notifyRx (d : Dev) (s : St) : St × Bool :=
  if (s.hal d).usable then ({ s with fmpie0 := upd s.fmpie0 d true }, true) else (s, false)

/-- The filter of `CAN_Config` (can.c 246-256). -/
def filterOf (d : Dev) : FilterConfig where
  idHigh := 0
  idLow := 0
  maskHigh := 0
  maskLow := 0
  fifo1 := false
  bank := d.num
  list := false
  wide := true
  enable := true
  slaveStart := d.num

/-- `CAN_Config(device, handle)` for the handle of the same peripheral (can.c 217-273; the start-up code
passes matching arguments, vcu/startup/initialize.c 299-301 with deviceMapping.h 126-128), without the log
text and the dependency check. The Boolean is "returned CAN_STATUS_OK". -/
def config (d : Dev) (ack : Bool) (s : St) : St × Bool :=
  match configFilter d (filterOf d) s with
  | none => (s, false)
  | some s =>
    match start d ack s with
    | (s, false) => (s, false)
    | (s, true) => notifyRx d s

/-- Filter registers after reset, with arbitrary bank registers. stm32f767xx.h, `CAN_TypeDef`; HAL_CAN_Init
(stm32f7xx_hal_can.c 274-450) leaves them. -/
def Banks.reset (fr1 fr2 : Nat → BitVec 32) : Banks where
  fmr := 0x2A1C0E01#32
  fm1r := 0
  fs1r := 0
  ffa1r := 0
  fa1r := 0
  fr1 := fr1
  fr2 := fr2

/-- After `MX_CAN1_Init`, `MX_CAN2_Init`, `MX_CAN3_Init` (cube-proj/Core/Src/main.c 139-141, 385-489;
`HAL_CAN_Init`, stm32f7xx_hal_can.c 274-450, leaves the filters alone and ends in state READY). -/
def boot (a b c d : Nat → BitVec 32) : St where
  dual := .reset a b
  single := .reset c d
  hal := fun _ => .ready
  started := fun _ => false
  fmpie0 := fun _ => false

/-- A sequence of `CAN_Config` calls, stopping at the first failure as `TRY_INIT` does
(vcu/startup/initialize.c). initialize.c 299-301. -/
def configAll : List (Dev × Bool) → St → St × Bool
  | [], s => (s, true)
  | (d, ack) :: rest, s =>
    match config d ack s with
    | (s, false) => (s, false)
    | (s, true) => configAll rest s

/-- The order of the start-up code (vcu/startup/initialize.c 299-301). -/
def shippedOrder : List Dev := [.can1, .can2, .can3]

/-! ## The hardware -/

/-- Identifier, identifier extension and remote bit of a frame on a bus. RIR, stm32f767xx.h 2647-2658. -/
structure Header where
  ext : Bool
  id : BitVec 29
  rtr : Bool
deriving DecidableEq

/-- The frame's header as the 32 bit word compared with a 32 bit filter, and later found in RIR
(stm32f767xx.h 2647-2658): identifier left aligned, IDE in bit 2, RTR in bit 1. -/
def Header.word (h : Header) : BitVec 32 :=
  (if h.ext then (h.id.setWidth 32 <<< 3) ||| 4#32 else (h.id.setWidth 32 &&& 0x7FF#32) <<< 21) |||
    (if h.rtr then 2#32 else 0#32)

/-- The header as the 16 bit word compared with a 16 bit filter: STID, RTR, IDE and the three highest
bits of EXID. Hardware, for the registers written at stm32f7xx_hal_can.c 918-948. -/
def Header.short (h : Header) : BitVec 16 :=
  ((h.word >>> 21).setWidth 16 <<< 5) ||| (if h.rtr then 16#16 else 0#16) |||
    (if h.ext then 8#16 ||| ((h.word >>> 18).setWidth 16 &&& 7#16) else 0#16)

/-- Bank `k` lets the header pass: one 32 bit mask filter, two 32 bit identifiers, two 16 bit mask
filters or four 16 bit identifiers. Hardware, for the registers written at stm32f7xx_hal_can.c 918-975. -/
def Banks.pass (b : Banks) (k : Nat) (h : Header) : Bool :=
  let lo (r : BitVec 32) : BitVec 16 := r.setWidth 16
  let hi (r : BitVec 32) : BitVec 16 := (r >>> 16).setWidth 16
  if b.fs1r.getLsbD k then
    if b.fm1r.getLsbD k then h.word = b.fr1 k || h.word = b.fr2 k
    else (h.word ^^^ b.fr1 k) &&& b.fr2 k = 0
  else
    if b.fm1r.getLsbD k then
      h.short = lo (b.fr1 k) || h.short = hi (b.fr1 k) || h.short = lo (b.fr2 k) || h.short = hi (b.fr2 k)
    else
      (h.short ^^^ lo (b.fr1 k)) &&& hi (b.fr1 k) = 0 || (h.short ^^^ lo (b.fr2 k)) &&& hi (b.fr2 k) = 0

/-- The field CAN2SB. stm32f7xx_hal_can.c 900-907. -/
def Banks.slaveStart (b : Banks) : Nat := (b.fmr >>> 8 &&& 0x3F#32).toNat

/-- The banks of a peripheral: number of banks and assignment by CAN2SB. Hardware, for the field written at stm32f7xx_hal_can.c 900-907. -/
def St.owns (s : St) : Dev → Nat → Bool
  | .can1, k => k < 28 && k < s.dual.slaveStart
  | .can2, k => k < 28 && s.dual.slaveStart ≤ k
  | .can3, k => k < 14

/-- The set of banks that serves a peripheral. stm32f7xx_hal_can.c 871 and `CAN3` in stm32f767xx.h. -/
def St.banks (s : St) : Dev → Banks
  | .can3 => s.single
  | _ => s.dual

/-- Bank `k` of peripheral `d` is active and lets the header pass. FA1R as written by stm32f7xx_hal_can.c 902,
976-980; the comparison is hardware. -/
def St.matches (s : St) (d : Dev) (k : Nat) (h : Header) : Bool :=
  s.owns d k && (s.banks d).fa1r.getLsbD k && (s.banks d).pass k h

/-- Peripheral `d` is on its bus and its filters are not being set up. INRQ, stm32f7xx_hal_can.c 1046; FINIT, 892,
982. -/
def St.listens (s : St) (d : Dev) : Bool := s.started d && !(s.banks d).fmr.getLsbD 0

end Verif.CanFilter
