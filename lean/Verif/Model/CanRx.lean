import Verif.Model.Can

set_option autoImplicit false

/-!
# The CAN receive FIFO and its interrupt, register access by register access

The peripheral stores frames in a FIFO of three places while the interrupt service routine takes them out:
`ISR_RxMsgPendingCallback` (system-lib/can/can.c 64-114), called by `HAL_CAN_IRQHandler`
(cube-proj/Drivers/STM32F7xx_HAL_Driver/Src/stm32f7xx_hal_can.c 1893-1908), reads the registers of the
output place one after the other in `HAL_CAN_GetRxMessage` (1509-1591) and then releases it. A frame may
arrive between any two register accesses.

Hardware facts used (STM32F76x reference manual, bxCAN: reception handling): the FIFO has three places;
the registers RIR, RDTR, RDLR, RDHR show the oldest; a frame that arrives while all three are taken is
stored in the place of the newest if RFLM is clear and dropped if it is set, and sets FOVR; writing RFOM
releases the oldest; the interrupt request is up as long as FMP is not 0 and FMPIE0 is set.

Simplifications: a release takes effect at once; the vendor driver's state is READY or LISTENING and the
bus is in use, as after `CAN_Config` (C113); dispatching to the queues is in `Model/Can` (`dispatch`), here a
frame is "delivered" when it is handed to that loop.
-/

namespace Verif.CanRx

/-- The four registers of a FIFO place. RIR, RDTR, RDLR, RDHR (stm32f7xx_hal_can.c 1544-1567). -/
structure Raw where
  rir : UInt32
  rdtr : UInt32
  rdlr : UInt32
  rdhr : UInt32
deriving DecidableEq

/-- `CAN_RxHeaderTypeDef rxHeader` and `canData.data` (can.c 83-84): local, not initialised. -/
structure Hdr where
  ide : UInt32
  stdId : UInt32
  extId : UInt32
  rtr : UInt32
  dlc : UInt32
  fmi : UInt32
  time : UInt32
  data : Payload
deriving DecidableEq

/-- Where the service routine is: not running; before the test of the fill level (can.c 88); before the
emptiness test of `HAL_CAN_GetRxMessage` (1523); before its register access number `k`; before the
release (1573); before dispatching (can.c 94-110). -/
inductive Pc where
  | idle
  | fill
  | check
  | rd (k : Nat)
  | release
  | got
deriving DecidableEq

/-- FIFO, overrun flag, service routine, and as history the frames that arrived and were delivered. can.c 64-114. -/
structure St where
  fifo : List Raw
  overrun : Bool
  pc : Pc
  hdr : Hdr
  arrived : List Raw
  delivered : List CanFrame

/-- A frame arrives; the processor makes a step of the service routine, entering it (with whatever is on
the stack) if the interrupt is up. can.c 64-114. -/
inductive Ev where
  | arrive (r : Raw)
  | cpu (stack : Hdr)

/-- Number of places. Hardware; RF0R, stm32f7xx_hal_can.c 1523. -/
def depth : Nat := 3

/-- `ReceiveFifoLocked`, main.c 405, 442, 479; RFLM in `HAL_CAN_Init`, stm32f7xx_hal_can.c 415-423. -/
def locked : Bool := false

/-- The peripheral stores a frame. Hardware; RFLM as set in stm32f7xx_hal_can.c 415-423. -/
def store (r : Raw) (s : St) : St :=
  if s.fifo.length < depth then
    { s with fifo := s.fifo ++ [r], arrived := s.arrived ++ [r] }
  else if locked then
    { s with overrun := true, arrived := s.arrived ++ [r] }
  else
    { s with fifo := s.fifo.dropLast ++ [r], overrun := true, arrived := s.arrived ++ [r] }

/-- Number of register reads in `HAL_CAN_GetRxMessage`. stm32f7xx_hal_can.c 1544-1567. -/
def reads : Nat := 14

/-- Byte number `k` of a data register (stm32f7xx_hal_can.c 1560-1567). -/
def byte (w : UInt32) (k : UInt32) : UInt8 := ((w >>> (8 * k)) &&& 0xFF).toUInt8

/-- Register read number `k` of `HAL_CAN_GetRxMessage`, lines 1544, 1545-1553, 1554, 1555, 1556, 1557,
1560-1567. stm32f7xx_hal_can.c. -/
def readReg (k : Nat) (r : Raw) (h : Hdr) : Hdr :=
  match k with
  | 0 => { h with ide := r.rir &&& 4 }
  | 1 => if h.ide = 0 then { h with stdId := (r.rir &&& 0xFFE00000) >>> 21 }
         else { h with extId := (r.rir &&& 0xFFFFFFF8) >>> 3 }
  | 2 => { h with rtr := r.rir &&& 2 }
  | 3 => { h with dlc := r.rdtr &&& 0xF }
  | 4 => { h with fmi := (r.rdtr &&& 0xFF00) >>> 8 }
  | 5 => { h with time := (r.rdtr &&& 0xFFFF0000) >>> 16 }
  | 6 => { h with data := h.data.set 0 (byte r.rdlr 0) }
  | 7 => { h with data := h.data.set 1 (byte r.rdlr 1) }
  | 8 => { h with data := h.data.set 2 (byte r.rdlr 2) }
  | 9 => { h with data := h.data.set 3 (byte r.rdlr 3) }
  | 10 => { h with data := h.data.set 4 (byte r.rdhr 0) }
  | 11 => { h with data := h.data.set 5 (byte r.rdhr 1) }
  | 12 => { h with data := h.data.set 6 (byte r.rdhr 2) }
  | 13 => { h with data := h.data.set 7 (byte r.rdhr 3) }
  | _ => h

/-- What the registers show when the FIFO is empty: nothing that means anything. stm32f7xx_hal_can.c 1544-1567. -/
def stale : Raw := ⟨0, 0, 0, 0⟩

/-- `canData` as can.c 94-97 fill it. -/
def frameOf (dev : Nat) (h : Hdr) : CanFrame := ⟨dev, h.stdId, h.data, h.dlc⟩

/-- One step of the service routine of bus `dev`. can.c 83-114; stm32f7xx_hal_can.c 1509-1591. -/
def cpu (dev : Nat) (stack : Hdr) (s : St) : St :=
  match s.pc with
  | .idle => if s.fifo.isEmpty then s else { s with pc := .fill, hdr := stack }
  | .fill => if s.fifo.isEmpty then { s with pc := .idle } else { s with pc := .check }
  | .check => if s.fifo.isEmpty then { s with pc := .idle } else { s with pc := .rd 0 }
  | .rd k => { s with hdr := readReg k (s.fifo.headD stale) s.hdr,
                      pc := if k + 1 < reads then .rd (k + 1) else .release }
  | .release => { s with fifo := s.fifo.tail, pc := .got }
  | .got => { s with delivered := s.delivered ++ [frameOf dev s.hdr], pc := .fill }

/-- One event. can.c 64-114. -/
def step (dev : Nat) (s : St) : Ev → St
  | .arrive r => store r s
  | .cpu stack => cpu dev stack s

/-- A run. can.c 64-114. -/
def run (dev : Nat) (s : St) (es : List Ev) : St := es.foldl (step dev) s

/-- After `CAN_Config`. can.c 217-273. -/
def boot (h : Hdr) : St := ⟨[], false, .idle, h, [], []⟩

end Verif.CanRx
