import Verif.Model.CanTypes

set_option autoImplicit false

/-!
# Concurrent CAN transmission at the level of the mailbox registers

`CAN_SendMessage` (system-lib/can/can.c 302-344) and `HAL_CAN_AddTxMessage`
(cube-proj/Drivers/STM32F7xx_HAL_Driver/Src/stm32f7xx_hal_can.c 1251-1339), one register access per
step. can.c brackets the call with "TODO turn off interrupts" / "TODO turn on interrupts" (can.c 324,
341), so any task may be interrupted between two steps.

Hardware facts used (STM32F76x reference manual, bxCAN): a mailbox becomes pending when TXRQ is set;
while it is pending the software's writes to its registers have no effect; when the frame has been
sent the hardware clears TXRQ and the mailbox is empty again, its registers keeping their values; the
CODE field of TSR is the number of an empty mailbox if there is one.

Not modelled: the software queue used when no mailbox is empty (C25 is about it), transmission errors,
abort requests.
-/

namespace Verif.CanHal

/-- Four data bytes, `TDLR` or `TDHR` (stm32f7xx_hal_can.c 1309-1318), lowest first. -/
abbrev Quad := UInt8 × UInt8 × UInt8 × UInt8

/-- A frame: identifier, length, bytes 0-3 and bytes 4-7. stm32f7xx_hal_can.c 1287-1321. -/
structure Frame where
  id : UInt32
  dlc : UInt32
  hi : Quad
  lo : Quad
deriving DecidableEq

/-- The eight data bytes. stm32f7xx_hal_can.c 1309-1318. -/
def Frame.bytes (f : Frame) : Payload :=
  #v[f.lo.1, f.lo.2.1, f.lo.2.2.1, f.lo.2.2.2, f.hi.1, f.hi.2.1, f.hi.2.2.1, f.hi.2.2.2]

/-- Arguments of `CAN_SendMessage` (can.c 302-322) as a frame; the vendor driver always reads eight
bytes. -/
def Frame.of (id dlc : UInt32) (p : Payload) : Frame :=
  ⟨id, dlc, (p[4], p[5], p[6], p[7]), (p[0], p[1], p[2], p[3])⟩

/-- One transmit mailbox: `TIR` (identifier, and TXRQ as `pend`), `TDTR`, `TDHR`, `TDLR`. stm32f7xx_hal_can.c 1289,
1300, 1309, 1314, 1321. -/
structure Box where
  frame : Frame
  pend : Bool

/-- Where a call is. `m` is the local `transmitmailbox`. can.c 326; stm32f7xx_hal_can.c 1256, 1289, 1300, 1309,
1314, 1321 (read, write). -/
inductive Pc where
  /-- can.c 326: about to read the number of empty mailboxes -/
  | level
  /-- stm32f7xx_hal_can.c 1256: about to read TSR -/
  | tsr
  /-- 1288 -/
  | id (m : Fin 3)
  /-- 1300 -/
  | dlc (m : Fin 3)
  /-- 1309 -/
  | hi (m : Fin 3)
  /-- 1314 -/
  | lo (m : Fin 3)
  /-- 1321, the read of the read-modify-write `SET_BIT` -/
  | load (m : Fin 3)
  /-- 1321, the write; `t` is the identifier read -/
  | store (m : Fin 3) (t : UInt32)
deriving DecidableEq

/-- Peripheral, calls in progress by caller, frames sent on the bus in order, and the frames of the
calls that returned OK after writing a mailbox. `CAN_TypeDef` (stm32f767xx.h); calls of can.c 302-344. -/
structure St where
  box : Fin 3 → Box
  call : Nat → Option (Frame × Pc)
  bus : List Frame
  accepted : List Frame

/-- A point update. For the assignments in stm32f7xx_hal_can.c 1289-1321. -/
def upd {α β : Type} [DecidableEq α] (g : α → β) (a : α) (v : β) : α → β :=
  fun b => if b = a then v else g b

/-- After `CAN_Config`: all mailboxes empty. can.c 217-273. -/
def init : St :=
  ⟨fun _ => ⟨⟨0, 0, (0, 0, 0, 0), (0, 0, 0, 0)⟩, false⟩, fun _ => none, [], []⟩

/-- Events: a caller enters `CAN_SendMessage`; a caller makes its next register access (`code` is the
CODE field it would read in TSR); the peripheral finishes sending a mailbox. can.c 302-344. -/
inductive Ev where
  | enter (t : Nat) (f : Frame)
  | step (t : Nat) (code : Fin 3)
  | sent (m : Fin 3)

/-- A software write to a mailbox: without effect while it is pending. stm32f7xx_hal_can.c 1289-1314; the condition
is hardware. -/
def write (s : St) (m : Fin 3) (g : Frame → Frame) : Fin 3 → Box :=
  if (s.box m).pend then s.box else upd s.box m ⟨g (s.box m).frame, false⟩

/-- Some mailbox is empty (stm32f7xx_hal_can.c 1275-1277, 1409-1424). -/
def anyEmpty (s : St) : Bool := !(s.box 0).pend || !(s.box 1).pend || !(s.box 2).pend

/-- One register access of a call. can.c 326-330; stm32f7xx_hal_can.c 1256-1332, in this order. -/
def access (s : St) (t : Nat) (code : Fin 3) (f : Frame) : Pc → St
  | .level =>
    if anyEmpty s then { s with call := upd s.call t (some (f, .tsr)) }
    else { s with call := upd s.call t none }  -- goes to the software queue
  | .tsr =>
    if anyEmpty s then
      if (s.box code).pend then s  -- CODE is the number of an empty mailbox: not a possible event
      else { s with call := upd s.call t (some (f, .id code)) }
    else { s with call := upd s.call t none }  -- HAL_ERROR (1326-1332)
  | .id m => { s with box := write s m (fun r => { r with id := f.id }),
                      call := upd s.call t (some (f, .dlc m)) }
  | .dlc m => { s with box := write s m (fun r => { r with dlc := f.dlc }),
                       call := upd s.call t (some (f, .hi m)) }
  | .hi m => { s with box := write s m (fun r => { r with hi := f.hi }),
                      call := upd s.call t (some (f, .lo m)) }
  | .lo m => { s with box := write s m (fun r => { r with lo := f.lo }),
                      call := upd s.call t (some (f, .load m)) }
  | .load m => { s with call := upd s.call t (some (f, .store m (s.box m).frame.id)) }
  | .store m i =>
    { s with
      box := if (s.box m).pend then s.box
        else upd s.box m ⟨{ (s.box m).frame with id := i }, true⟩
      call := upd s.call t none
      accepted := s.accepted ++ [f] }

/-- One event. can.c 302-344. -/
def step (s : St) : Ev → St
  | .enter t f => match s.call t with
    | none => { s with call := upd s.call t (some (f, .level)) }
    | some _ => s
  | .step t code => match s.call t with
    | none => s
    | some (f, pc) => access s t code f pc
  | .sent m =>
    if (s.box m).pend then
      { s with box := upd s.box m ⟨(s.box m).frame, false⟩, bus := s.bus ++ [(s.box m).frame] }
    else s

/-- A history. can.c 302-344. -/
def run (s : St) (es : List Ev) : St := es.foldl step s

/-- `periodicCanDebug` (vcu/device/pcinterface/pcinterface.c 46-68): the frame sent to `CAN_DEV1` at
every activation of the PC task, with its activation counter. -/
def debugFrame (counter : UInt32) : Frame :=
  Frame.of 0xAF 8 #v[counter.toUInt8, (counter >>> 8).toUInt8, (counter >>> 16).toUInt8,
    (counter >>> 24).toUInt8, 0, 0, 0, 0x69]

end Verif.CanHal
