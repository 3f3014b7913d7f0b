import Verif.Model.CanTypes

set_option autoImplicit false

/-!
# CAN driver

`system-lib/can/can.c` and the parts of the vendor driver
`cube-proj/Drivers/STM32F7xx_HAL_Driver/Src/stm32f7xx_hal_can.c` it depends on
(paths relative to `/repo/firmware/src`).
-/

namespace Verif.Can

/-- `CAN_Status_T`, can.h 30-40 (only the values returned by the modelled calls). -/
inductive Status where
  | ok | errorTx | errorInvalidBus | errorMaxQueues
deriving DecidableEq, Repr

/-- `CAN_NUM_INSTANCES`, can.h 24. -/
def numInstances : Nat := 3
/-- `CAN_MAX_RECV_QUEUES`, can.h 27. -/
def maxRecvQueues : Nat := 8
/-- `CAN_MAX_PENDING_MSGS`, can.h 28. -/
def maxPending : Nat := 64

/-! ## Receive side -/

/-- A frame in a receive mailbox: identifier extension bit, identifier, remote
request bit, data registers, length (stm32f7xx_hal_can.c 1543-1567). -/
structure WireFrame where
  ext : Bool
  id : UInt32
  rtr : Bool
  data : Payload
  dlc : UInt32
deriving DecidableEq

/-- Outcome of `HAL_CAN_GetRxMessage` (stm32f7xx_hal_can.c 1509-1591). -/
inductive HalRx where
  | frame (w : WireFrame)
  | fail

/-- `struct CAN_RecvQueue`, can.c 24-28.  Queue handles are numbers. -/
structure Reg where
  deviceId : UInt32
  mask : UInt32
  queue : Nat
deriving DecidableEq

/-- A FreeRTOS queue of frames: capacity and contents, oldest first. `xQueueCreateStatic` at bms/orionBms.c 199,
inverter/cInverter.c 372 and can.c 50-52; see `Queue` for the kernel. -/
structure Queue where
  cap : Nat
  items : List CanFrame

/-- All queues of the system. can.c 27 (`QueueHandle_t queue`), orionBms.c 199, cInverter.c 372. -/
abbrev Queues := Nat → Queue

/-- `xQueueSendToBackFromISR`: append unless full (can.c 104 ignores the result). -/
def push (qs : Queues) (k : Nat) (f : CanFrame) : Queues := fun j =>
  if j = k then
    if (qs k).items.length < (qs k).cap then { qs k with items := (qs k).items ++ [f] } else qs k
  else qs j

/-- The dispatch loop, can.c 99-110. -/
def dispatch (regs : List Reg) (f : CanFrame) (qs : Queues) : Queues :=
  regs.foldl (fun qs r => if f.msgId &&& r.mask = r.deviceId then push qs r.queue f else qs) qs

/-- The receive loop, can.c 83-111.  The list holds the successive outcomes of
`HAL_CAN_GetRxMessage` while the FIFO is not empty.  `stdId` is the content of
`rxHeader.StdId`, which the vendor code writes only for standard identifiers
(stm32f7xx_hal_can.c 1545-1553): its initial value is whatever the stack held. -/
def rxLoop (dev : Nat) (regs : List Reg) (stdId : UInt32) : List HalRx → Queues → Queues
  | [], qs => qs
  | .fail :: _, qs => qs
  | .frame w :: rest, qs =>
    let stdId := if w.ext then stdId else w.id
    rxLoop dev regs stdId rest
      (dispatch regs { busInstance := dev, msgId := stdId, data := w.data, dlc := w.dlc } qs)

/-- Receive-side state of one bus: `inUse`, `numQueues`, `queues` (can.c 41-53);
`numQueues` is the length of the list. -/
structure RxBus where
  inUse : Bool
  regs : List Reg

/-- `ISR_RxMsgPendingCallback`, can.c 64-114, for a peripheral that is one of the
three CAN instances. -/
def rxIsr (dev : Nat) (b : RxBus) (garbage : UInt32) (fifo : List HalRx) (qs : Queues) : Queues :=
  if b.inUse then rxLoop dev b.regs garbage fifo qs else qs

/-- `CAN_RegisterQueue`, can.c 276-299. -/
def registerQueue (buses : Nat → RxBus) (dev : Nat) (r : Reg) : Status × (Nat → RxBus) :=
  if numInstances ≤ dev then (.errorInvalidBus, buses)
  else if (buses dev).regs.length = maxRecvQueues then (.errorMaxQueues, buses)
  else (.ok, fun i => if i = dev then { buses dev with regs := (buses dev).regs ++ [r] } else buses i)

/-! ## Transmit side -/

/-- A frame to send: identifier, length and data. `TxPendingItem_T`, can.c 30-33. -/
structure TxItem where
  msgId : UInt32
  dlc : UInt32
  data : List UInt8
deriving DecidableEq

/-- Transmit-side state of one bus together with the peripheral.
* `ready`: the vendor driver's state is READY or LISTENING;
* `free`: empty hardware mailboxes (of 3);
* `irq`: the transmit-mailbox-empty interrupt is enabled.  `CAN_Config` enables
  only the receive interrupt (can.c 267);
* `queue`: software queue (can.c 49-52);
* `handed`: frames written to a mailbox so far, in order;
* `calls`: calls in progress, by caller, with the result of the mailbox test;
* `accepted`: frames for which `CAN_SendMessage` has returned OK, with the caller. -/
structure Tx where
  ready : Bool
  free : Nat
  irq : Bool
  queue : List TxItem
  handed : List TxItem
  calls : Nat → Option (TxItem × Bool)
  accepted : List (Nat × TxItem)

/-- The loop of `ISR_TxCompleteCallback`, can.c 159-172.  `HAL_CAN_AddTxMessage`
succeeds exactly when the peripheral is ready and a mailbox is free
(stm32f7xx_hal_can.c 1272-1324), which the loop condition has just tested and no
task can change inside the interrupt; mailboxes freed during the loop are later
events. -/
def drain (ready : Bool) : List TxItem → Nat → List TxItem → Nat × List TxItem × List TxItem
  | [], free, handed => (free, [], handed)
  | x :: q, 0, handed => (0, x :: q, handed)
  | x :: q, n + 1, handed =>
    if ready then drain ready q n (handed ++ [x]) else (n + 1, x :: q, handed)

/-- Atomic events on the transmit side. can.c 136-175, 302-344; a mailbox becomes empty in hardware. -/
inductive TxEv where
  /-- a caller enters `CAN_SendMessage` and reads the mailbox level (can.c 308-326) -/
  | begin (t : Nat) (x : TxItem)
  /-- the caller performs the branch chosen (can.c 327-339) and returns; for the
  queue branch this is the moment the up-to-10-tick wait ends -/
  | finish (t : Nat)
  /-- the hardware finishes sending one mailbox -/
  | complete
  /-- the peripheral changes state (started, stopped, error) -/
  | setReady (b : Bool)

/-- `CAN_SendMessage`, can.c 302-344, and `ISR_TxCompleteCallback`, can.c 136-175. -/
def txStep (s : Tx) : TxEv → Tx
  | .begin t x =>
    if (s.calls t).isSome then s
    else { s with calls := fun i => if i = t then some (x, s.ready && decide (0 < s.free)) else s.calls i }
  | .finish t =>
    let s' := { s with calls := fun i => if i = t then none else s.calls i }
    match s.calls t with
    | none => s
    | some (x, true) =>
      if s.ready && decide (0 < s.free) then
        { s' with free := s.free - 1, handed := s.handed ++ [x], accepted := s.accepted ++ [(t, x)] }
      else s'
    | some (x, false) =>
      if s.queue.length < maxPending then
        { s' with queue := s.queue ++ [x], accepted := s.accepted ++ [(t, x)] }
      else s'
  | .complete =>
    if s.free < 3 then
      if s.irq then
        let r := drain s.ready s.queue (s.free + 1) s.handed
        { s with free := r.1, queue := r.2.1, handed := r.2.2 }
      else { s with free := s.free + 1 }
    else s
  | .setReady b => { s with ready := b }

/-- A sequence of such events (can.c 136-175, 302-344). -/
def txRun (s : Tx) (evs : List TxEv) : Tx := evs.foldl txStep s

/-- The state after `CAN_Init` and `CAN_Config` (can.c 193-273); `irq` is a
parameter so that the effect of the missing interrupt can be stated. -/
def txInit (irq : Bool) : Tx :=
  { ready := true, free := 3, irq := irq, queue := [], handed := [],
    calls := fun _ => none, accepted := [] }

/-! ## Memory accesses of `CAN_SendMessage` -/

/-- Memory accesses of one call with length argument `n` and a caller buffer of
`bufLen` bytes (can.c 326-336): the direct path makes the vendor driver read
eight bytes of the caller's buffer whatever `n` is (stm32f7xx_hal_can.c
1309-1318); the queue path copies `n` bytes into the eight-byte field of a local
`TxPendingItem_T` (can.c 30-33, 333). -/
def sendMemory (mailboxFree : Bool) (n bufLen : Nat) : C Unit :=
  if mailboxFree then
    if 8 ≤ bufLen then .ok () else .error .oobRead
  else
    if bufLen < n then .error .oobRead
    else if 8 < n then .error .oobWrite
    else .ok ()

end Verif.Can
