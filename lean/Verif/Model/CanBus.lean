import Verif.Model.CanTypes

set_option autoImplicit false

/-!
# A CAN peripheral on a bus with other nodes

What happens to a frame after `CAN_SendMessage` (system-lib/can/can.c 302-344) has put it in a transmit
mailbox: arbitration against other nodes, transmission errors, bus-off. How the hardware behaves is
decided by five settings that `MX_CANn_Init` (cube-proj/Core/Src/main.c 385-489) passes to `HAL_CAN_Init`
(cube-proj/Drivers/STM32F7xx_HAL_Driver/Src/stm32f7xx_hal_can.c 274-450), which copies them into MCR.

Hardware facts used (STM32F76x reference manual, bxCAN: transmission handling, error management; CAN 2.0
for the error counter):
* when the bus becomes idle the peripheral starts the pending mailbox of highest priority: with TXFP the
  oldest request, without it the lowest identifier and, for equal identifiers, the lowest mailbox;
* another node that starts at the same time with a lower identifier wins the arbitration;
* with NART a mailbox is emptied after its first attempt, whether or not that succeeded; without it only
  after success;
* a failed transmission adds 8 to the transmit error counter, except a missing acknowledgement once the
  counter is at least 128 (error passive); a successful one subtracts 1; beyond 255 the node is bus-off
  and takes no further part in the traffic;
* with ABOM the node comes back, with its counter at 0, after it has seen the bus idle for 128 times 11
  bits; without it only after the software has entered and left initialisation mode. Nothing in the
  firmware does so after start-up (`HAL_CAN_Stop` and `HAL_CAN_Init` have no other callers, and
  `HAL_CAN_Start` does nothing in state LISTENING).

Simplifications: one peripheral; calls of `CAN_SendMessage` are atomic here (C90 is about overlapping
calls); the transmit interrupt, which would empty the software queue, is never enabled (C25), so nothing
leaves the queue; the counter of receive errors and its part in the error passive state are left out.
-/

namespace Verif.CanBus

/-- The part of `CAN_InitTypeDef` that matters here (stm32f7xx_hal_can.h). -/
structure Init where
  autoBusOff : Bool
  autoRetransmission : Bool
  transmitFifoPriority : Bool

/-- `MX_CAN1_Init`, `MX_CAN2_Init`, `MX_CAN3_Init`: the same settings three times (main.c 402-406,
439-443, 476-480). -/
def shippedInit : Init where
  autoBusOff := false
  autoRetransmission := false
  transmitFifoPriority := false

/-- The bits of MCR that `HAL_CAN_Init` derives from them. stm32f7xx_hal_can.c 385-433. -/
structure Mcr where
  abom : Bool
  nart : Bool
  txfp : Bool

/-- `HAL_CAN_Init`, stm32f7xx_hal_can.c 385-393 (ABOM), 405-413 (NART, inverted), 425-433 (TXFP). -/
def Init.mcr (i : Init) : Mcr where
  abom := i.autoBusOff
  nart := !i.autoRetransmission
  txfp := i.transmitFifoPriority

/-- A standard data frame. What can.c 312-322 put together. -/
structure Frame where
  id : Nat
  data : Payload
deriving DecidableEq

/-- A pending request: how many requests came before it, and its frame. stm32f7xx_hal_can.c 1321 (TXRQ set). -/
structure Req where
  no : Nat
  frame : Frame
deriving DecidableEq

/-- Mailboxes, software queue, error counter, bus-off flag, number of requests so far; and as history the
frames for which a call returned OK, the own frames seen on the bus, and the frames whose only attempt
failed. can.c 41-53 and the registers TSR, ESR of the peripheral (stm32f767xx.h, `CAN_TypeDef`). -/
structure St where
  box : Fin 3 → Option Req
  queue : List Frame
  tec : Nat
  off : Bool
  reqs : Nat
  accepted : List Frame
  bus : List Frame
  lost : List Frame

/-- How a transmission that won the arbitration can fail. Hardware (see the top); TERR, ALST in stm32f7xx_hal_can.c
1750-1759. -/
inductive Fault where
  | noAck
  | other
deriving DecidableEq

/-- A task calls `CAN_SendMessage` (`m` is the CODE field of TSR, the number of an empty mailbox if there
is one); the bus becomes idle, `rival` being the lowest identifier another node starts to send, `fault`
what goes wrong with the own frame if it wins; the bus has been idle for 128 times 11 bits. can.c 302-344; the rest is hardware. -/
inductive Ev where
  | send (f : Frame) (m : Fin 3)
  | slot (rival : Option Nat) (fault : Option Fault)
  | quiet

/-- After `CAN_Config`. can.c 217-273. -/
def boot : St := ⟨fun _ => none, [], 0, false, 0, [], [], []⟩

/-- A point update. For the assignments to mailboxes, stm32f7xx_hal_can.c 1289-1321. -/
def upd {α β : Type} [DecidableEq α] (g : α → β) (a : α) (v : β) : α → β :=
  fun b => if b = a then v else g b

/-- `CAN_MAX_PENDING_MSGS` (system-lib/can/can.h 28). -/
def queueLen : Nat := 64

/-- Some mailbox is empty (`HAL_CAN_GetTxMailboxesFreeLevel`, stm32f7xx_hal_can.c 1400-1430). -/
def St.room (s : St) : Bool := (s.box 0).isNone || (s.box 1).isNone || (s.box 2).isNone

/-- `CAN_SendMessage`, can.c 326-340: into mailbox CODE if one is empty, else into the queue, else an
error after ten ticks. The Boolean is "returned CAN_STATUS_OK". -/
def send (f : Frame) (m : Fin 3) (s : St) : St × Bool :=
  if s.room then
    match s.box m with
    | none => ({ s with box := upd s.box m (some ⟨s.reqs, f⟩), reqs := s.reqs + 1,
                        accepted := s.accepted ++ [f] }, true)
    | some _ => (s, false)  -- CODE is the number of an empty mailbox: not a possible event
  else if s.queue.length < queueLen then
    ({ s with queue := s.queue ++ [f], accepted := s.accepted ++ [f] }, true)
  else (s, false)

/-- Request `a` in mailbox `i` goes before request `b` in mailbox `j`. Hardware; TXFP as set in stm32f7xx_hal_can.c
425-433. -/
def first (c : Mcr) (i : Fin 3) (a : Req) (j : Fin 3) (b : Req) : Bool :=
  if c.txfp then a.no < b.no else a.frame.id < b.frame.id || (a.frame.id = b.frame.id && i < j)

/-- The better of two candidates. Hardware; TXFP, stm32f7xx_hal_can.c 425-433. -/
def better (c : Mcr) (x y : Option (Fin 3 × Req)) : Option (Fin 3 × Req) :=
  match x, y with
  | none, y => y
  | x, none => x
  | some (i, a), some (j, b) => if first c j b i a then some (j, b) else some (i, a)

/-- A mailbox as candidate. Hardware; TXRQ, stm32f7xx_hal_can.c 1321. -/
def St.cand (s : St) (m : Fin 3) : Option (Fin 3 × Req) := (s.box m).map fun r => (m, r)

/-- The pending mailbox of highest priority. Hardware; TXFP, stm32f7xx_hal_can.c 425-433. -/
def pick (c : Mcr) (s : St) : Option (Fin 3 × Req) :=
  better c (better c (s.cand 0) (s.cand 1)) (s.cand 2)

/-- Another node wins the arbitration. Hardware, CAN arbitration by identifier (stm32f7xx_hal_can.c 1289). -/
def outranked (rival : Option Nat) (f : Frame) : Bool :=
  match rival with
  | none => false
  | some r => r < f.id

/-- An attempt failed: with NART the mailbox is emptied and the frame is gone. NART, stm32f7xx_hal_can.c 405-413. -/
def giveUp (c : Mcr) (m : Fin 3) (f : Frame) (s : St) : St :=
  if c.nart then { s with box := upd s.box m none, lost := s.lost ++ [f] } else s

/-- Transmit error counter after a failed transmission. Hardware, CAN 2.0 error counters; no code in /repo. The frames are those of can.c 302-344. -/
def penalty (w : Fault) (tec : Nat) : Nat :=
  match w with
  | .noAck => if 128 ≤ tec then tec else tec + 8
  | .other => tec + 8

/-- The bus becomes idle. Hardware; the settings are those of main.c 402-406, 439-443, 476-480. -/
def slot (c : Mcr) (rival : Option Nat) (fault : Option Fault) (s : St) : St :=
  if s.off then s
  else
    match pick c s with
    | none => s
    | some (m, r) =>
      if outranked rival r.frame then giveUp c m r.frame s
      else
        match fault with
        | none => { s with box := upd s.box m none, tec := s.tec - 1, bus := s.bus ++ [r.frame] }
        | some w =>
          let s := giveUp c m r.frame s
          { s with tec := penalty w s.tec, off := 255 < penalty w s.tec }

/-- One event. can.c 302-344 (`send`); the rest is hardware. -/
def step (c : Mcr) (s : St) : Ev → St
  | .send f m => (send f m s).1
  | .slot rival fault => slot c rival fault s
  | .quiet => if s.off && c.abom then { s with off := false, tec := 0 } else s

/-- A run. can.c 302-344. -/
def run (c : Mcr) (s : St) (es : List Ev) : St := es.foldl (step c) s

/-- The shipped settings. main.c 402-406, 439-443, 476-480. -/
def shipped : Mcr := shippedInit.mcr

end Verif.CanBus
