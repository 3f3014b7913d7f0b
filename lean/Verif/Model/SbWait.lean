import Verif.C.Basic

set_option autoImplicit false

/-!
# Waiting on a FreeRTOS stream buffer (stream_buffer.c, tasks.c)

`xStreamBufferReceive` and `xStreamBufferSend` with a block time, with everything that can
happen between two of their atomic steps: interrupts, the other side's steps, the tick, and
notifications of the task from elsewhere. The contents of the buffer are `Model/StreamBuffer`;
here the buffer is its number of bytes, which one store of an index changes (1106, 1163).

A buffer has one reader and one writer (stream_buffer.c 552, 756; checked by the code's own
assertions, which are modelled). Each is a task or an interrupt: the GPS receive buffer has
an interrupt as writer and a task as reader (uart.c 86, gps.c 41), the UART transmit buffer
a task and an interrupt (uart.c 245, 119), the log buffer two tasks (logging.c 87,
pcinterface.c 37; the senders hold a mutex, logging.c 72-90).

A task that the kernel has made ready again is at `woken`; when it then runs is
`Model/Ready`. Message buffers are not used by the firmware and not modelled.
-/

namespace Verif.SbWait

/-- `ucNotifyState` (tasks.c 68-70, `taskNOT_WAITING_NOTIFICATION`,
`taskWAITING_NOTIFICATION`, `taskNOTIFICATION_RECEIVED`). -/
inductive NSt where
  | notWaiting
  | waiting
  | received
deriving DecidableEq, Repr

/-- The notification fields of a `TCB_t` (tasks.c 308-309): `ulNotifiedValue` and
`ucNotifyState`. -/
structure Notif where
  val : UInt32
  st : NSt
deriving DecidableEq, Repr

/-- Where the reading task is in `xStreamBufferReceive` (stream_buffer.c 713-814). -/
inductive RPc where
  /-- not in the function -/
  | idle
  /-- at the critical section of 742, with a block time -/
  | check
  /-- found the buffer empty, registered; about to call `xTaskNotifyWait` (771) -/
  | registered
  /-- blocked in `xTaskNotifyWait` (tasks.c 4653-4660) -/
  | asleep
  /-- runnable, at the second critical section of `xTaskNotifyWait` (tasks.c 4674) -/
  | woken
  /-- at `xTaskWaitingToReceive = NULL` (772) -/
  | unregister
  /-- at `xBytesAvailable = prvBytesInBuffer` (775, or 784 without a block time) -/
  | recheck
  /-- at 792 with this `xBytesAvailable` -/
  | reading (avail : Nat)
  /-- has taken this many bytes out, at `sbRECEIVE_COMPLETED` (800) -/
  | completing (k : Nat)
deriving DecidableEq, Repr

/-- Where the writing task is in `xStreamBufferSend` (stream_buffer.c 505-607). -/
inductive WPc where
  | idle
  /-- at the critical section of 543 -/
  | check
  /-- registered, about to call `xTaskNotifyWait` (565) -/
  | registered
  | asleep
  | woken
  /-- at `xTaskWaitingToSend = NULL` (566) -/
  | unregister
  /-- at the test of the timeout (568) -/
  | expiry
  /-- at 575 -/
  | sizing
  /-- at `prvWriteMessageToBuffer` (584) -/
  | writing
  /-- has put this many bytes in, at the test of the trigger level (591) -/
  | wrote (k : Nat)
  /-- at `sbSEND_COMPLETED` (593) -/
  | completing (k : Nat)
deriving DecidableEq, Repr

/-- A buffer: bytes it can hold (`xLength - 1`), `xTriggerLevelBytes`, and whether its writer
and its reader are interrupts. stream_buffer.c 1209-1243. -/
structure Cfg where
  cap : Nat
  trig : Nat
  wIsr : Bool
  rIsr : Bool

/-- The buffer, its two registration fields (stream_buffer.c 147-148) as flags, since only
the reader registers in one and only the writer in the other, and the two tasks. `rMax`,
`rBlock`: arguments of the receive in progress. `wLen`, `wBlock`: arguments of the send in
progress; `wSpace`: its `xSpace`; `wLate`: whether its timeout was seen to expire. `rRets`:
for each completed receive whether it had a block time, and its result; `wRets`: for each
completed send its length, its result and whether it may have run out of time. -/
structure St where
  bytes : Nat
  rWait : Bool
  wWait : Bool
  rN : Notif
  wN : Notif
  rPc : RPc
  wPc : WPc
  rMax : Nat
  rBlock : Bool
  wLen : Nat
  wLate : Bool
  wSpace : Nat
  rRets : List (Bool × Nat)
  wRets : List (Nat × Nat × Bool)
deriving DecidableEq, Repr

/-- `prvInitialiseNewStreamBuffer` (stream_buffer.c 1209-1243): empty, nobody registered; two tasks with any
notification state outside the buffer's functions. -/
def create (rN wN : Notif) : St :=
  ⟨0, false, false, rN, wN, .idle, .idle, 0, false, 0, false, 0, [], []⟩

/-- `xTaskNotify(task, 0, eNoAction)` and its FromISR form for the reader (tasks.c 4728-4819,
4828-4951): the state becomes received, the value stays, a task blocked waiting for a
notification becomes runnable. -/
def notifyR (s : St) : St :=
  { s with
    rN := { s.rN with st := .received },
    rPc := if s.rN.st = .waiting ∧ s.rPc = .asleep then .woken else s.rPc }

/-- The same for the writer. tasks.c 4728-4819, 4828-4951. -/
def notifyW (s : St) : St :=
  { s with
    wN := { s.wN with st := .received },
    wPc := if s.wN.st = .waiting ∧ s.wPc = .asleep then .woken else s.wPc }

/-- `sbSEND_COMPLETED` and `sbSEND_COMPLETE_FROM_ISR` (stream_buffer.c 95-128). Nothing that touches the
registration comes between their accesses: the scheduler is suspended or interrupts are
masked, and the only other writer of the field is the reader. -/
def sendCompleted (s : St) : St :=
  if s.rWait then { notifyR s with rWait := false } else s

/-- `sbRECEIVE_COMPLETED` and `sbRECEIVE_COMPLETED_FROM_ISR` (stream_buffer.c 56-90). -/
def receiveCompleted (s : St) : St :=
  if s.wWait then { notifyW s with wWait := false } else s

/-- `xTaskNotifyStateClear(NULL)` (tasks.c 5044-5068). -/
def stateClear (n : Notif) : Notif :=
  if n.st = .received then { n with st := .notWaiting } else n

/-- `xTaskNotifyWait(0, 0, …)`, first critical section (tasks.c 4638-4672): no bits are
cleared on entry; whether the task blocks. The block time is not zero here: the functions
call it with a non-zero time, and `xTaskCheckForTimeOut` reports an expired wait instead of
leaving a remaining time of zero (tasks.c 3198-3270). -/
def waitEnter (n : Notif) : Notif × Bool :=
  if n.st ≠ .received then ({ n with val := n.val &&& ~~~(0 : UInt32), st := .waiting }, true)
  else (n, false)

/-- `xTaskNotifyWait(0, 0, …)`, second critical section (tasks.c 4674-4706). -/
def waitLeave (n : Notif) : Notif :=
  { n with
    val := if n.st ≠ .received then n.val else n.val &&& ~~~(0 : UInt32)
    st := .notWaiting }

/-- One atomic step of the reading task in `xStreamBufferReceive` (stream_buffer.c 713-814). -/
def readerStep (s : St) : C St :=
  match s.rPc with
  | .idle => .ok s
  | .check =>
      if s.bytes = 0 then
        if s.rWait then .error .assertFail
        else .ok { s with rN := stateClear s.rN, rWait := true, rPc := .registered }
      else .ok { s with rPc := .reading s.bytes }
  | .registered =>
      .ok { s with rN := (waitEnter s.rN).1, rPc := if (waitEnter s.rN).2 then .asleep else .woken }
  | .asleep => .ok s
  | .woken => .ok { s with rN := waitLeave s.rN, rPc := .unregister }
  | .unregister => .ok { s with rWait := false, rPc := .recheck }
  | .recheck => .ok { s with rPc := .reading s.bytes }
  | .reading avail =>
      if 0 < avail ∧ 0 < min s.rMax avail then
        .ok { s with bytes := s.bytes - min s.rMax avail, rPc := .completing (min s.rMax avail) }
      else .ok { s with rPc := .idle, rRets := (s.rBlock, 0) :: s.rRets }
  | .completing k =>
      .ok { receiveCompleted s with rPc := .idle, rRets := (s.rBlock, k) :: s.rRets }

/-- One atomic step of the writing task in `xStreamBufferSend` (stream_buffer.c 505-607). `late`: the answer
of `xTaskCheckForTimeOut` (568), used at `expiry` only. -/
def writerStep (c : Cfg) (s : St) (late : Bool) : C St :=
  match s.wPc with
  | .idle => .ok s
  | .check =>
      if c.cap - s.bytes < s.wLen then
        if s.wWait then .error .assertFail
        else .ok { s with wSpace := c.cap - s.bytes, wN := stateClear s.wN, wWait := true,
                          wPc := .registered }
      else .ok { s with wSpace := c.cap - s.bytes, wPc := .sizing }
  | .registered =>
      .ok { s with wN := (waitEnter s.wN).1, wPc := if (waitEnter s.wN).2 then .asleep else .woken }
  | .asleep => .ok s
  | .woken => .ok { s with wN := waitLeave s.wN, wPc := .unregister }
  | .unregister => .ok { s with wWait := false, wPc := .expiry }
  | .expiry => .ok { s with wLate := late, wPc := if late then .sizing else .check }
  | .sizing =>
      .ok { s with wSpace := if s.wSpace = 0 then c.cap - s.bytes else s.wSpace, wPc := .writing }
  | .writing =>
      if 0 < min s.wLen s.wSpace then
        .ok { s with bytes := s.bytes + min s.wLen s.wSpace, wPc := .wrote (min s.wLen s.wSpace) }
      else .ok { s with wPc := .idle, wRets := (s.wLen, 0, s.wLate) :: s.wRets }
  | .wrote k =>
      if c.trig ≤ s.bytes then .ok { s with wPc := .completing k }
      else .ok { s with wPc := .idle, wRets := (s.wLen, k, s.wLate) :: s.wRets }
  | .completing k =>
      .ok { sendCompleted s with wPc := .idle, wRets := (s.wLen, k, s.wLate) :: s.wRets }

/-- `xStreamBufferSendFromISR` (stream_buffer.c 610-658): as much as fits, then the trigger level. -/
def isrSend (c : Cfg) (s : St) (len : Nat) : St :=
  if 0 < min len (c.cap - s.bytes) then
    if c.trig ≤ s.bytes + min len (c.cap - s.bytes) then
      sendCompleted { s with bytes := s.bytes + min len (c.cap - s.bytes) }
    else { s with bytes := s.bytes + min len (c.cap - s.bytes) }
  else s

/-- `xStreamBufferReceiveFromISR` (stream_buffer.c 861-915). -/
def isrReceive (s : St) (max : Nat) : St :=
  if 0 < s.bytes ∧ 0 < min max s.bytes then
    receiveCompleted { s with bytes := s.bytes - min max s.bytes }
  else s

/-- What can happen. stream_buffer.c 506-658, 713-814, 861-915. -/
inductive Ev where
  /-- the reading task calls `xStreamBufferReceive` with this length, with or without a
  block time -/
  | receive (max : Nat) (block : Bool)
  /-- the reading task takes its next step -/
  | reader
  /-- the block time of the sleeping reader ends (`xTaskIncrementTick`) -/
  | rTick
  /-- the writing task calls `xStreamBufferSend` -/
  | send (len : Nat) (block : Bool)
  /-- the writing task takes its next step -/
  | writer (late : Bool)
  /-- the block time of the sleeping writer ends -/
  | wTick
  /-- an interrupt calls `xStreamBufferSendFromISR` -/
  | isrSend (len : Nat)
  /-- an interrupt calls `xStreamBufferReceiveFromISR` -/
  | isrReceive (max : Nat)
  /-- an interrupt gives the reading task a notification (`vTaskNotifyGiveFromISR`,
  tasks.c 4957-5038), as the task timers do -/
  | giveR
  | giveW
  /-- outside the buffer's functions the task takes its notifications (`ulTaskNotifyTake`,
  tasks.c 4566-4627), all or one of them, and is left in any notification state -/
  | takeR (all : Bool) (st : NSt)
  | takeW (all : Bool) (st : NSt)
deriving DecidableEq, Repr

/-- `ulTaskNotifyTake` on the value (tasks.c 4604-4616). -/
def take (n : Notif) (all : Bool) (st : NSt) : Notif :=
  { n with
    val := if n.val ≠ 0 then (if all then 0 else n.val - 1) else n.val
    st := st }

/-- One event. An event that cannot happen in the state (a call from a task that is inside
the function, the end of a wait of a task that is not asleep, a task's call on a side that
belongs to an interrupt) changes nothing. stream_buffer.c 506-658, 713-814, 861-915. -/
def step (c : Cfg) (s : St) : Ev → C St
  | .receive max block =>
      if c.rIsr = false ∧ s.rPc = .idle then
        .ok { s with rMax := max, rBlock := block, rPc := if block then .check else .recheck }
      else .ok s
  | .reader => readerStep s
  | .rTick => .ok (if s.rPc = .asleep then { s with rPc := .woken } else s)
  | .send len block =>
      -- `xSpace` starts at 0 (510); without a block time the loop is skipped (535-573)
      if c.wIsr = false ∧ s.wPc = .idle then
        .ok { s with wLen := len, wLate := !block, wSpace := 0,
                     wPc := if block then .check else .sizing }
      else .ok s
  | .writer late => writerStep c s late
  | .wTick => .ok (if s.wPc = .asleep then { s with wPc := .woken } else s)
  | .isrSend len => .ok (if c.wIsr then isrSend c s len else s)
  | .isrReceive max => .ok (if c.rIsr then isrReceive s max else s)
  | .giveR => .ok { notifyR s with rN := { val := s.rN.val + 1, st := .received } }
  | .giveW => .ok { notifyW s with wN := { val := s.wN.val + 1, st := .received } }
  | .takeR all st => .ok (if s.rPc = .idle then { s with rN := take s.rN all st } else s)
  | .takeW all st => .ok (if s.wPc = .idle then { s with wN := take s.wN all st } else s)

/-- Any sequence of events. stream_buffer.c 506-658, 713-814, 861-915. -/
def run (c : Cfg) (s : St) : List Ev → C St
  | [] => .ok s
  | e :: es =>
      match step c s e with
      | .error u => .error u
      | .ok s' => run c s' es

end Verif.SbWait
