import Verif.C.Basic
import Mathlib.Data.Fintype.Card
import Mathlib.Data.Fin.Basic

set_option autoImplicit false

/-!
# Waiting on a FreeRTOS queue, semaphore or mutex (queue.c)

`xQueueGenericSend` and `xQueueReceive` / `xQueueSemaphoreTake` with and without a block time,
at the level of their critical sections, with interrupts that send or receive at any moment in
between, any number of tasks, and the tick. A mutex or binary semaphore is a queue of length
one: take is receive, give is send. The items themselves are `Model/Queue`; here a queue is the
number of messages in it.

Only one task at a time can be between `vTaskSuspendAll` and `xTaskResumeAll`, and while it is,
no other task runs (tasks.c 2005-2014); interrupts do. The raising and lowering of a mutex
holder's priority changes none of the fields of the queue and is not modelled here: `prio` is
what the event list item was given when the task was created.
-/

namespace Verif.QueueWait

/-- The two calls. queue.c 747, 1273 and 1414. -/
inductive Dir where
  | send
  | recv
deriving DecidableEq, Repr

/-- Why a task unlocks the queue. queue.c 917-953, 1371-1410, 1542-1636. -/
inductive Why where
  /-- it has put itself on the list of waiting tasks (queue.c 918, 1374, 1565) -/
  | placed
  /-- the queue was no longer full / empty (937-942, 1385-1391) -/
  | retry
  /-- its time has run out (944-952, 1393-1409) -/
  | expired
deriving DecidableEq, Repr

/-- Where a task is in `xQueueGenericSend` (queue.c 747-954) or `xQueueReceive` (1273-1411) /
`xQueueSemaphoreTake` (1414-1629). -/
inductive Pc where
  /-- not in either function -/
  | idle
  /-- at the critical section at the top of the loop (768, 1299, 1444) -/
  | try_ (d : Dir)
  /-- at `vTaskSuspendAll` (909, 1363, 1534) -/
  | suspend (d : Dir)
  /-- at `prvLockQueue` (910, 1364, 1535) -/
  | lock (d : Dir)
  /-- at `xTaskCheckForTimeOut` and the second look at the queue (913-915, 1367-1371) -/
  | check (d : Dir)
  /-- at `vTaskPlaceOnEventList` (918, 1374, 1565) -/
  | place (d : Dir)
  /-- at the first critical section of `prvUnlockQueue` (2175) -/
  | unlockTx (d : Dir) (w : Why)
  /-- at the second critical section of `prvUnlockQueue` (2256) -/
  | unlockRx (d : Dir) (w : Why)
  /-- at `xTaskResumeAll` (932, 941, 948) -/
  | resume (d : Dir) (w : Why)
  /-- has put itself on the list and resumed the scheduler; goes on at the top of the loop
  when it is made ready again (932-936) -/
  | blocked (d : Dir)
  /-- timed out receiver, at the last look at the queue (1400, 1594) -/
  | last
deriving DecidableEq, Repr

/-- A queue: `uxLength`, the tasks' priorities, and whether interrupts send to it and receive
from it. `uxLength`, queue.c 112. -/
structure Cfg (n : Nat) where
  len : Nat
  prio : Fin n → Nat
  isrSends : Bool
  isrRecvs : Bool

/-- The fields of `Queue_t` (queue.c 90-131) that waiting uses, and the tasks. `block`: whether
the call in progress has a block time left. `susp`: who has suspended the scheduler. `rets`:
the completed calls, with their results, latest first. -/
structure St (n : Nat) where
  msgs : Nat
  txLock : Int
  rxLock : Int
  waitS : List (Fin n)
  waitR : List (Fin n)
  pc : Fin n → Pc
  block : Fin n → Bool
  susp : Option (Fin n)
  rets : List (Fin n × Dir × Bool)

/-- A queue after `xQueueGenericReset` (queue.c 258-320) with `m` messages put in before the tasks use
it (a mutex is created and then given once, 467-494). -/
def create (n m : Nat) : St n :=
  ⟨m, -1, -1, [], [], fun _ => .idle, fun _ => false, none, []⟩

/-- Conversion to `int8_t` (queue.c 1091, 1855). -/
def int8 (x : Int) : Int := Int.bmod x 256

/-- `vListInsert` with the event item's value (tasks.c 2944-2963): behind all waiting tasks of
the same or a higher priority. -/
def insertWait {n : Nat} (prio : Fin n → Nat) (t : Fin n) : List (Fin n) → List (Fin n)
  | [] => [t]
  | x :: xs => if prio x < prio t then t :: x :: xs else x :: insertWait prio t xs

/-- `xTaskRemoveFromEventList` on a list that may be empty (queue.c 844-846, tasks.c
3019-3090): its first task leaves. -/
def wake {n : Nat} : List (Fin n) → List (Fin n)
  | [] => []
  | _ :: xs => xs

/-- The loop of `prvUnlockQueue` (queue.c 2180-2249, 2260-2279) with the lock count as a number. -/
def wakeMany {n : Nat} : Nat → List (Fin n) → List (Fin n)
  | 0, l => l
  | _ + 1, [] => []
  | k + 1, _ :: xs => wakeMany k xs

/-- A call returns. queue.c 875, 888, 951, 1332, 1342, 1403, 1494, 1513, 1621. -/
def ret {n : Nat} (s : St n) (t : Fin n) (d : Dir) (ok : Bool) : St n :=
  { s with pc := Function.update s.pc t .idle, rets := (t, d, ok) :: s.rets }

/-- The task moves on. For the statements listed at `Pc` (queue.c 747-1637). -/
def go {n : Nat} (s : St n) (t : Fin n) (p : Pc) : St n :=
  { s with pc := Function.update s.pc t p }

/-- The critical section at the top of the loop: queue.c 768-904, 1299-1358, 1444-1529. -/
def attempt {n : Nat} (c : Cfg n) (s : St n) (t : Fin n) : Dir → St n
  | .send =>
      if s.msgs < c.len then ret { s with msgs := s.msgs + 1, waitR := wake s.waitR } t .send true
      else if s.block t then go s t (.suspend .send)
      else ret s t .send false
  | .recv =>
      if 0 < s.msgs then ret { s with msgs := s.msgs - 1, waitS := wake s.waitS } t .recv true
      else if s.block t then go s t (.suspend .recv)
      else ret s t .recv false

/-- One step of task `t`. `expired` is the answer of `xTaskCheckForTimeOut`, used at `check`
only; that call and the second look at the queue, two critical sections one after the other,
are one step, since the answer does not depend on the queue. queue.c 747-954, 1273-1411, 1414-1637. -/
def taskStep {n : Nat} (c : Cfg n) (s : St n) (t : Fin n) (expired : Bool) : St n :=
  match s.pc t with
  | .idle => s
  | .try_ d => attempt c s t d
  | .suspend d => { go s t (.lock d) with susp := some t }
  | .lock d =>
      { go s t (.check d) with
        rxLock := if s.rxLock = -1 then 0 else s.rxLock
        txLock := if s.txLock = -1 then 0 else s.txLock }
  | .check d =>
      if expired then go s t (.unlockTx d .expired)
      else
        match d with
        | .send => if s.msgs = c.len then go s t (.place .send) else go s t (.unlockTx .send .retry)
        | .recv => if s.msgs = 0 then go s t (.place .recv) else go s t (.unlockTx .recv .retry)
  | .place .send =>
      { go s t (.unlockTx .send .placed) with waitS := insertWait c.prio t s.waitS }
  | .place .recv =>
      { go s t (.unlockTx .recv .placed) with waitR := insertWait c.prio t s.waitR }
  | .unlockTx d w =>
      { go s t (.unlockRx d w) with waitR := wakeMany s.txLock.toNat s.waitR, txLock := -1 }
  | .unlockRx d w =>
      { go s t (.resume d w) with waitS := wakeMany s.rxLock.toNat s.waitS, rxLock := -1 }
  | .resume d .placed => { go s t (.blocked d) with susp := none }
  | .resume d .retry => { go s t (.try_ d) with susp := none }
  | .resume .send .expired => { ret s t .send false with susp := none }
  | .resume .recv .expired => { go s t .last with susp := none }
  -- made ready again: it is no longer on the list
  | .blocked .send => if t ∈ s.waitS then s else attempt c s t .send
  | .blocked .recv => if t ∈ s.waitR then s else attempt c s t .recv
  | .last => if s.msgs = 0 then ret s t .recv false else go s t (.try_ .recv)

/-- What can happen. queue.c 747-954, 957-1108, 1273-1411, 1414-1637, 1781-1870. -/
inductive Ev (n : Nat) where
  /-- task `t` calls one of the functions -/
  | call (t : Fin n) (d : Dir) (block : Bool)
  /-- task `t` takes its next step -/
  | step (t : Fin n) (expired : Bool)
  /-- the block time of task `t` ends (`xTaskIncrementTick`, tasks.c 2700-2772, which is put
  off while the scheduler is suspended) -/
  | tick (t : Fin n)
  /-- `xQueueGenericSendFromISR` (957-1105) or `xQueueGiveFromISR` (1108-1270) -/
  | isrSend
  /-- `xQueueReceiveFromISR` (1781-1871) -/
  | isrRecv

/-- One event. An event that cannot happen changes nothing: a step of a task while another one
has suspended the scheduler, a call from a task inside a call, an interrupt of a kind the queue
has none of. queue.c 747-954, 957-1108, 1273-1411, 1414-1637, 1781-1870. -/
def step {n : Nat} (c : Cfg n) (s : St n) : Ev n → St n
  | .call t d b =>
      if s.susp = none ∧ s.pc t = .idle then
        { go s t (.try_ d) with block := Function.update s.block t b }
      else s
  | .step t expired => if s.susp = none ∨ s.susp = some t then taskStep c s t expired else s
  | .tick t =>
      if s.susp = none then
        match s.pc t with
        | .blocked .send => { s with waitS := s.waitS.erase t }
        | .blocked .recv => { s with waitR := s.waitR.erase t }
        | _ => s
      else s
  | .isrSend =>
      if c.isrSends = true ∧ s.msgs < c.len then
        if s.txLock = -1 then { s with msgs := s.msgs + 1, waitR := wake s.waitR }
        else { s with msgs := s.msgs + 1, txLock := int8 (s.txLock + 1) }
      else s
  | .isrRecv =>
      if c.isrRecvs = true ∧ 0 < s.msgs then
        if s.rxLock = -1 then { s with msgs := s.msgs - 1, waitS := wake s.waitS }
        else { s with msgs := s.msgs - 1, rxLock := int8 (s.rxLock + 1) }
      else s

/-- Any sequence of events. queue.c 747-954, 957-1108, 1273-1411, 1414-1637, 1781-1870. -/
def run {n : Nat} (c : Cfg n) : St n → List (Ev n) → St n
  | s, [] => s
  | s, e :: es => run c (step c s e) es

end Verif.QueueWait
