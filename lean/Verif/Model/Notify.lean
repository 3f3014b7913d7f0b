import Verif.C.Basic

set_option autoImplicit false

/-!
# Notifications of a task (Lib/FreeRTOS/Source/tasks.c)

`ulTaskNotifyTake` (4566-4627) and `vTaskNotifyGiveFromISR` (4957-5038), by which the timers wake
the periodic tasks (tasktimer.c 119) and interrupts the shutdown-circuit and SPI tasks (sdc.c 121,
spi.c 173).  `ulTaskNotifyTake` is two critical sections; everything can happen between them, and
between them is where the task sleeps.

Simplifications: one task, since the functions touch nothing of any other task but the ready list
(`Model/Ready`); when a task that can run does run is the subject of `Model/Ready` too.  The wait
without limit and a wait that is still going on look the same here.
-/

namespace Verif.Notify

/-- `ucNotifyState` (tasks.c 68-70). -/
inductive NSt where
  | notWaiting
  | waiting
  | received
deriving DecidableEq, Repr

/-- Where the task's `xStateListItem` is: in a ready list (the running task's too), in a delayed
list or `xSuspendedTaskList`, or still there with the `xEventListItem` in `xPendingReadyList`
because the scheduler was suspended (tasks.c 5003-5014). -/
inductive Place where
  | ready
  | blocked
  | pending
deriving DecidableEq, Repr

/-- Where the task is in `ulTaskNotifyTake`. tasks.c 4566-4627. -/
inductive Pc where
  /-- somewhere else -/
  | out
  /-- after the first critical section (4599), called with this `xClearCountOnExit` -/
  | mid (clear : Bool)
deriving DecidableEq, Repr

/-- `ulNotifiedValue` and `ucNotifyState` (tasks.c 308-309), place, program point; whether the
scheduler is suspended; and the results of the calls so far, the newest first, each with its
`xClearCountOnExit`. -/
structure St where
  val : UInt32
  st : NSt
  place : Place
  pc : Pc
  susp : Bool
  rets : List (Bool × UInt32)
deriving DecidableEq, Repr

/-- A new task (`prvInitialiseNewTask`, tasks.c 987-992). -/
def init : St := ⟨0, .notWaiting, .ready, .out, false, []⟩

/-- First critical section of `ulTaskNotifyTake` (tasks.c 4570-4599); `block`: `xTicksToWait > 0`. -/
def enter (s : St) (clear block : Bool) : St :=
  if s.val = 0 then
    { s with st := .waiting, place := if block then .blocked else s.place, pc := .mid clear }
  else { s with pc := .mid clear }

/-- Second critical section of `ulTaskNotifyTake` (tasks.c 4601-4625). -/
def leave (s : St) (clear : Bool) : St :=
  { s with
    val := if s.val ≠ 0 then (if clear then 0 else s.val - 1) else s.val
    st := .notWaiting
    pc := .out
    rets := (clear, s.val) :: s.rets }

/-- The giving functions for interrupts make a task marked as waiting ready, or hold it until the
scheduler resumes (tasks.c 4998-5015, 4908-4925).  The assertion that the task is on no event
list fails for a task already held. -/
def wake (s : St) (orig : NSt) : C St :=
  if orig = .waiting then
    if s.place = .pending then .error .assertFail
    else if s.susp then .ok { s with place := .pending }
    else .ok { s with place := .ready }
  else .ok s

/-- `vTaskNotifyGiveFromISR` (tasks.c 4957-5038). -/
def give (s : St) : C St :=
  wake { s with st := .received, val := s.val + 1 } s.st

/-- `xTaskNotifyFromISR(task, 0, eNoAction, …)` (tasks.c 4828-4951), as stream buffers use it. -/
def poke (s : St) : C St :=
  wake { s with st := .received } s.st

/-- `xTaskNotify(task, 0, eNoAction)` by another task (tasks.c 4714-4819), as stream buffers use it: a task
marked as waiting is made ready at once, then the same assertion. -/
def pokeTask (s : St) : C St :=
  if s.st = .waiting then
    if s.place = .pending then .error .assertFail
    else .ok { s with st := .received, place := .ready }
  else .ok { s with st := .received }

/-- `xTaskResumeAll` (tasks.c 2196-2227): pending tasks become ready. -/
def resume (s : St) : St :=
  { s with susp := false, place := if s.place = .pending then .ready else s.place }

/-- What can happen.

* `take`: the task calls `ulTaskNotifyTake`.
* `back`: the task, able to run, goes through the second critical section.
* `timeout`: the tick ends the wait (`xTaskIncrementTick`; not while the scheduler is suspended,
  2809-2821).
* `give`, `poke`, `pokeTask`: notifications from interrupts and other tasks.
* `suspend`, `resume`: another task, or this one, stops and resumes the scheduler.
* `other`: the task waits for notifications elsewhere (in a stream buffer, `Model/SbWait`), or for
  something else; it comes back with any notification state, the count as it was. tasks.c 4566-4627, 4714-5038. -/
inductive Ev where
  | take (clear block : Bool)
  | back
  | timeout
  | give
  | poke
  | pokeTask
  | suspend
  | resume
  | other (st : NSt)
deriving DecidableEq, Repr

/-- One event; one that cannot happen in the state changes nothing. tasks.c 4566-4627, 4957-5036. -/
def step (s : St) : Ev → C St
  | .take clear block =>
      if s.pc = .out ∧ s.place = .ready then .ok (enter s clear block) else .ok s
  | .back =>
      match s.pc with
      | .out => .ok s
      | .mid clear => if s.place = .ready then .ok (leave s clear) else .ok s
  | .timeout =>
      .ok (if s.place = .blocked ∧ s.susp = false then { s with place := .ready } else s)
  | .give => give s
  | .poke => poke s
  | .pokeTask => pokeTask s
  | .suspend => .ok { s with susp := true }
  | .resume => .ok (resume s)
  | .other st => .ok (if s.pc = .out ∧ s.place = .ready then { s with st := st } else s)

/-- Any sequence of events. tasks.c 4566-4627, 4957-5036. -/
def run (s : St) : List Ev → C St
  | [] => .ok s
  | e :: es =>
      match step s e with
      | .error u => .error u
      | .ok s' => run s' es

end Verif.Notify
