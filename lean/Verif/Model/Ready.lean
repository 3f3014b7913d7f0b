import Verif.Model.KernelList

set_option autoImplicit false

/-!
# Which task runs (Lib/FreeRTOS/Source/tasks.c)

The ready lists, the bit map of priorities in use, and every kernel function of the firmware that
makes a task ready, blocks it, ends it, changes its priority or asks for a context switch. The lists are
those of list.c at pointer level; the items in them are the `xStateListItem`s of the tasks. The
event lists (`xEventListItem`) and the pending list are not in this memory: which task an event
wakes is an input. Every function is a critical section or runs with the scheduler suspended
(C101), so it is one step. When a delay ends is C102; here the tasks that a tick wakes are an
input. The start-up task ends itself (initialize.c 267) and the idle task clears up after it; no task
ends another, is suspended or is given another base priority by the firmware.
-/

namespace Verif.Ready

open Verif.KList

/-- `pxReadyTasksLists[p]`, the two delayed lists, `xSuspendedTaskList` and `xTasksWaitingTermination`
(tasks.c 340-359). -/
inductive LId where
  | ready (p : Nat)
  | delayed (b : Bool)
  | suspended
  | ended
deriving DecidableEq

/-- `configMAX_PRIORITIES` (FreeRTOSConfig.h 65). -/
def maxPriorities : Nat := 7

/-- The idle task (tasks.c 1980). -/
def idle : Nat := 0

/-- The kernel's variables. `top` is `uxTopReadyPriority` (tasks.c 369), used as a bit map
(`configUSE_PORT_OPTIMISED_TASK_SELECTION` 1); `pend` is the pending bit of the PendSV interrupt;
`pending` the tasks in `xPendingReadyList` (tasks.c 345); the other fields are `uxPriority`,
`uxBasePriority` (tasks.c 262, 280), `pxCurrentTCB`, `uxSchedulerSuspended`, `xYieldPending`;
`cleanup` is `uxDeletedTasksWaitingCleanUp` (tasks.c 350). `uxCurrentNumberOfTasks` is left out: nothing
reads it once the first task exists (tasks.c 1079). -/
structure St where
  heap : Heap LId Nat
  top : BitVec 32
  prio : Nat → Nat
  base : Nat → Nat
  current : Nat
  susp : Nat
  yieldPending : Bool
  pend : Bool
  pending : List Nat
  cleanup : Nat

/-- Is the task in a ready list? The test of tasks.c 3980, 4181. -/
def isReady (s : St) (t : Nat) : Bool := s.heap.container t = some (.ready (s.prio t))

/-- Is the task blocked and not yet woken by an event? The tests of tasks.c 2735-2752, 3117-3133. -/
def isBlocked (s : St) (t : Nat) : Bool :=
  match s.heap.container t with
  | some (.delayed _) => t ∉ s.pending
  | some .suspended => t ∉ s.pending
  | _ => false

/-- `prvAddTaskToReadyList` (tasks.c 218-222) with `portRECORD_READY_PRIORITY` (portmacro.h 144). -/
def addReady (s : St) (t : Nat) : St :=
  { s with top := s.top ||| (1#32 <<< s.prio t)
           heap := insertEnd s.heap (.ready (s.prio t)) t }

/-- `uxListRemove` of a task in the ready list of priority `p`, and `portRESET_READY_PRIORITY`
(portmacro.h 145) of priority `q` if nothing is left (tasks.c 5097-5102, 3982-3985, 4065-4068;
at 4183-4186 `q` is another priority than `p`). -/
def takeReady (s : St) (t q : Nat) : C St :=
  match remove s.heap t with
  | .error e => .error e
  | .ok (k, h) =>
    .ok { s with heap := h, top := if k = 0 then s.top &&& ~~~(1#32 <<< q) else s.top }

/-- A blocked task becomes ready (tasks.c 2735-2752, 3117-3119, 4780-4781, 2201-2203). -/
def wake (s : St) (t : Nat) : C St :=
  match remove s.heap t with
  | .error e => .error e
  | .ok (_, h) => .ok (addReady { s with heap := h } t)

/-- `ucPortCountLeadingZeros` (portmacro.h 130-136): the `clz` instruction, from bit `k - 1`
downwards. -/
def clz (b : BitVec 32) : Nat → Nat
  | 0 => 0
  | k + 1 => if b.getLsbD k then 0 else clz b k + 1

/-- `taskSELECT_HIGHEST_PRIORITY_TASK` (tasks.c 169-177, portmacro.h 149). With no bit set the
index is 2^32 - 1, outside the array. -/
def select (s : St) : C St :=
  let z := clz s.top 32
  if 31 < z then .error .oobRead
  else
    let p := 31 - z
    if maxPriorities ≤ p then .error .oobRead
    else if s.heap.count (.ready p) = 0 then .error .assertFail
    else
      match nextEntry s.heap (.ready p) with
      | .error e => .error e
      | .ok (x, h) => .ok { s with heap := h, current := x }

/-- `vTaskSwitchContext` (tasks.c 2947-3017), run by the PendSV interrupt. -/
def switchContext (s : St) : C St :=
  if s.susp ≠ 0 then .ok { s with yieldPending := true, pend := false }
  else select { s with yieldPending := false, pend := false }

/-- The wake-ups of one tick (tasks.c 2702-2770): tasks in a delayed list. The flag is
`xSwitchRequired`. -/
def wakeAll (s : St) (req : Bool) : List Nat → C (Bool × St)
  | [] => .ok (req, s)
  | t :: ts =>
    match s.heap.container t with
    | some (.delayed _) =>
      match wake s t with
      | .error e => .error e
      | .ok s => wakeAll s (req || decide (s.prio s.current ≤ s.prio t)) ts
    | _ => wakeAll s req ts

/-- `xTaskIncrementTick` with the scheduler running (tasks.c 2665-2832): wake-ups, then time
slicing, then a yield that is still owed. -/
def tickBody (s : St) (ts : List Nat) : C (Bool × St) :=
  match wakeAll s false ts with
  | .error e => .error e
  | .ok (req, s) =>
    let req := req || decide (1 < s.heap.count (.ready (s.prio s.current)))
    .ok (req || s.yieldPending, s)

/-- The pending tasks in `xTaskResumeAll` (tasks.c 2198-2216). -/
def drain (s : St) : List Nat → C St
  | [] => .ok s
  | t :: ts =>
    match wake s t with
    | .error e => .error e
    | .ok s => drain { s with yieldPending := s.yieldPending || decide (s.prio s.current ≤ s.prio t) } ts

/-- The ticks counted meanwhile (tasks.c 2233-2252). -/
def makeUp (s : St) : List (List Nat) → C St
  | [] => .ok s
  | ts :: tss =>
    match tickBody s ts with
    | .error e => .error e
    | .ok (req, s) => makeUp { s with yieldPending := s.yieldPending || req } tss

/-- `xTaskResumeAll` (tasks.c 2173-2273). -/
def resumeAll (s : St) (tss : List (List Nat)) : C St :=
  let s := { s with susp := s.susp - 1 }
  if s.susp ≠ 0 then .ok s
  else
    match drain { s with pending := [] } s.pending with
    | .error e => .error e
    | .ok s =>
      match makeUp s tss with
      | .error e => .error e
      | .ok s => .ok { s with pend := s.pend || s.yieldPending }

/-- How a task waits: without limit, or in one of the delayed lists with a wake-up time. tasks.c 5118-5160. -/
inductive Wait where
  | forever
  | until (b : Bool) (v : Nat)
deriving DecidableEq

/-- `prvAddCurrentTaskToDelayedList` (tasks.c 5081-5195) and the yield that every caller asks for
next (tasks.c 1365, 4587, 4660; queue.c 934, 1378, 1569). -/
def block (s : St) (w : Wait) : C St :=
  match takeReady s s.current (s.prio s.current) with
  | .error e => .error e
  | .ok s =>
    match w with
    | .forever => .ok { s with heap := insertEnd s.heap .suspended s.current, pend := true }
    | .until b v =>
      let h := setValue s.heap s.current (v % 4294967296)
      match KList.insert (h.count (.delayed b) + 1) h (.delayed b) s.current with
      | none => .error .assertFail
      | some h => .ok { s with heap := h, pend := true }

/-- An event wakes a task: `xTaskRemoveFromEventList` (tasks.c 3087-3156), also
`xTaskGenericNotifyFromISR` (4908-4945) and `vTaskNotifyGiveFromISR` (4998-5035). The flag says
that the task has a higher priority than the running one. -/
def event (s : St) (t : Nat) : C (Bool × St) :=
  match (if s.susp = 0 then wake s t else .ok { s with pending := s.pending ++ [t] }) with
  | .error e => .error e
  | .ok s =>
    if s.prio s.current < s.prio t then .ok (true, { s with yieldPending := true }) else .ok (false, s)

/-- A ready task changes its priority (tasks.c 3979-4000, 4060-4083). -/
def moveReady (s : St) (t p : Nat) : C St :=
  match takeReady s t (s.prio t) with
  | .error e => .error e
  | .ok s => .ok (addReady { s with prio := Function.update s.prio t p } t)

/-- `xTaskPriorityInherit` (tasks.c 3951-4028): the running task is about to wait for a mutex
that `t` holds. -/
def inherit (s : St) (t : Nat) : C St :=
  if s.prio t < s.prio s.current then
    if isReady s t then moveReady s t (s.prio s.current)
    else .ok { s with prio := Function.update s.prio t (s.prio s.current) }
  else .ok s

/-- `xTaskPriorityDisinherit` (tasks.c 4034-4109): the running task gives a mutex back. It holds no other (C93),
so `uxMutexesHeld` becomes 0. -/
def disinherit (s : St) : C (Bool × St) :=
  if s.prio s.current ≠ s.base s.current then
    match moveReady s s.current (s.base s.current) with
    | .error e => .error e
    | .ok s => .ok (true, s)
  else .ok (false, s)

/-- `xSemaphoreGive` of a mutex (queue.c 830-868, 2080-2095): `w` is the task at the head of the
mutex's list of waiting tasks. -/
def give (s : St) (w : Option Nat) : C St :=
  match disinherit s with
  | .error e => .error e
  | .ok (req, s) =>
    match w with
    | none => .ok { s with pend := s.pend || req }
    | some t =>
      match event s t with
      | .error e => .error e
      | .ok (woken, s) => .ok { s with pend := s.pend || woken }

/-- `vTaskPriorityDisinheritAfterTimeout` (tasks.c 4118-4213): the running task stops waiting for
a mutex that `t` holds; `p` is the priority of the highest task that still waits. The bit that is
reset belongs to the new priority, not to the list that was left (tasks.c 4162, 4185). -/
def timeout (s : St) (t p : Nat) : C St :=
  let q := if s.base t < p then p else s.base t
  if s.prio t = q then .ok s
  else
    let old := s.prio t
    let s := { s with prio := Function.update s.prio t q }
    if s.heap.container t = some (.ready old) then
      match takeReady s t q with
      | .error e => .error e
      | .ok s => .ok (addReady s t)
    else .ok s

/-- `prvInitialiseNewTask`, `prvAddNewTaskToReadyList` (tasks.c 919-925, 1072-1146) once the
scheduler runs. -/
def create (s : St) (t p : Nat) : St :=
  let q := if maxPriorities ≤ p then maxPriorities - 1 else p
  let s := addReady { s with prio := Function.update s.prio t q, base := Function.update s.base t q } t
  { s with pend := s.pend || decide (s.prio s.current < q) }

/-- The same before the scheduler runs (tasks.c 1079-1118): the last of the highest tasks will
run first. -/
def createFirst (s : St) (t p : Nat) : St :=
  let q := if maxPriorities ≤ p then maxPriorities - 1 else p
  let c := if s.top = 0#32 ∨ s.prio s.current ≤ q then t else s.current
  addReady { s with prio := Function.update s.prio t q, base := Function.update s.base t q, current := c } t

/-- `vTaskDelete(NULL)` (tasks.c 1157-1239): the running task ends itself. A bit of the map is reset
only if the list of that priority is empty as well (`taskRESET_READY_PRIORITY`, tasks.c 184-190). The
last check is an assertion (tasks.c 1231). The task's event item is in no list while it runs. -/
def delete (s : St) : C St :=
  let t := s.current
  match remove s.heap t with
  | .error e => .error e
  | .ok (k, h) =>
    let q := s.prio t
    let top := if k = 0 ∧ h.count (.ready q) = 0 then s.top &&& ~~~(1#32 <<< q) else s.top
    if s.susp ≠ 0 then .error .assertFail
    else .ok { s with heap := insertEnd h .ended t, top := top, cleanup := s.cleanup + 1, pend := true }

/-- One round of the loop of `prvCheckTasksWaitingTermination` (tasks.c 3578-3604). Only the idle task
lowers the count, so that the test and the critical section are one step. Stack and control block of
every task are static, so `prvDeleteTCB` frees nothing (tasks.c 3826-3881). -/
def reap (s : St) : C St :=
  if s.cleanup = 0 then .ok s
  else
    match headEntry s.heap .ended with
    | .error e => .error e
    | .ok x =>
      match remove s.heap x with
      | .error e => .error e
      | .ok (_, h) => .ok { s with heap := h, cleanup := s.cleanup - 1 }

/-- What happens to the kernel. In `tick` and `resumeAll` the lists are the tasks whose time has
come; in `event` the flag says that the caller passes the wish to switch on
(`portYIELD_FROM_ISR`, `queueYIELD_IF_USING_PREEMPTION`); `notify` is `xTaskGenericNotify`
called by a task. Lines at the functions below. tasks.c 1157-1239, 2665-2832, 2947-3010, 3087-3156, 3578-3604, 5081-5195. -/
inductive Ev where
  | create (t p : Nat)
  | block (w : Wait)
  | tick (ts : List Nat)
  | event (t : Nat) (asks : Bool)
  | notify (t : Nat)
  | suspendAll
  | resumeAll (tss : List (List Nat))
  | inherit (t : Nat)
  | give (w : Option Nat)
  | timeout (t p : Nat)
  | delete
  | reap
  | yield
  | switch
deriving DecidableEq

/-- One event. Where the code relies on the list a task is in, an event in any other situation
does not happen and changes nothing: only a ready running task other than the idle task calls a
blocking function (tasks.c 5099, 3334), only blocked tasks are woken, tasks are created once, a task ends itself while it runs and not while it
has the scheduler suspended, only the idle task clears up (tasks.c 3351), each
`xTaskResumeAll` follows a `vTaskSuspendAll` (asserted, tasks.c 2180). A mutex has another holder than
the task that waits for it. When a wait for a mutex times out (`timeout`), the tasks that still wait are not
above the holder's priority; if the holder has to move to another ready list, it does not leave its list empty.
That this is so whenever tasks hold one mutex at a time (C93) is proved on top of this model, in C119. -/
def step (s : St) : Ev → C St
  | .create t p => if s.heap.container t = none then .ok (create s t p) else .ok s
  | .block w =>
    if isReady s s.current ∧ s.current ≠ idle then block s w
    else .ok s
  | .tick ts =>
    if s.susp = 0 then
      match tickBody s ts with
      | .error e => .error e
      | .ok (req, s) => .ok { s with pend := s.pend || req }
    else .ok { s with pend := s.pend || s.yieldPending }
  | .event t asks =>
    if isBlocked s t then
      match event s t with
      | .error e => .error e
      | .ok (woken, s) => .ok { s with pend := s.pend || (woken && asks) }
    else .ok s
  | .notify t =>
    if isBlocked s t then
      match wake s t with
      | .error e => .error e
      | .ok s => .ok { s with pend := s.pend || decide (s.prio s.current < s.prio t) }
    else .ok s
  | .suspendAll => .ok { s with susp := s.susp + 1 }
  | .resumeAll tss => if s.susp = 0 then .ok s else resumeAll s tss
  | .inherit t => if t = s.current then .ok s else inherit s t
  | .give w =>
    if isReady s s.current ∧ (∀ t ∈ w, isBlocked s t) then give s w
    else .ok s
  | .timeout t p =>
    if t ≠ s.current ∧ p ≤ s.prio t ∧
        (isReady s t → s.prio t = max (s.base t) p ∨ 1 < s.heap.count (.ready (s.prio t))) then
      timeout s t p
    else .ok s
  | .delete => if isReady s s.current ∧ s.current ≠ idle ∧ s.susp = 0 then delete s else .ok s
  | .reap => if s.current = idle then reap s else .ok s
  | .yield => .ok { s with pend := true }
  | .switch => if s.pend then switchContext s else .ok s

/-- A history. tasks.c 2665-2832, 2947-3010, 3087-3156, 5081-5195. -/
def run : St → List Ev → C St
  | s, [] => .ok s
  | s, e :: es =>
    match step s e with
    | .error u => .error u
    | .ok s => run s es

/-- The kernel when the scheduler starts (tasks.c 1967-2060): the tasks created by then, in order,
with their priorities, and the idle task with priority 0. -/
def start (junk : Nat → Addr LId Nat) (ts : List (Nat × Nat)) : St :=
  let s : St := ⟨init junk (fun _ => 0), 0#32, fun _ => 0, fun _ => 0, idle, 0, false, false, [], 0⟩
  (ts ++ [(idle, 0)]).foldl
    (fun (s : St) (t : Nat × Nat) => if s.heap.container t.1 = none then createFirst s t.1 t.2 else s) s

end Verif.Ready
