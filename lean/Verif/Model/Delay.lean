import Verif.C.Basic

set_option autoImplicit false

/-!
# Timed waits in the kernel (Lib/FreeRTOS/Source/tasks.c)

The two delayed lists, the 32-bit tick counter and `xNextTaskUnblockTime`. The doubly linked
lists of list.c are lists here, head first. Every operation is in a critical section or in the
tick interrupt (C101). While the scheduler is suspended ticks are counted and made up for by
the same function (tasks.c 2233-2252); a wake-up then waits as well. That delay is not modelled:
here every tick comes with the scheduler running. `configUSE_TICKLESS_IDLE` and
`INCLUDE_xTaskAbortDelay` are 0, `INCLUDE_vTaskSuspend` is 1.
-/

namespace Verif.Delay

/-- Number of values of `TickType_t`, a `uint32_t` (portmacro.h 63, FreeRTOSConfig.h 69). -/
def W : Nat := 4294967296

/-- `portMAX_DELAY` (portmacro.h 64). -/
def maxDelay : Nat := 4294967295

/-- A task and its `xItemValue`, the time to wake it. list.h 139-150. -/
structure Item where
  task : Nat
  val : Nat
deriving DecidableEq, Repr

/-- `xTickCount`, `pxDelayedTaskList`, `pxOverflowDelayedTaskList`, `xNextTaskUnblockTime`
(tasks.c 350-375), and the tasks in `xSuspendedTaskList` that wait without limit. -/
structure St where
  tick : Nat
  delayed : List Item
  overflow : List Item
  next : Nat
  forever : List Nat
deriving DecidableEq, Repr

/-- After `vTaskStartScheduler` (tasks.c 2049-2051) with the initial tick count
`configINITIAL_TICK_COUNT` (0; any value is allowed here). -/
def start (t0 : Nat) : St := ⟨t0, [], [], maxDelay, []⟩

/-- `vListInsert` (list.c 103-167): behind the last item whose value is not larger; the largest
value goes to the end. -/
def insert (x : Item) : List Item → List Item
  | [] => [x]
  | y :: ys => if y.val ≤ x.val then y :: insert x ys else x :: y :: ys

/-- The loop of `xTaskIncrementTick` (tasks.c 2702-2770): the woken tasks, the remaining list and
the new `xNextTaskUnblockTime`. -/
def unblock (now : Nat) : List Item → List Nat × List Item × Nat
  | [] => ([], [], maxDelay)
  | y :: ys =>
    if now < y.val then ([], y :: ys, y.val)
    else (y.task :: (unblock now ys).1, (unblock now ys).2)

/-- `prvResetNextTaskUnblockTime` (tasks.c 3880-3901). -/
def reset (l : List Item) : Nat :=
  match l with
  | [] => maxDelay
  | y :: _ => y.val

/-- `taskSWITCH_DELAYED_LISTS` (tasks.c 198-210): asserts an empty list. -/
def switch (s : St) : C St :=
  if s.delayed ≠ [] then .error .assertFail
  else .ok { s with delayed := s.overflow, overflow := s.delayed, next := reset s.overflow }

/-- `xTaskIncrementTick` (tasks.c 2665-2832): the tasks made ready, and the new state. -/
def tick (s : St) : C (List Nat × St) :=
  let now := (s.tick + 1) % W
  match (if now = 0 then switch { s with tick := now } else .ok { s with tick := now }) with
  | .error e => .error e
  | .ok s =>
    if s.next ≤ now then
      .ok ((unblock now s.delayed).1,
        { s with delayed := (unblock now s.delayed).2.1, next := (unblock now s.delayed).2.2 })
    else .ok ([], s)

/-- `prvAddCurrentTaskToDelayedList` (tasks.c 5081-5195) with `xCanBlockIndefinitely`, as in
every call of the firmware (queues, notifications). -/
def block (s : St) (t n : Nat) : St :=
  if n = maxDelay then { s with forever := s.forever ++ [t] }
  else
    let wake := (s.tick + n) % W
    if wake < s.tick then { s with overflow := insert ⟨t, wake⟩ s.overflow }
    else { s with delayed := insert ⟨t, wake⟩ s.delayed, next := if wake < s.next then wake else s.next }

/-- The event a task waits for happens: `uxListRemove` of its state item, whichever list it is
on (tasks.c 3117, 5005; list.c 170-195). `xNextTaskUnblockTime` stays (3121-3133). -/
def remove (s : St) (t : Nat) : St :=
  { s with delayed := s.delayed.filter (·.task ≠ t), overflow := s.overflow.filter (·.task ≠ t)
           forever := s.forever.filter (· ≠ t) }

/-- What happens: a tick; a task that is not waiting begins to wait for `n` ticks at most (a call
with `n` = 0 does not wait, queue.c 879, 1336, 1498, tasks.c 4578); the event task `t` waits for. -/
inductive Ev where
  | tick
  | block (t n : Nat)
  | event (t : Nat)
deriving DecidableEq, Repr

/-- Is the task waiting? A waiting task executes nothing, so it cannot begin to wait. tasks.c 5081-5195. -/
def waiting (s : St) (t : Nat) : Bool :=
  s.delayed.any (·.task == t) || s.overflow.any (·.task == t) || s.forever.any (· == t)

/-- One event: the tasks whose time has run out, and the new state. tasks.c 2665-2832, 5081-5195, 3117-3133. -/
def step (s : St) : Ev → C (List Nat × St)
  | .tick => tick s
  | .block t n => if waiting s t || n == 0 then .ok ([], s) else .ok ([], block s t n)
  | .event t => .ok ([], remove s t)

/-- A history: for every event the tasks whose time ran out. tasks.c 2665-2832, 5081-5195, 3117-3133. -/
def run : St → List Ev → C (List (List Nat) × St)
  | s, [] => .ok ([], s)
  | s, e :: es =>
    match step s e with
    | .error u => .error u
    | .ok (w, s') =>
      match run s' es with
      | .error u => .error u
      | .ok (ws, s'') => .ok (w :: ws, s'')

end Verif.Delay
