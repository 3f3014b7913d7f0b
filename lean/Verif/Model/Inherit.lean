import Verif.Model.Ready

set_option autoImplicit false

/-!
# Mutexes and the priorities they lend (queue.c, tasks.c)

`xSemaphoreTake` and `xSemaphoreGive` of any number of mutexes, on top of the ready lists of
`Verif.Ready`. The calls of the kernel functions that change priorities are made here without any
condition on the state of the scheduler: that those conditions hold (`Verif.Ready.step`) is to be
proved. The list of the tasks that wait for a mutex holds the tasks in the order of `vListInsert`;
that the pointers form that list is C105. A task holds one mutex at a time (C93).
-/

namespace Verif.Inherit

open Verif.Ready (Wait isReady idle)

/-- A call of `xQueueSemaphoreTake` that has waited at least once: the mutex, `xInheritanceOccurred`
(queue.c 1421), and whether the call has found its time over and the mutex still taken (queue.c
1584-1597) and is about to return. -/
structure Call where
  mutex : Nat
  inherited : Bool
  failed : Bool
deriving DecidableEq

/-- The scheduler; `xMutexHolder` and `xTasksWaitingToReceive` of every mutex (queue.c 66-111);
the call every task is in; `uxMutexesHeld` of every task (tasks.c 281). -/
structure St where
  k : Ready.St
  holder : Nat → Option Nat
  waiting : Nat → List Nat
  call : Nat → Option Call
  held : Nat → Nat

/-- `vTaskPlaceOnEventList` (tasks.c 3020-3034): behind all tasks of the same or a higher priority.
The item values were set from the priorities that the tasks had when they began to wait; tasks that
wait hold no mutex, so these have not changed. -/
def place (prio : Nat → Nat) (t : Nat) : List Nat → List Nat
  | [] => [t]
  | x :: l => if prio x < prio t then t :: x :: l else x :: place prio t l

/-- `prvGetDisinheritPriorityAfterTimeout` (queue.c 2045-2065). -/
def highest (prio : Nat → Nat) : List Nat → Nat
  | [] => 0
  | x :: _ => prio x

/-- May the running task execute an instruction? A pending switch is made first, unless the
scheduler is suspended. PendSV is taken as soon as nothing masks it (port.c 419-475); tasks.c 2949-2954. -/
def mayAct (k : Ready.St) : Bool := !k.pend || k.susp ≠ 0

/-- The running task, outside all sections with the scheduler suspended. `uxSchedulerSuspended`, tasks.c 2947-2954. -/
def runs (k : Ready.St) : Bool := isReady k k.current && !k.pend && k.susp = 0

/-- An event of the scheduler. The tasks that a tick woke leave the list of waiting tasks (tasks.c
2739-2747); no other event wakes any of them. -/
def sched (s : St) (e : Ready.Ev) : C St :=
  match Ready.step s.k e with
  | .error u => .error u
  | .ok k => .ok { s with k := k, waiting := fun m => (s.waiting m).filter (fun t => !isReady k t) }

/-- Which events of the scheduler are possible. Those for mutexes come from the calls below. Until
a call for a mutex has returned, the task does not block for anything else, and no other event
wakes it. queue.c 1414-1637. The one task that ends itself holds no mutex (initialize.c 245-267). -/
def allowed (s : St) : Ready.Ev → Bool
  | .inherit _ => false
  | .give _ => false
  | .timeout _ _ => false
  | .block _ => mayAct s.k && decide (s.call s.k.current = none)
  | .delete => mayAct s.k && decide (s.call s.k.current = none) && decide (s.held s.k.current = 0)
  | .suspendAll => mayAct s.k
  | .event t _ => s.call t = none
  | .notify t => s.call t = none
  | _ => true

/-- What happens. `take`: the running task calls `xSemaphoreTake`, or goes on with a call after it
was woken. `check`: it finds that its time is over and the mutex still taken. `expire`: it gives
up. All else is an event of the scheduler. queue.c 1414-1637, 830-868. -/
inductive Ev where
  | take (m : Nat) (w : Wait)
  | check
  | expire
  | give (m : Nat)
  | other (e : Ready.Ev)
deriving DecidableEq

/-- Taking a mutex (queue.c 1414-1637). Free: queue.c 1452-1494, `pvTaskIncrementMutexHeldCount`
(tasks.c 4549-4559). Taken: the holder inherits the priority (queue.c 1548-1558; the result of
`xTaskPriorityInherit` is tasks.c 3961-4028), the task goes to sleep (queue.c 1565, 1567). Between
`vTaskSuspendAll` and `xTaskResumeAll` (queue.c 1534, 1567) only interrupts can happen; here they
happen after it. -/
def take (s : St) (m : Nat) (w : Wait) : C St :=
  let t := s.k.current
  match s.holder m with
  | none =>
    .ok { s with holder := Function.update s.holder m (some t)
                 call := Function.update s.call t none
                 held := Function.update s.held t (s.held t + 1) }
  | some h =>
    let inherited := decide (s.k.prio h < s.k.prio t) || decide (s.k.base h < s.k.prio t)
    match Ready.inherit s.k h with
    | .error e => .error e
    | .ok k =>
      match Ready.block k w with
      | .error e => .error e
      | .ok k =>
        .ok { s with k := k
                     waiting := Function.update s.waiting m (place s.k.prio t (s.waiting m))
                     call := Function.update s.call t (some ⟨m, inherited, false⟩) }

/-- Giving up (queue.c 1596-1625, tasks.c 4118-4154): the priority that was lent is taken back from the task that
holds the mutex now, if there is one. -/
def expire (s : St) (c : Call) : C St :=
  let t := s.k.current
  let s' := { s with call := Function.update s.call t none }
  if c.inherited then
    match s.holder c.mutex with
    | none => .ok s'
    | some h =>
      if s.held h = 0 ∨ h = t then .error .assertFail
      else match Ready.timeout s.k h (highest s.k.prio (s.waiting c.mutex)) with
      | .error e => .error e
      | .ok k => .ok { s' with k := k }
  else .ok s'

/-- Giving a mutex back (queue.c 830-868, 2080-2096; `uxMutexesHeld`: tasks.c 4050-4051). -/
def give (s : St) (m : Nat) : C St :=
  if s.held s.k.current = 0 then .error .assertFail
  else match Ready.give s.k (s.waiting m).head? with
  | .error e => .error e
  | .ok k =>
    .ok { s with k := k
                 holder := Function.update s.holder m none
                 waiting := Function.update s.waiting m (s.waiting m).tail
                 held := Function.update s.held s.k.current (s.held s.k.current - 1) }

/-- One event; `limited m` says that calls wait for mutex `m` with a time limit. An event
that is not possible changes nothing: the running task acts only if it can run and no switch is
pending; it takes a mutex only while it holds none (C93), and gives back what it holds (C93). queue.c 747-954, 1414-1637. -/
def step (limited : Nat → Bool) (s : St) : Ev → C St
  | .take m w =>
    if runs s.k ∧ s.k.current ≠ idle ∧ s.held s.k.current = 0 ∧
        (∀ c ∈ s.call s.k.current, c.mutex = m ∧ c.failed = false) ∧
        (limited m ∨ w = .forever ∨ s.holder m = none) then take s m w
    else .ok s
  | .check =>
    match s.call s.k.current with
    | some c =>
      if runs s.k ∧ limited c.mutex ∧ s.holder c.mutex ≠ none then
        .ok { s with call := Function.update s.call s.k.current (some { c with failed := true }) }
      else .ok s
    | none => .ok s
  | .expire =>
    match s.call s.k.current with
    | some c => if runs s.k ∧ c.failed then expire s c else .ok s
    | none => .ok s
  | .give m => if runs s.k ∧ s.holder m = some s.k.current then give s m else .ok s
  | .other e => if allowed s e then sched s e else .ok s

/-- A history. queue.c 1414-1637, 830-868. -/
def run (limited : Nat → Bool) : St → List Ev → C St
  | s, [] => .ok s
  | s, e :: es =>
    match step limited s e with
    | .error u => .error u
    | .ok s => run limited s es

/-- The scheduler starts: all mutexes are free (`prvInitialiseMutex`, queue.c 473-497). -/
def start (junk : Nat → KList.Addr Ready.LId Nat) (ts : List (Nat × Nat)) : St :=
  ⟨Ready.start junk ts, fun _ => none, fun _ => [], fun _ => none, fun _ => 0⟩

end Verif.Inherit
