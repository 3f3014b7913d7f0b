import Verif.C.Basic

set_option autoImplicit false

/-!
# Task timer: system-lib/tasktimer/tasktimer.c

Timers are identified by their `Instance`; tasks by a number. A registered task is a pointer to a
task handle; `none` is the null pointer. The handle pointed to is taken as valid here, see the
start-up model for the order in which handles are created.
-/

namespace Verif.TaskTimer

/-- `TASKTIMER_MAX_TASKS` (tasktimer.h 26). -/
def maxTasks : Nat := 16

/-- `TASKTIMER_FREQUENCY_COUNT` (tasktimer.h 36-39). -/
def frequencyCount : Nat := 1

/-- `TaskTimer_Status_T` (tasktimer.h 28-34). -/
inductive Status where
  | ok | errorTimer | errorFull | errorInvalidTimer | errorDepends
deriving DecidableEq, Repr

/-- Static data (tasktimer.c 35-37) for the single frequency: the timer handle (null or its `Instance`), the
task list and `isInitialized`. -/
structure St where
  timHandle : Option Nat
  numTasks : UInt8
  tasks : List (Option Nat)
  isInitialized : Bool
deriving DecidableEq, Repr

/-- Static initialisation (tasktimer.c 35-37). -/
def power : St := ⟨none, 0, List.replicate maxTasks none, false⟩

/-- `TaskTimer_Init` (tasktimer.c 41-65) up to the registration: `depends` is the outcome of the dependency
check, `started` that of `HAL_TIM_Base_Start_IT`. -/
def init (s : St) (depends : Bool) (htim : Option Nat) (started : Bool) : Status × St :=
  if !depends then (.errorDepends, s)
  else
    let s : St := ⟨htim, 0, List.replicate maxTasks none, true⟩
    if htim = none ∨ !started then (.errorTimer, s) else (.ok, s)

/-- `TaskTimer_RegisterTask` (tasktimer.c 68-91); `depends` is the outcome of line 72. -/
def registerTask (s : St) (depends : Bool) (task : Option Nat) (timer : Nat) :
    C (Status × St) :=
  if !depends then .ok (.errorDepends, s)
  else if frequencyCount ≤ timer then .ok (.errorInvalidTimer, s)
  else if maxTasks = s.numTasks.toNat then .ok (.errorFull, s)
  else if s.numTasks.toNat < s.tasks.length then
    .ok (.ok, { s with
      tasks := s.tasks.set s.numTasks.toNat task
      numTasks := s.numTasks + 1 })
  else .error .oobWrite

/-- The loop tasktimer.c 117-122: `n` entries from index `i` on; returns the tasks notified. -/
def notifyLoop (tasks : List (Option Nat)) (i : Nat) : Nat → C (List Nat)
  | 0 => .ok []
  | n + 1 =>
    match tasks[i]? with
    | none => .error .oobRead
    | some none => .error .nullDeref
    | some (some t) => do
      let rest ← notifyLoop tasks (i + 1) n
      .ok (t :: rest)

/-- `TaskTimer_TIM_PeriodElapsedCallback` (tasktimer.c 94-125) for a timer with the given `Instance`. -/
def callback (s : St) (inst : Nat) : C (List Nat) :=
  if !s.isInitialized then .ok []
  else
    match s.timHandle with
    | none => .error .nullDeref
    | some h => if inst = h then notifyLoop s.tasks 0 s.numTasks.toNat else .ok []

/-- A sequence of registrations of non-null handles with this frequency, and their results. tasktimer.c 68-91. -/
def registerAll : St → List Nat → C (List Status × St)
  | s, [] => .ok ([], s)
  | s, t :: ts => do
    let (r, s') ← registerTask s true (some t) 0
    let (rs, s'') ← registerAll s' ts
    .ok (r :: rs, s'')

end Verif.TaskTimer
