import Verif.Model.Vsm

set_option autoImplicit false

/-!
# A task woken by the task timer

`ulTaskNotifyTake(pdTRUE, …)` and `vTaskNotifyGiveFromISR` around the body of a
periodic task (vehicleStateManager.c:18-27; the same loop is in
throttleController.c:43-66, discretesense.c, orionBms.c:145, cInverter.c:297,
watchdogTrigger.c:17).
-/

namespace Verif.Ticks

/-- What can happen: the timer interrupt notifies the task (tasktimer.c:117-122),
or the task is scheduled and makes one pass through its loop; `i` is what its
body reads from outside. -/
inductive Ev (I : Type) where
  | notify
  | run (i : I)
deriving DecidableEq, Repr

/-- The task's notification count (`ulNotifiedValue`, a `uint32_t`) and the state
its body works on. tasks.c 4566-4627. -/
structure St (S : Type) where
  count : UInt32
  body : S

/-- One event.  The give increments the count; the take with `pdTRUE` returns the
count and clears it, and the body runs once if the returned value is positive
(vehicleStateManager.c:21-25).  A take that times out returns 0 and is a pass
without effect, like a pass that never happens. -/
def step {S I : Type} (f : S → I → S) (s : St S) : Ev I → St S
  | .notify => { s with count := s.count + 1 }
  | .run i => if s.count > 0 then { count := 0, body := f s.body i } else s

/-- A history. vehicleStateManager.c:18-36. -/
def runs {S I : Type} (f : S → I → S) (s : St S) (es : List (Ev I)) : St S :=
  es.foldl (step f) s

end Verif.Ticks
