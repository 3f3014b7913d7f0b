import Verif.Model.Ready

set_option autoImplicit false

/-!
# What the tasks may expect of the scheduler

Only the list a task's own item names as its container, its priority, the running task and the
events are looked at: not the links of the lists, their reading positions or the bit map.
-/

namespace Verif.Ready

/-- The task can run: the list it is in is a ready list. -/
def CanRun (s : St) (t : Nat) : Prop := ∃ p, s.heap.container t = some (.ready p)

/-- The right task is running: it can run, and no task that can run has a higher priority. -/
def Right (s : St) : Prop := CanRun s s.current ∧ ∀ t, CanRun s t → s.prio t ≤ s.prio s.current

/-- An event that makes the processor change tasks. -/
def Switches (s : St) (e : Ev) : Prop := e = .switch ∧ s.pend = true ∧ s.susp = 0

instance (s : St) (e : Ev) : Decidable (Switches s e) := by unfold Switches; infer_instance

/-- The tasks that are given the processor in turn at priority `p`. -/
def picks (p : Nat) : St → List Ev → List Nat
  | _, [] => []
  | s, e :: es =>
    match step s e with
    | .error _ => []
    | .ok s' => (if Switches s e ∧ s'.prio s'.current = p then [s'.current] else []) ++ picks p s' es

/-- Something holds all the time. -/
def Along (A : St → Prop) : St → List Ev → Prop
  | s, [] => A s
  | s, e :: es => A s ∧ ∀ s', step s e = .ok s' → Along A s' es

/-- The running task gives a mutex back at a priority that it has inherited although no task that
waits for the mutex is above its own: the task that lent the priority has given up waiting. Other
tasks still wait. -/
def StaleGive (s : St) (e : Ev) : Prop :=
  s.prio s.current ≠ s.base s.current ∧ ∃ t, e = .give (some t) ∧ s.prio t ≤ s.base s.current

/-- No mutex is given back like that. -/
def NoStaleGive : St → List Ev → Prop
  | _, [] => True
  | s, e :: es => ¬ StaleGive s e ∧ ∀ s', step s e = .ok s' → NoStaleGive s' es

/-- A state of the running system. -/
def Reached (s : St) : Prop := ∃ junk ts es, run (start junk ts) es = .ok s

/-- A state of the running system in which no mutex has been given back by a task whose lender had
given up waiting. -/
def Orderly (s : St) : Prop :=
  ∃ junk ts es, run (start junk ts) es = .ok s ∧ NoStaleGive (start junk ts) es

end Verif.Ready
