import Verif.Spec.Ready

set_option autoImplicit false

/-!
# What waking a task means

Stated with the events of the kernel and `CanRun` only.
-/

namespace Verif.Ready

/-- The event wakes the task: an interrupt or another task signals it, the mutex it waits for is
given back to it, or its time comes. -/
def Wakes (s : St) (t : Nat) : Ev → Prop
  | .event u _ => u = t
  | .notify u => u = t
  | .give w => w = some t ∧ CanRun s s.current
  | .tick ts => t ∈ ts ∧ (∃ b, s.heap.container t = some (.delayed b)) ∧ s.susp = 0
  | .resumeAll tss => s.susp = 1 ∧ (∃ b, s.heap.container t = some (.delayed b)) ∧ ∃ ts ∈ tss, t ∈ ts
  | _ => False

/-- The event has to do with waking or creating the task. -/
def Names (t : Nat) : Ev → Prop
  | .create u _ => u = t
  | .event u _ => u = t
  | .notify u => u = t
  | .give w => w = some t
  | .tick ts => t ∈ ts
  | .resumeAll tss => ∃ ts ∈ tss, t ∈ ts
  | _ => False

/-- The task itself, running, calls a blocking function. -/
def Sleeps (s : St) (t : Nat) (e : Ev) : Prop := (∃ w, e = .block w) ∧ s.current = t

/-- The task itself, running, ends. -/
def Ends (s : St) (t : Nat) (e : Ev) : Prop := e = .delete ∧ s.current = t

/-- The task never calls a blocking function and does not end. -/
def NoSleep (t : Nat) : St → List Ev → Prop
  | _, [] => True
  | s, e :: es => ¬ (Sleeps s t e ∨ Ends s t e) ∧ ∀ s', step s e = .ok s' → NoSleep t s' es

/-- The task has been created and has not ended. -/
def Alive (s : St) (t : Nat) : Prop := s.heap.container t ≠ none ∧ s.heap.container t ≠ some .ended

end Verif.Ready
