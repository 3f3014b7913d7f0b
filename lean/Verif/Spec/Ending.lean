import Verif.Spec.Wake

set_option autoImplicit false

/-!
# What the end of a task means

Stated with the events, the list a task's own item names, and the running task only.
-/

namespace Verif.Ready

/-- The task is not created in this history. -/
def NotCreated (t : Nat) (es : List Ev) : Prop := ∀ p, Ev.create t p ∉ es

/-- The processor has changed tasks at least once. -/
def Switched : St → List Ev → Prop
  | _, [] => False
  | s, e :: es => Switches s e ∨ ∀ s', step s e = .ok s' → Switched s' es

/-- A change of tasks has been asked for. -/
def Owed (s : St) : Prop := s.pend = true ∨ s.yieldPending = true

/-- Nothing but the list of ended tasks differs for the others. -/
structure OthersKeep (s s' : St) (t : Nat) : Prop where
  lists : ∀ x, x ≠ t → s'.heap.container x = s.heap.container x
  prio : s'.prio = s.prio
  base : s'.base = s.base
  current : s'.current = s.current
  pending : s'.pending = s.pending
  susp : s'.susp = s.susp

end Verif.Ready
