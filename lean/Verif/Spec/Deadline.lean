import Verif.Spec.Ready

set_option autoImplicit false

/-!
# Histories with processor time

Between the events of the kernel the processor does work: a unit of time is spent either by the running task or by an
interrupt routine. A switch that has been asked for is made before the task goes on (the PendSV exception of the
processor, which nothing but other interrupts delays).
-/

namespace Verif.Ready

/-- An event of the kernel, or a unit of processor time. -/
inductive Act
  | kernel (e : Ev)
  | work
  | irq

/-- The state after it: time passes without changing the kernel's data. -/
def act (s : St) : Act → C St
  | .kernel e => step s e
  | .work => .ok s
  | .irq => .ok s

/-- The state after a history. -/
def exec : St → List Act → C St
  | s, [] => .ok s
  | s, a :: as =>
    match act s a with
    | .error u => .error u
    | .ok s' => exec s' as

/-- Processor time. -/
def units : List Act → Nat
  | [] => 0
  | .kernel _ :: as => units as
  | .work :: as => units as + 1
  | .irq :: as => units as + 1

/-- Processor time of interrupt routines. -/
def irqs : List Act → Nat
  | [] => 0
  | .irq :: as => irqs as + 1
  | _ :: as => irqs as

/-- Processor time of tasks in states of some kind. -/
def spent (A : St → Bool) : St → List Act → Nat
  | _, [] => 0
  | s, a :: as =>
    (match a with
      | .work => if A s then 1 else 0
      | _ => 0) +
    (match act s a with
      | .error _ => 0
      | .ok s' => spent A s' as)

/-- Tasks only go on when no switch has been asked for. -/
def Served : St → List Act → Prop
  | _, [] => True
  | s, a :: as => (a = .work → s.pend = false) ∧ ∀ s', act s a = .ok s' → Served s' as

/-- No mutex is given back at a priority whose lender has given up waiting. -/
def Clean : St → List Act → Prop
  | _, [] => True
  | s, a :: as => (∀ e, a = .kernel e → ¬ StaleGive s e) ∧ ∀ s', act s a = .ok s' → Clean s' as

/-- The running task, at this priority or above. -/
def runs (p u : Nat) (s : St) : Bool := decide (s.current = u) && decide (p ≤ s.prio u)

/-- A switch is owed: the scheduler is suspended, or an interrupt routine did not ask for the switch. -/
def late (s : St) : Bool := s.yieldPending

end Verif.Ready
