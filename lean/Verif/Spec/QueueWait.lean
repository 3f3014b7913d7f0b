import Verif.Model.QueueWait

set_option autoImplicit false

/-!
# What a task that waits on a queue may expect
-/

namespace Verif.QueueWait

variable {n : Nat}

/-- The tasks that wait to send, or to receive, in the order in which they will be woken. -/
def queueOf (s : St n) : Dir → List (Fin n)
  | .send => s.waitS
  | .recv => s.waitR

/-- The task sleeps until the queue has room / a message. -/
def Asleep (s : St n) (d : Dir) (t : Fin n) : Prop := s.pc t = .blocked d ∧ t ∈ queueOf s d

/-- The tasks that have been woken from such a sleep and have not looked at the queue since. -/
def awake (s : St n) (d : Dir) : Finset (Fin n) :=
  Finset.univ.filter fun t => s.pc t = .blocked d ∧ t ∉ queueOf s d

/-- What the tasks wait for: messages, or free places. -/
def amount (c : Cfg n) (s : St n) : Dir → Nat
  | .send => c.len - s.msgs
  | .recv => s.msgs

/-- A state of the running system: any events since the queue was created with some messages. -/
def Reached (c : Cfg n) (s : St n) : Prop := ∃ m es, m ≤ c.len ∧ s = run c (create n m) es

/-- Nobody runs out of time, and all calls have a block time. -/
def Ev.patient : Ev n → Prop
  | .call _ _ b => b = true
  | .step _ expired => expired = false
  | _ => True

end Verif.QueueWait
