import Verif.Model.Inherit
import Verif.Spec.Ready

set_option autoImplicit false

/-!
# What the tasks may expect of mutexes

Only who holds a mutex, who waits for it, the priorities and the running task are looked at.
-/

namespace Verif.Inherit

/-- The running task is about to give mutex `m` back at a priority it has been lent, and the first
of the tasks that wait is not above its own priority. -/
def Stale (s : St) (m : Nat) : Prop :=
  s.holder m = some s.k.current ∧ s.k.prio s.k.current ≠ s.k.base s.k.current ∧
    ∃ t, (s.waiting m).head? = some t ∧ s.k.prio t ≤ s.k.base s.k.current

/-- No mutex is given back like that. -/
def NoStale (limited : Nat → Bool) : St → List Ev → Prop
  | _, [] => True
  | s, e :: es => (∀ m, e = .give m → ¬ Stale s m) ∧ ∀ s', step limited s e = .ok s' → NoStale limited s' es

/-- A state of the running system. -/
def Reached (limited : Nat → Bool) (s : St) : Prop := ∃ junk ts es, run limited (start junk ts) es = .ok s

/-- A state of the running system in which no mutex has been given back like that. -/
def Orderly (limited : Nat → Bool) (s : St) : Prop :=
  ∃ junk ts es, run limited (start junk ts) es = .ok s ∧ NoStale limited (start junk ts) es

/-- At most one mutex is taken with a time limit. -/
def OneLimited (limited : Nat → Bool) : Prop := ∀ a b, limited a = true → limited b = true → a = b

/-- The task holds a mutex. -/
def HoldsSome (s : St) (t : Nat) : Prop := ∃ m, s.holder m = some t

/-- The time limit of the task has ended while it waited for `m`; the call has not returned. -/
def Late (s : St) (m t : Nat) : Prop :=
  (∃ i f, s.call t = some ⟨m, i, f⟩) ∧ t ∉ s.waiting m ∧ Ready.CanRun s.k t

end Verif.Inherit
