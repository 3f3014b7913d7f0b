import Verif.Model.Locks

set_option autoImplicit false

/-!
# What correct use of mutexes means

A discipline that can be read off a program text: every access to a shared
object happens while its mutex is held, mutexes are taken in increasing order of
a rank, only held mutexes are given back, and all are given back in the end.
-/

namespace Verif.LockSpec

open Verif.Locks

variable {L F V : Type} [DecidableEq L]

/-- The mutexes held after executing `p` starting with those in `h`. -/
def heldAfter (h : List L) : List (Instr L F V) → List L
  | [] => h
  | .acq l :: p => heldAfter (l :: h) p
  | .rel l :: p => heldAfter (h.erase l) p
  | .wr _ _ :: p => heldAfter h p
  | .rd _ :: p => heldAfter h p

/-- The discipline for a program executed while holding `h`. -/
def Disciplined (guard : F → L) (rank : L → Nat) (h : List L) : List (Instr L F V) → Prop
  | [] => h = []
  | .acq l :: p => (∀ k ∈ h, rank k < rank l) ∧ Disciplined guard rank (l :: h) p
  | .rel l :: p => l ∈ h ∧ Disciplined guard rank (h.erase l) p
  | .wr f _ :: p => guard f ∈ h ∧ Disciplined guard rank h p
  | .rd f :: p => guard f ∈ h ∧ Disciplined guard rank h p

/-- Instructions that neither take nor give a mutex. -/
def Plain : Instr L F V → Prop
  | .acq _ => False
  | .rel _ => False
  | _ => True

end Verif.LockSpec
