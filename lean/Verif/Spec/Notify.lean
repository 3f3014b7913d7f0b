import Verif.Model.Notify

set_option autoImplicit false

/-!
# Counting notifications

What the giver gave and what the task was told, read off the events and the results alone.
-/

namespace Verif.Notify

/-- The number of notifications given. -/
def gives : List Ev → Nat
  | [] => 0
  | .give :: es => gives es + 1
  | _ :: es => gives es

/-- The notifications a result accounts for: all that it says, or one. -/
def accounts (r : Bool × UInt32) : Nat :=
  if r.1 then r.2.toNat else if r.2 = 0 then 0 else 1

/-- The notifications the results account for. -/
def taken (rets : List (Bool × UInt32)) : Nat := (rets.map accounts).sum

/-- The calls that returned with something. -/
def active (rets : List (Bool × UInt32)) : Nat := (rets.filter (fun r => r.2 ≠ 0)).length

/-- States that can come about. -/
def Reached (s : St) : Prop := ∃ es, run init es = .ok s

end Verif.Notify
