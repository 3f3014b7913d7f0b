import Verif.Model.TimIrq

set_option autoImplicit false

/-!
# Update events and callbacks
-/

namespace Verif.TimIrq.Spec

/-- Whether there was an update event since the last callback; latest first. -/
def owed : List Obs → Bool
  | [] => false
  | .update :: _ => true
  | .call .period :: _ => false
  | .call _ :: l => owed l

/-- Update events so far. -/
def updates (l : List Obs) : Nat := l.countP (· == .update)

/-- Callbacks for them so far. -/
def periods (l : List Obs) : Nat := l.countP (· == .call .period)

/-- Every update event came after the callback for the one before; latest first. -/
def Apart : List Obs → Prop
  | [] => True
  | .update :: l => owed l = false ∧ Apart l
  | .call _ :: l => Apart l

end Verif.TimIrq.Spec
