import Verif.Model.Exti

set_option autoImplicit false

/-!
# Edges and callbacks
-/

namespace Verif.Exti.Spec

open Verif.Exti

/-- Whether line `p` has had an edge since its last callback; history with the latest first. -/
def owed (p : Nat) : List Obs → Bool
  | [] => false
  | .edge q :: l => if q = p then true else owed p l
  | .call q :: l => if q = p then false else owed p l

/-- Edges on line `p` so far. -/
def edges (p : Nat) (l : List Obs) : Nat := l.countP (· == .edge p)

/-- Callbacks for line `p` so far. -/
def calls (p : Nat) (l : List Obs) : Nat := l.countP (· == .call p)

end Verif.Exti.Spec
