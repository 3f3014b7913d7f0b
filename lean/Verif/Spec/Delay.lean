import Verif.Model.Delay

set_option autoImplicit false

/-!
# What timed waits should do

Time is a natural number that never wraps. A waiting task has a deadline or none.
-/

namespace Verif.DelaySpec

open Verif.Delay (Ev)

/-- Waiting tasks in the order in which they began to wait, with their deadlines. -/
structure Abs where
  now : Nat
  wait : List (Nat × Option Nat)
deriving DecidableEq, Repr

/-- A tick wakes exactly the tasks whose deadline it is; an event wakes its task; a wait for `n`
ticks has its deadline `n` ticks later, and the largest number means no deadline. -/
def step (a : Abs) : Ev → List Nat × Abs
  | .tick => (((a.wait.filter fun w => w.2 = some (a.now + 1)).map (·.1)),
      ⟨a.now + 1, a.wait.filter fun w => w.2 ≠ some (a.now + 1)⟩)
  | .block t n =>
    if t ∈ a.wait.map (·.1) ∨ n = 0 then ([], a)
    else ([], { a with wait := a.wait ++ [(t, if n = 2 ^ 32 - 1 then none else some (a.now + n))] })
  | .event t => ([], { a with wait := a.wait.filter (·.1 ≠ t) })

/-- For every event the tasks whose time ran out, and the state afterwards. -/
def run : Abs → List Ev → List (List Nat) × Abs
  | a, [] => ([], a)
  | a, e :: es => ((step a e).1 :: (run (step a e).2 es).1, (run (step a e).2 es).2)

end Verif.DelaySpec
