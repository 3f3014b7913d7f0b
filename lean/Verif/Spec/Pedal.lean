import Mathlib.Algebra.Order.Field.Rat

set_option autoImplicit false

/-!
# The pedal curve

What the table of `torqueMap.c` promises, in exact arithmetic: straight lines
between the listed points, nothing outside the pedal's travel.
-/

namespace Verif.Pedal

/-- The straight line through `(a0, t0)` and `(a1, t1)`. -/
def line (a0 a1 t0 t1 x : ℚ) : ℚ := t0 + (x - a0) / (a1 - a0) * (t1 - t0)

/-- The curve through `(0, 0)`, `(0.1, 0)`, `(0.5, half)`, `(0.7, most)`, `(1, full)`; zero outside
the travel of the pedal. -/
def curve (half most full x : ℚ) : ℚ :=
  if x < 0 ∨ 1 < x then 0
  else if x ≤ 1/10 then 0
  else if x ≤ 1/2 then line (1/10) (1/2) 0 half x
  else if x ≤ 7/10 then line (1/2) (7/10) half most x
  else line (7/10) 1 most full x

/-- Newton metres asked for driving forwards. -/
def forward : ℚ → ℚ := curve 100 200 500

/-- Newton metres asked for driving backwards. -/
def backward : ℚ → ℚ := curve 20 75 75

end Verif.Pedal
