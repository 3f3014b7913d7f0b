import Mathlib.Data.Rat.Defs
import Mathlib.Algebra.Order.Ring.Rat
import Mathlib.Data.Fin.Basic

set_option autoImplicit false

/-!
# Straight lines between the points of a table
-/

namespace Verif.TableSpec

/-- `v` is the height at `q` of the straight line from `(x0, y0)` to `(x1, y1)`. -/
def OnLine (x0 y0 x1 y1 q v : ℚ) : Prop := (v - y0) * (x1 - x0) = (y1 - y0) * (q - x0)

/-- `v` is the height at `q` of the curve that joins the points `(x i, y i)` by straight
lines. -/
def OnCurve (x y : Fin 5 → ℚ) (q v : ℚ) : Prop :=
  ∃ i j : Fin 5, j.val = i.val + 1 ∧ x i ≤ q ∧ q ≤ x j ∧ OnLine (x i) (y i) (x j) (y j) q v

end Verif.TableSpec
