import Verif.Model.Queue

set_option autoImplicit false

/-!
# Specification: a bounded first-in first-out list
-/

namespace Verif.Queue

/-- The results a list of at most `cap` items gives. -/
def fifo (cap : Nat) : List (List UInt8) → List Op → List Res
  | _, [] => []
  | l, .send x :: ops =>
    if l.length < cap then .sent true :: fifo cap (l ++ [x]) ops else .sent false :: fifo cap l ops
  | [], .recv :: ops => .got none :: fifo cap [] ops
  | y :: l, .recv :: ops => .got (some y) :: fifo cap l ops

end Verif.Queue
