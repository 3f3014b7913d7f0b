import Verif.C.Basic

set_option autoImplicit false

/-!
# Specification: rising edges of a sampled line
-/

namespace Verif.WheelspeedSpec

/-- Positions where a low sample is followed by a high one. -/
def risingEdges (line : List Bool) : Nat :=
  (line.zip line.tail).countP fun p => !p.1 && p.2

/-- The front line of a batch of sample bytes (bit 1). -/
def front (b : UInt8) : Bool := b.toNat / 2 % 2 = 1

/-- The rear line of a batch of sample bytes (bit 0). -/
def rear (b : UInt8) : Bool := b.toNat % 2 = 1

end Verif.WheelspeedSpec
