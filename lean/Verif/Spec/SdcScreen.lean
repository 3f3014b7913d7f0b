import Verif.Model.Sdc

set_option autoImplicit false

/-!
# The shutdown circuit on the PC's screen
-/

namespace Verif.SdcScreenSpec
open Verif.Sdc

/-- The bit of an input in the number shown on the line of the shutdown circuit (periodicupdates.c 82-95; the
README names no order): BMS, BSPD, IMD and output from bit 0 on. -/
def bitOf : Field → Nat
  | .bms => 0
  | .bspd => 1
  | .imd => 2
  | .out => 3

end Verif.SdcScreenSpec
