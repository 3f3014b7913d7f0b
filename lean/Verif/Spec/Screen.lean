import Verif.Spec.Car
import Verif.C.FloatBits
import Verif.Model.PcTool

set_option autoImplicit false

/-!
# The battery's measurements on the PC's screen
-/

namespace Verif.ScreenSpec
open Verif.Dbc Verif.Car Verif.PcTool

/-- The lines that show what the battery management system measures (README 815-828, log_view.py 59-75), the
quantity each of them is named after, and its value before the first frame. -/
def lines : List (String × BmsField × Val) :=
  [("BMS Max cell voltage", .maxV, .flt (.fin 0)), ("BMS Max cell voltage ID", .maxVId, .int 0),
   ("BMS Max cell temp", .maxT, .flt (.fin 0)), ("BMS DC current", .current, .flt (.fin 0)),
   ("BMS Pack voltage", .voltage, .flt (.fin 0)), ("BMS SOC", .soc, .flt (.fin 0)), ("BMS Counter", .counter, .int 0)]

/-- The value of a quantity in the newest of the frames (oldest first) that carries it. -/
def newest (fld : BmsField) (frames : List CanFrame) : Option Val := frames.reverse.findSome? (reading fld)

/-- The number on the screen stands for the value; floats are shown as their 32 bits. -/
def Means (n : Nat) : Val → Prop
  | .flt x => F32.value (UInt32.ofNat n) = x
  | .int i => (n : Int) = i

/-- An update of the line with this name. -/
def named (name : String) : Shown → Bool
  | .update m _ => m == name
  | _ => false

end Verif.ScreenSpec
