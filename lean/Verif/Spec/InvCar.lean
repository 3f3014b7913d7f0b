import Verif.Model.InvCar

set_option autoImplicit false

/-!
# The inverter's report that it is ready

From the inverter's message list: identifier 0xAA, eight bytes, the first one being the state of its own state
machine, 5 meaning "ready" (vehicleStateTypes.h 126).
-/

namespace Verif.InvCar
open Verif.Can Verif.CanSpec

/-- The frame reports the state of the inverter. -/
def isReport (f : CanFrame) : Bool := f.msgId = 0xAA ∧ f.dlc = 8

/-- What happens at the receive queues. -/
def rxs (H : List Ev) : List RxEv :=
  H.filterMap fun
    | .rx e => some e
    | .veh _ => none

/-- The values other tasks write are floats. -/
def FloatWrites (H : List Ev) : Prop := ∀ d, Ev.veh (.write d) ∈ H → F32.IsFloat d.inputs.accel

end Verif.InvCar
