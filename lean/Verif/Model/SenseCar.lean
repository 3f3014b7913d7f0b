import Verif.Model.Vehicle
import Verif.Model.DiscreteSense

set_option autoImplicit false

/-!
# The control software together with the sensor task

Composition of `Model/Vehicle` with the task that reads pedals, brakes and the dashboard button
(`Model/DiscreteSense`).  What the vehicle data say of the driver's inputs and of the button is written by that task
only; all other fields remain free.
-/

namespace Verif.SenseCar

/-- What happens next. discretesense.c 22-71; otherwise as `Vehicle.Ev`. -/
inductive Ev where
  /-- the sensor task runs after a notification, with these readings -/
  | sense (r : DiscreteSense.Reads)
  /-- anything of `Vehicle`; a write is one by another task than the sensor task -/
  | veh (e : Vehicle.Ev)

/-- A write by another task leaves the driver's inputs and the button (discretesense.c is the only file that assigns
them). discretesense.c 43-69. -/
def keepInputs (old d : VData) : VData := { d with inputs := old.inputs, dash := old.dash }

/-- What the control software sees of an event.  The sensor task writes under one lock (discretesense.c 43-71). -/
def toVeh (c : DiscreteSense.Cfg) (s : Vehicle.St) : Ev → Vehicle.Ev
  | .sense r => .write (DiscreteSense.tick c r s.vd)
  | .veh (.write d) => .write (keepInputs s.vd d)
  | .veh e => e

/-- A run: final state and all command frames, oldest first. discretesense.c 22-71, otherwise `Vehicle.run`. -/
def run (c : DiscreteSense.Cfg) (s : Vehicle.St) : List Ev → C (Vehicle.St × List InvDrv.Sent)
  | [] => .ok (s, [])
  | e :: H =>
    match Vehicle.step s (toVeh c s e) with
    | .error u => .error u
    | .ok (s', fs) =>
      match run c s' H with
      | .error u => .error u
      | .ok (s'', fs') => .ok (s'', fs ++ fs')

/-- The control software's part of a history with times. discretesense.c 22-71. -/
def timed (c : DiscreteSense.Cfg) (s : Vehicle.St) : List (Nat × Ev) → List (Nat × Vehicle.Ev)
  | [] => []
  | (t, e) :: H =>
    (t, toVeh c s e) ::
      match Vehicle.step s (toVeh c s e) with
      | .error _ => []
      | .ok (s', _) => timed c s' H

end Verif.SenseCar
