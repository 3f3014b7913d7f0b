import Verif.Model.Car
import Verif.Model.InvCar
import Verif.Model.SenseCar

set_option autoImplicit false

/-!
# The control software together with everything that feeds it

`Model/Car`, `Model/InvCar` and `Model/SenseCar` each put one source of vehicle data beside the control software and
leave the others free.  Here all three are present: battery data come from the frames the battery's task takes out of
its queue, motor and inverter data from those the inverter's task takes, the driver's inputs and the button from the
sensor task.  What remains free is what the control software does not use (shutdown circuit, wheel speeds, position).
-/

namespace Verif.Whole
open Verif.Can Verif.CanSpec

/-- The buses and receive queues of battery and inverter, and the scalings of the sensors. initialize.c 95-120,
349-372. -/
structure Wiring where
  bms : Nat
  bmsQueue : Nat
  inv : Nat
  invQueue : Nat
  sense : DiscreteSense.Cfg

/-- Receive queues and control software. can.c 41-55; otherwise as `Vehicle.St`. -/
structure St where
  rx : RxState
  v : Vehicle.St

/-- What happens next. can.c 64-114, orionBms.c 145-177, cInverter.c 297-350, discretesense.c 22-71; otherwise as
`Vehicle.Ev`. -/
inductive Ev where
  /-- a receive interrupt, or a task takes a frame out of its queue -/
  | rx (e : RxEv)
  /-- the sensor task runs after a notification, with these readings -/
  | sense (r : DiscreteSense.Reads)
  /-- anything of `Vehicle`; a write is one by a task other than those of battery, inverter and sensors -/
  | veh (e : Vehicle.Ev)

/-- A write by another task leaves battery, inverter, motor, inputs and button: no file but orionBms.c 34-141,
cInverter.c 55-294 and discretesense.c 43-69 assigns them, and none assigns the battery's fault indicator. -/
def keep (old d : VData) : VData :=
  { d with inputs := old.inputs, dash := old.dash, battery := old.battery, inverter := old.inverter,
           motor := old.motor }

/-- What the control software sees of an event. Each task handles what it takes under one lock: orionBms.c 151-174,
cInverter.c 303-347 (waiting without limit, vehicleState.c 51), discretesense.c 43-71 (the lock's result is part of
the readings). -/
def toVeh (w : Wiring) (s : St) : Ev → List Vehicle.Ev
  | .rx (.isr _ _ _) => []
  | .rx (.read j) =>
    match (s.rx.qs j).items with
    | [] => []
    | f :: _ =>
      if j = w.bmsQueue then [.write (Bms.handleFrame w.bms true f s.v.vd)]
      else if j = w.invQueue then [.write (InvDrv.handleFrame w.inv true f s.v.vd)]
      else []
  | .sense r => [.write (DiscreteSense.tick w.sense r s.v.vd)]
  | .veh (.write d) => [.write (keep s.v.vd d)]
  | .veh e => [e]

/-- The queues after an event. can.c 64-114, orionBms.c 151, cInverter.c 303. -/
def rxOf (buses : Nat → RxBus) (s : RxState) : Ev → RxState
  | .rx e => rxStep buses s e
  | .sense _ => s
  | .veh _ => s

/-- One event: new state and command frames. can.c 64-114, orionBms.c 145-177, cInverter.c 297-350,
discretesense.c 22-71, otherwise `Vehicle.step`. -/
def step (buses : Nat → RxBus) (w : Wiring) (s : St) (e : Ev) : C (St × List InvDrv.Sent) :=
  match Vehicle.run s.v (toVeh w s e) with
  | .error u => .error u
  | .ok (v, fs) => .ok (⟨rxOf buses s.rx e, v⟩, fs)

/-- A run: final state and all command frames, oldest first. can.c 64-114, orionBms.c 145-177, cInverter.c 297-350,
discretesense.c 22-71, otherwise `Vehicle.run`. -/
def run (buses : Nat → RxBus) (w : Wiring) (s : St) : List Ev → C (St × List InvDrv.Sent)
  | [] => .ok (s, [])
  | e :: H =>
    match step buses w s e with
    | .error u => .error u
    | .ok (s', fs) =>
      match run buses w s' H with
      | .error u => .error u
      | .ok (s'', fs') => .ok (s'', fs ++ fs')

end Verif.Whole
