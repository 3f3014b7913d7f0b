import Verif.Model.Vehicle
import Verif.Model.Bms
import Verif.Spec.Can

set_option autoImplicit false

/-!
# The control software together with reception of the battery's frames

Composition of `Model/Vehicle` (state manager, throttle task, inverter commands, PC interface, power
channels) with the CAN receive interrupt and queues (`Model/Can`) and the task of the battery management
system (`Model/Bms`).  In `Vehicle` what other tasks write to the vehicle data is free; here the battery's
measurements are written by its task only, from the frames it takes out of its queue.  All other
fields, those of the inverter's task included, remain free.
-/

namespace Verif.Car
open Verif.Can Verif.CanSpec

/-- Receive queues and control software. can.c 41-55; otherwise as `Vehicle.St`. -/
structure St where
  rx : RxState
  v : Vehicle.St

/-- What happens next. can.c 64-114, orionBms.c 145-177; otherwise as `Vehicle.Ev`. -/
inductive Ev where
  /-- a receive interrupt, or a task takes a frame out of its queue -/
  | rx (e : RxEv)
  /-- anything of `Vehicle`; a write is one by another task than the battery's -/
  | veh (e : Vehicle.Ev)

/-- A write by another task leaves the battery's measurements (orionBms.c is the only file that assigns them);
the fault indicator, which no code assigns, is left free. orionBms.c 34-141. -/
def keepBattery (old d : VData) : VData :=
  { d with battery := { old.battery with bmsFaultIndicator := d.battery.bmsFaultIndicator } }

/-- What the control software sees of an event.  The battery's task takes a frame out of its queue `k` and
handles it under one lock (orionBms.c 151-174; waiting for the lock has no limit,
vehicleState.c 51); `dev` is
its bus. -/
def toVeh (dev k : Nat) (s : St) : Ev → List Vehicle.Ev
  | .rx (.isr _ _ _) => []
  | .rx (.read j) =>
    if j = k then
      match (s.rx.qs k).items with
      | [] => []
      | f :: _ => [.write (Bms.handleFrame dev true f s.v.vd)]
    else []
  | .veh (.write d) => [.write (keepBattery s.v.vd d)]
  | .veh e => [e]

/-- The queues after an event. can.c 64-114, orionBms.c 151. -/
def rxOf (buses : Nat → RxBus) (s : RxState) : Ev → RxState
  | .rx e => rxStep buses s e
  | .veh _ => s

/-- One event: new state and command frames. can.c 64-114, orionBms.c 145-177, otherwise `Vehicle.step`. -/
def step (buses : Nat → RxBus) (dev k : Nat) (s : St) (e : Ev) : C (St × List InvDrv.Sent) :=
  match Vehicle.run s.v (toVeh dev k s e) with
  | .error u => .error u
  | .ok (v, fs) => .ok (⟨rxOf buses s.rx e, v⟩, fs)

/-- A run: final state and all command frames with their times, oldest first. can.c 64-114, orionBms.c 145-177,
otherwise `Vehicle.run`. -/
def run (buses : Nat → RxBus) (dev k : Nat) (s : St) : List (Nat × Ev) → C (St × List (Nat × InvDrv.Sent))
  | [] => .ok (s, [])
  | (t, e) :: H =>
    match step buses dev k s e with
    | .error u => .error u
    | .ok (s', fs) =>
      match run buses dev k s' H with
      | .error u => .error u
      | .ok (s'', fs') => .ok (s'', fs.map (fun f => (t, f)) ++ fs')

end Verif.Car
