import Verif.Model.Vehicle
import Verif.Model.Inverter
import Verif.Spec.Can

set_option autoImplicit false

/-!
# The control software together with reception of the inverter's frames

As `Model/Car`, with the inverter's task in place of the battery's: composition of `Model/Vehicle` with the
CAN receive interrupt and queues (`Model/Can`) and the receiving half of the inverter driver (`Model/Inverter`).
What the vehicle data say of motor and inverter is written by the inverter's task only, from the frames it takes out
of its queue; all other fields remain free.
-/

namespace Verif.InvCar
open Verif.Can Verif.CanSpec

/-- Receive queues and control software. can.c 41-55; otherwise as `Vehicle.St`. -/
structure St where
  rx : RxState
  v : Vehicle.St

/-- What happens next. can.c 64-114, cInverter.c 297-350; otherwise as `Vehicle.Ev`. -/
inductive Ev where
  /-- a receive interrupt, or a task takes a frame out of its queue -/
  | rx (e : RxEv)
  /-- anything of `Vehicle`; a write is one by another task than the inverter's -/
  | veh (e : Vehicle.Ev)

/-- A write by another task leaves motor and inverter data (cInverter.c is the only file that assigns them).
cInverter.c 55-294. -/
def keepInverter (old d : VData) : VData := { d with inverter := old.inverter, motor := old.motor }

/-- What the control software sees of an event.  The inverter's task takes a frame out of its queue `k` and
handles it under one lock (cInverter.c 303-347; waiting for the lock has no limit, vehicleState.c 51); `dev` is
its bus. -/
def toVeh (dev k : Nat) (s : St) : Ev → List Vehicle.Ev
  | .rx (.isr _ _ _) => []
  | .rx (.read j) =>
    if j = k then
      match (s.rx.qs k).items with
      | [] => []
      | f :: _ => [.write (InvDrv.handleFrame dev true f s.v.vd)]
    else []
  | .veh (.write d) => [.write (keepInverter s.v.vd d)]
  | .veh e => [e]

/-- The queues after an event. can.c 64-114, cInverter.c 303. -/
def rxOf (buses : Nat → RxBus) (s : RxState) : Ev → RxState
  | .rx e => rxStep buses s e
  | .veh _ => s

/-- One event: new state and command frames. can.c 64-114, cInverter.c 297-350, otherwise `Vehicle.step`. -/
def step (buses : Nat → RxBus) (dev k : Nat) (s : St) (e : Ev) : C (St × List InvDrv.Sent) :=
  match Vehicle.run s.v (toVeh dev k s e) with
  | .error u => .error u
  | .ok (v, fs) => .ok (⟨rxOf buses s.rx e, v⟩, fs)

/-- A run: final state and all command frames, oldest first. can.c 64-114, cInverter.c 297-350, otherwise
`Vehicle.run`. -/
def run (buses : Nat → RxBus) (dev k : Nat) (s : St) : List Ev → C (St × List InvDrv.Sent)
  | [] => .ok (s, [])
  | e :: H =>
    match step buses dev k s e with
    | .error u => .error u
    | .ok (s', fs) =>
      match run buses dev k s' H with
      | .error u => .error u
      | .ok (s'', fs') => .ok (s'', fs ++ fs')

end Verif.InvCar
