import Verif.Model.TorqueMap
import Verif.Model.Inverter

set_option autoImplicit false

/-!
# Throttle controller

`vcu/vehicleLogic/throttleController/throttleController.c` and the forwarding
call in `vcu/vehicleInterface/vehicleControl/vehicleControl.c` (paths relative
to `/repo/firmware/src`).

Two views: `tick` runs one activation of the task without interference;
`Step` interleaves the task, at the granularity of its accesses to the shared
fields `enabled` and `direction` (which it reads without the mutex), with the
setters called from other tasks.
-/

namespace Verif.Throttle
open F32 InvDrv

/-- The fields of `ThrottleController_T` that other tasks write. throttleController.h 47-48. -/
structure Thr where
  enabled : Bool
  direction : UInt8
deriving DecidableEq, Repr

/-- `ThrottleController_Init`, throttleController.c 89-90. -/
def Thr.init : Thr := ⟨false, FORWARD⟩

/-- A call of `VehicleControl_RequestMotorTorque`. vehicleControl.c 48-53. -/
structure Request where
  torque : F32
  direction : UInt8
deriving DecidableEq, Repr

/-- `getTorqueMagnitude`, throttleController.c 20-41, with the maps installed by
`ThrottleController_Init` (lines 87-88). -/
def getTorqueMagnitude (s : Thr) (accelPedal : F32) : F32 :=
  if s.enabled = false then .fin 0
  else if s.direction = FORWARD then interpolate mapForward accelPedal
  else if s.direction = REVERSE then interpolate mapReverse accelPedal
  else .fin 0

/-- One activation of `ThrottleController`, throttleController.c 43-65, after a
notification.  `accel` is `none` when vehicle-state access fails. -/
def tick (s : Thr) (accel : Option F32) : Request :=
  let accelPedal := accel.getD (.fin 0)
  ⟨getTorqueMagnitude s accelPedal, s.direction⟩

/-- `VehicleControl_RequestMotorTorque`, vehicleControl.c 48-53. -/
def requestMotorTorque (s : Cmd) (e : Env) (r : Request) : C Result :=
  sendTorqueCommand s e r.torque r.direction

/-! ## Interleaved view -/

/-- Where the throttle task is within one activation. throttleController.c 43-66. -/
inductive Pc where
  /-- before or after an activation -/
  | idle
  /-- accelerator read (line 49-54), `enabled` not read yet -/
  | gotAccel (accel : F32)
  /-- `enabled` read as `true` (line 24) -/
  | sawEnabled (accel : F32)
  /-- first direction comparison failed (line 30) -/
  | notForward (accel : F32)
  /-- torque computed (line 57), request not issued yet -/
  | computed (torque : F32)
deriving DecidableEq, Repr

/-- Shared fields and task position. throttleController.c 43-66. -/
structure Sys where
  thr : Thr
  pc : Pc
deriving DecidableEq, Repr

/-- What can happen next. throttleController.c 43-66, 117-145. -/
inductive Ev where
  /-- the throttle task executes its next shared access; the argument is the
  accelerator value it obtains if that access is the accelerator read -/
  | task (accel : Option F32)
  /-- `ThrottleController_SetTorqueEnabled` runs to completion, lines 117-130 -/
  | setEnabled (b : Bool)
  /-- `ThrottleController_SetMotorDirection` runs to completion, lines 132-145 -/
  | setDirection (d : UInt8)

/-- One atomic step: new state and the requests issued by it. throttleController.c 43-66, 117-145. -/
def step (s : Sys) : Ev → Sys × List Request
  | .setEnabled b => ({ s with thr := { s.thr with enabled := b } }, [])
  | .setDirection d => ({ s with thr := { s.thr with direction := d } }, [])
  | .task accel =>
    match s.pc with
    | .idle => ({ s with pc := .gotAccel (accel.getD (.fin 0)) }, [])
    | .gotAccel a =>
      if s.thr.enabled = false then ({ s with pc := .computed (.fin 0) }, [])
      else ({ s with pc := .sawEnabled a }, [])
    | .sawEnabled a =>
      if s.thr.direction = FORWARD then ({ s with pc := .computed (interpolate mapForward a) }, [])
      else ({ s with pc := .notForward a }, [])
    | .notForward a =>
      if s.thr.direction = REVERSE then ({ s with pc := .computed (interpolate mapReverse a) }, [])
      else ({ s with pc := .computed (.fin 0) }, [])
    | .computed t => ({ s with pc := .idle }, [⟨t, s.thr.direction⟩])

/-- A schedule: final state and all requests, oldest first. throttleController.c 43-66, 117-145. -/
def run (s : Sys) : List Ev → Sys × List Request
  | [] => (s, [])
  | e :: es =>
    let (s', r) := step s e
    let (s'', rs) := run s' es
    (s'', r ++ rs)

/-- Start of the task. throttleController.c 79-115. -/
def Sys.init : Sys := ⟨Thr.init, .idle⟩

end Verif.Throttle
