import Verif.Model.Vsm
import Verif.Model.Throttle

set_option autoImplicit false

/-!
# The torque path end to end: state machine, throttle process, inverter driver

Composition of `stateMachine.c`, `throttleController.c`, `vehicleControl.c` and the command side of
`cInverter.c`. The state-manager task and the throttle task have the same priority (3,
vehicleStateManager.h, throttleController.h) and are time sliced, so they interleave at every
access to shared data: the calls a tick of the state machine makes are separate events, and so are
the accesses of the throttle task (`Throttle.step`).
-/

namespace Verif.Drive
open InvDrv

/-- State of the composition. `pending` are the calls of the current `VSM_Step` that have not been
made yet. stateMachine.c 187-238, throttleController.c 43-66, cInverter.c 413-518. -/
structure St where
  vsm : Vsm.Vsm
  pending : List Vsm.Out
  thr : Throttle.Sys
  cmd : Cmd
  ecuError : Bool

/-- What can happen next. stateMachine.c 187-238, throttleController.c 43-66. -/
inductive Ev where
  /-- the state-manager task evaluates `VSM_Step` (stateMachine.c 187-237) on these inputs; it does
  so only when the previous step has made all its calls. The update of the machine's own fields
  (230-236) comes after the calls in the code; no other task reads them. -/
  | tick (i : Vsm.In)
  /-- the state-manager task makes its next call, with this behaviour of the inverter driver's
  mutex and of the CAN layer -/
  | call (e : Env)
  /-- the throttle task makes its next access; `accel` is what the accelerator read obtains, `e` the
  environment of the torque command if this access issues it -/
  | throttle (accel : Option F32) (e : Env)

/-- Value of `VehicleState_InverterDirection_T` (vehicleStateTypes.h 156-160). -/
def dirCode : Vsm.Dir → UInt8
  | .reverse => REVERSE
  | .forward => FORWARD

/-- One call of the state machine: `VehicleControl_SetECUError` (vehicleControl.c 62-67),
`VehicleControl_EnableInverter` (34-39), `ThrottleController_SetMotorDirection` and
`ThrottleController_SetTorqueEnabled` (throttleController.c 117-145). The state machine ignores the
results. -/
def apply (s : St) (e : Env) : Vsm.Out → C (St × List Sent)
  | .ecuError b => .ok ({ s with ecuError := b }, [])
  | .enableInverter =>
    match sendInverterEnabled s.cmd e true with
    | .error u => .error u
    | .ok r => .ok ({ s with cmd := r.cmd }, r.sent)
  | .motorDirection d => .ok ({ s with thr := (Throttle.step s.thr (.setDirection (dirCode d))).1 }, [])
  | .torqueEnabled b => .ok ({ s with thr := (Throttle.step s.thr (.setEnabled b)).1 }, [])

/-- Issue the requests of a throttle step: `VehicleControl_RequestMotorTorque` (vehicleControl.c
48-53). -/
def issue (c : Cmd) (e : Env) : List Throttle.Request → C (Cmd × List Sent)
  | [] => .ok (c, [])
  | r :: _ =>
    match Throttle.requestMotorTorque c e r with
    | .error u => .error u
    | .ok x => .ok (x.cmd, x.sent)

/-- One event: the new state and the frames handed to the CAN layer. stateMachine.c 187-238, throttleController.c
43-66, vehicleControl.c 34-67. -/
def step (s : St) : Ev → C (St × List Sent)
  | .tick i =>
    match s.pending with
    | [] => let r := Vsm.step s.vsm i; .ok ({ s with vsm := r.1, pending := r.2 }, [])
    | _ :: _ => .ok (s, [])
  | .call e =>
    match s.pending with
    | [] => .ok (s, [])
    | o :: os => apply { s with pending := os } e o
  | .throttle accel e =>
    let r := Throttle.step s.thr (.task accel)
    match issue s.cmd e r.2 with
    | .error u => .error u
    | .ok (c, fs) => .ok ({ s with thr := r.1, cmd := c }, fs)

/-- A run: final state and all frames, oldest first. stateMachine.c 187-238, throttleController.c 43-66. -/
def run (s : St) : List Ev → C (St × List Sent)
  | [] => .ok (s, [])
  | e :: es =>
    match step s e with
    | .error u => .error u
    | .ok (s', fs) =>
      match run s' es with
      | .error u => .error u
      | .ok (s'', fs') => .ok (s'', fs ++ fs')

/-- After start-up: `VSM_Init`, `ThrottleController_Init`, `CInverter_Init`. stateMachine.c 170-185,
throttleController.c 79-115, cInverter.c 364-411. -/
def start (tick wait timeout : UInt32) (ecu : Bool) : St :=
  ⟨(Vsm.World.start tick wait timeout ecu).vsm, [], Throttle.Sys.init, Cmd.init, ecu⟩

end Verif.Drive
