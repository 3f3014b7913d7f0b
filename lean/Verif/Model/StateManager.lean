import Verif.Model.FaultManager

set_option autoImplicit false

/-!
# State manager task: wiring of state machine, fault manager and vehicle data

Models `vehicleStateManager.c`, `VSM_Init`/`VSM_Step` of `stateMachine.c` with
the object pointers, and the static objects of `startup/initialize.c`.
-/

namespace Verif.StateMgr

open Verif.Vsm Verif.FaultMgr

/-- A C object pointer: `none` is NULL, otherwise the identity of the object. As in initialize.c:146-151. -/
abbrev Ptr := Option Nat

/-- `FaultManager_T`, faultManager.h:37-49.  `vehicleConfig` carries the pointed-to
configuration (it is not modified after `ECU_Init_LoadConfig`). -/
structure FaultManagerObj where
  tickRateMs : UInt32
  vehicleConfig : Option Config
  vehicleData : Ptr
  internal : Internal

/-- `VSM_T`, stateMachine.h:32-49 -/
structure VsmObj where
  tickRateMs : UInt32
  inputState : Ptr
  control : Ptr
  throttleController : Ptr
  vehicleConfig : Option Config
  core : Vsm
  faultMgr : FaultManagerObj

/-- `VehicleStateManager_T`, vehicleStateManager.h:35-52 (without the RTOS task
buffers). -/
structure StateManager where
  inputState : Ptr
  control : Ptr
  throttleController : Ptr
  vehicleConfig : Option Config
  vsm : VsmObj

/-- All-zero `FaultManager_Internal_T`. faultManager.h:17-35. -/
def zeroInternal : Internal := ⟨0, 0, 0, 0, 0, 0, 0, 0, 0, 0, 0, 0, 0, 0, 0⟩

/-- All-zero `VSM_T`: C static storage. initialize.c:146-151. -/
def zeroVsm : VsmObj where
  tickRateMs := 0
  inputState := none
  control := none
  throttleController := none
  vehicleConfig := none
  core := ⟨0, 0, 0, .init, .init, 0, false⟩
  faultMgr := ⟨0, none, none, zeroInternal⟩

/-- `mVehicleStateManager`, initialize.c:146-151: four designated initialisers,
every other member (in particular `vsm.faultMgr.vehicleData`) is zero.  The
objects are numbered: 0 `mVehicleState`, 1 `mVehicleControl`,
2 `mThrottleController`. -/
def shipped (cfg : Config) : StateManager where
  inputState := some 0
  control := some 1
  throttleController := some 2
  vehicleConfig := some cfg
  vsm := zeroVsm

/-- `VSM_Init`, stateMachine.c:170-185, followed by `FaultManager_Init`.
Dereferencing a NULL configuration is undefined. -/
def vsmInitObj (v : VsmObj) : C VsmObj :=
  let core := vsmInit v.core
  let fm := { v.faultMgr with vehicleConfig := v.vehicleConfig, tickRateMs := v.tickRateMs }
  match fm.vehicleConfig with
  | none => .error .nullDeref
  | some cfg => do
    let internal ← FaultMgr.init cfg fm.tickRateMs
    .ok { v with
      core := { core with tickRateMs := v.tickRateMs
                          hvActiveStateWait := cfg.vcu.hvActiveStateWait
                          hvChargeTimeout := cfg.vcu.hvChargeTimeout }
      faultMgr := { fm with internal := internal } }

/-- `tickRateMs`, vehicleStateManager.c:15 -/
def tickRate : UInt32 := 10

/-- `VehicleStateManager_Status_T`, vehicleStateManager.h:25-30 -/
inductive Status where | ok | errorInit | errorDepends
deriving DecidableEq, Repr

/-- `VehicleStateManager_Init`, vehicleStateManager.c:40-72.  Inputs: whether the
task timer module is registered, whether `TaskTimer_RegisterTask` accepts the
task, whether the module registry accepts this module. -/
def smInit (timerReady regTask regModule : Bool) (sm : StateManager) :
    C (Status × StateManager) :=
  if !timerReady then .ok (.errorDepends, sm)
  else do
    let v := { sm.vsm with
      inputState := sm.inputState, control := sm.control, vehicleConfig := sm.vehicleConfig,
      throttleController := sm.throttleController, tickRateMs := tickRate }
    let v ← vsmInitObj v
    let sm := { sm with vsm := v }
    if !regTask then .ok (.errorInit, sm)
    else if !regModule then .ok (.errorDepends, sm)
    else .ok (.ok, sm)

/-- What one wake-up of the task sees: the notification count, the vehicle data
when the fault manager copies it and the vehicle data when the state handler
locks it (`none`: the mutex take failed).  Other tasks may write in between, so
the two samples are independent. vehicleStateManager.c:18-26, faultManager.c:225. -/
structure Env where
  notified : Nat
  copy : Option VData
  access : Option VData

/-- Inputs of the state handlers. stateMachine.c:33-160. -/
def handlerInput (f : FaultStatus) : Option VData → In
  | none => ⟨f, false, false, 0⟩
  | some d => ⟨f, true, d.dash.buttonPressed, d.inverter.vsmState.toNat⟩

/-- The state manager and the outputs it drives. vehicleStateManager.h:35-52. -/
structure Sys where
  sm : StateManager
  out : Outputs

/-- `FaultManager_Step` through its object: `VehicleState_CopyState` dereferences
`vehicleData` (faultManager.c:225, vehicleState.c:37), the checks dereference
`vehicleConfig`. -/
def fmStepObj (fm : FaultManagerObj) (copy : Option VData) : C (FaultStatus × FaultManagerObj) :=
  match fm.vehicleData with
  | none => .error .nullDeref
  | some _ =>
    match copy with
    | none => .ok (.lvError, fm)
    | some d =>
      match fm.vehicleConfig with
      | none => .error .nullDeref
      | some cfg =>
        let r := FaultMgr.step cfg fm.internal (some d)
        .ok (r.1, { fm with internal := r.2 })

/-- `VSM_Step`, stateMachine.c:187-237, with its object pointers.
Simplification: a NULL `inputState`, `control` or `throttleController` is
reported as undefined behaviour in every state, although a handler only
dereferences the ones it uses. -/
def vsmStepObj (v : VsmObj) (o : Outputs) (e : Env) : C (VsmObj × Outputs) := do
  let r ← fmStepObj v.faultMgr e.copy
  if v.inputState = none ∨ v.control = none ∨ v.throttleController = none then .error .nullDeref
  else
    let s := Vsm.step v.core (handlerInput r.1 e.access)
    .ok ({ v with core := s.1, faultMgr := r.2 }, s.2.foldl Outputs.apply o)

/-- `StateManagerProcessing`, vehicleStateManager.c:18-26: one loop of the task. -/
def smProcess (s : Sys) (e : Env) : C Sys :=
  if e.notified > 0 then do
    let r ← vsmStepObj s.sm.vsm s.out e
    .ok { sm := { s.sm with vsm := r.1 }, out := r.2 }
  else .ok s

/-- The task over a history of wake-ups. vehicleStateManager.c:28-36. -/
def smRun (s : Sys) : List Env → C Sys
  | [] => .ok s
  | e :: es => do smRun (← smProcess s e) es

/-- Outputs at power-up: `ThrottleController_Init` (throttleController.c:89-90)
left torque disabled and direction forward; ECU error pin level `ecu`. -/
def outStart (ecu : Bool) : Outputs := ⟨false, .forward, ecu, 0⟩

end Verif.StateMgr
