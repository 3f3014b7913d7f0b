set_option autoImplicit false

/-!
# Vehicle state machine

Models `firmware/src/vcu/vehicleLogic/stateManager/stateMachine.c` and the
types of `stateMachine.h`.  The result of `FaultManager_Step`, the result of
`VehicleState_AccessAcquire` and the two vehicle-state fields read by the
handlers are inputs of a step.  Calls to other modules are recorded as a list
of outputs, in call order.
-/

namespace Verif.Vsm

/-- `VSM_State_T`, stateMachine.h:20-30.  `other n` stands for any value that is
not an enumerator (reaches the `default` branch of `VSM_Step`). -/
inductive St where
  | init | fault | lvStartup | lvReady | hvActive | hvCharging | activeNeutral | activeForward
  | other (n : Nat)
deriving DecidableEq, Repr

/-- `FaultStatus_T`, faultManager.h:51-57 (`FAULT_INIT` is never returned by
`FaultManager_Step`; it is kept so that the handlers are total on the enum). -/
inductive FaultStatus where
  | finit | noFault | lvError | fault
deriving DecidableEq, Repr

/-- `VehicleState_InverterDirection_T`, vehicleStateTypes.h:156-160. -/
inductive Dir where
  | reverse | forward
deriving DecidableEq, Repr

/-- Calls made by the handlers to `VehicleControl_*` and `ThrottleController_*`. stateMachine.c:15-167. -/
inductive Out where
  | ecuError (on : Bool)          -- VehicleControl_SetECUError
  | enableInverter                -- VehicleControl_EnableInverter
  | motorDirection (d : Dir)      -- ThrottleController_SetMotorDirection
  | torqueEnabled (on : Bool)     -- ThrottleController_SetTorqueEnabled
deriving DecidableEq, Repr

/-- `VSM_T`, stateMachine.h:32-49, without the object pointers (the fault
manager is modelled in `Model/FaultManager.lean` and joined in
`Model/StateManager.lean`).  The two configuration words are
`vehicleConfig->vcu.*`. -/
structure Vsm where
  tickRateMs : UInt32
  hvActiveStateWait : UInt32
  hvChargeTimeout : UInt32
  vsmState : St
  nextState : St
  ticksInState : UInt32
  inputButtonPrev : Bool
deriving DecidableEq, Repr

/-- What one step reads: the fault status, whether the vehicle state could be
acquired, the dash button and `data.inverter.vsmState`. stateMachine.c:33-160. -/
structure In where
  fault : FaultStatus
  access : Bool
  button : Bool
  invVsm : Nat
deriving DecidableEq, Repr

/-- `VEHICLESTATE_INVERTERVSMSTATE_READY`, vehicleStateTypes.h:126. -/
def invReady : Nat := 5

/-- stateMachine.c:15-22 -/
def stateInit (v : Vsm) : Vsm × List Out :=
  ({ v with nextState := .lvStartup }, [.ecuError true])

/-- stateMachine.c:24-31 -/
def stateLvStartup (v : Vsm) (f : FaultStatus) : Vsm × List Out :=
  if f = .fault then ({ v with nextState := .fault }, [])
  else if f = .noFault then ({ v with nextState := .lvReady }, [])
  else (v, [])

/-- stateMachine.c:33-58 -/
def stateLvReady (v : Vsm) (i : In) : Vsm × List Out :=
  if i.fault ≠ .noFault then ({ v with nextState := .fault }, [])
  else if i.access then
    if i.button && !v.inputButtonPrev then
      ({ v with nextState := .hvActive, inputButtonPrev := i.button }, [.ecuError false])
    else ({ v with inputButtonPrev := i.button }, [])
  else (v, [])

/-- stateMachine.c:60-74.  `tickRateMs * ticksInState` is a `uint32_t` product
and wraps. -/
def stateHvActive (v : Vsm) (i : In) : Vsm × List Out :=
  if i.fault ≠ .noFault then ({ v with nextState := .fault }, [])
  else if v.tickRateMs * v.ticksInState ≥ v.hvActiveStateWait then
    ({ v with nextState := .hvCharging }, [.enableInverter])
  else (v, [])

/-- stateMachine.c:76-105 -/
def stateHvCharging (v : Vsm) (i : In) : Vsm × List Out :=
  if i.fault ≠ .noFault then ({ v with nextState := .fault }, [])
  else if i.access then
    if i.invVsm = invReady then ({ v with nextState := .activeNeutral }, [])
    else if v.tickRateMs * v.ticksInState > v.hvChargeTimeout then
      ({ v with nextState := .fault }, [])
    else (v, [])
  else (v, [])

/-- stateMachine.c:107-133 -/
def stateActiveNeutral (v : Vsm) (i : In) : Vsm × List Out :=
  if i.fault ≠ .noFault then ({ v with nextState := .fault }, [])
  else if i.access then
    if i.button && !v.inputButtonPrev then
      ({ v with nextState := .activeForward, inputButtonPrev := i.button },
        [.motorDirection .forward, .torqueEnabled true])
    else ({ v with inputButtonPrev := i.button }, [])
  else (v, [])

/-- stateMachine.c:135-160 -/
def stateActiveForward (v : Vsm) (i : In) : Vsm × List Out :=
  if i.fault ≠ .noFault then ({ v with nextState := .fault }, [])
  else if i.access then
    if i.button && !v.inputButtonPrev then
      ({ v with nextState := .activeNeutral, inputButtonPrev := i.button },
        [.torqueEnabled false])
    else ({ v with inputButtonPrev := i.button }, [])
  else (v, [])

/-- stateMachine.c:162-167 -/
def stateFault (v : Vsm) : Vsm × List Out :=
  (v, [.motorDirection .forward, .torqueEnabled false, .ecuError true])

/-- The `switch` of `VSM_Step`, stateMachine.c:193-228. -/
def handle (v : Vsm) (i : In) : Vsm × List Out :=
  match v.vsmState with
  | .init => stateInit v
  | .lvStartup => stateLvStartup v i.fault
  | .lvReady => stateLvReady v i
  | .hvActive => stateHvActive v i
  | .hvCharging => stateHvCharging v i
  | .activeNeutral => stateActiveNeutral v i
  | .activeForward => stateActiveForward v i
  | .fault => stateFault v
  | .other _ => ({ v with nextState := .init }, [])

/-- stateMachine.c:230-236: tick counter and state update at the end of
`VSM_Step`. -/
def advance (v : Vsm) : Vsm :=
  let v := { v with ticksInState := v.ticksInState + 1 }
  if v.vsmState ≠ v.nextState then
    { v with ticksInState := 0, vsmState := v.nextState }
  else v

/-- `VSM_Step`, stateMachine.c:187-237, given the fault manager's verdict. -/
def step (v : Vsm) (i : In) : Vsm × List Out :=
  let r := handle v i
  (advance r.1, r.2)

/-- `VSM_Init`, stateMachine.c:170-185: the machine's own fields (the fault
manager part is in `Model/StateManager.lean`).  The other fields keep what the
caller stored. -/
def vsmInit (v : Vsm) : Vsm :=
  { v with vsmState := .init, nextState := .init, ticksInState := 0, inputButtonPrev := false }

/-- The vehicle outputs that the state machine drives.  `inverterEnables`
counts `VehicleControl_EnableInverter` calls. vehicleControl.c:34-67, throttleController.c:117-145. -/
structure Outputs where
  torqueEnabled : Bool
  direction : Dir
  ecuError : Bool
  inverterEnables : Nat
deriving DecidableEq, Repr

/-- Effect of one call on the outputs: throttleController.c:117-145
(`enabled`/`direction` stored; the blocking mutex take with `portMAX_DELAY` is
taken to succeed), vehicleControl.c `VehicleControl_SetECUError` /
`VehicleControl_EnableInverter`. -/
def Outputs.apply (o : Outputs) : Out → Outputs
  | .ecuError b => { o with ecuError := b }
  | .enableInverter => { o with inverterEnables := o.inverterEnables + 1 }
  | .motorDirection d => { o with direction := d }
  | .torqueEnabled b => { o with torqueEnabled := b }

/-- The state machine together with the outputs it drives. stateMachine.c:187-238. -/
structure World where
  vsm : Vsm
  out : Outputs
deriving DecidableEq, Repr

/-- One tick of the state machine acting on the outputs. stateMachine.c:187-238. -/
def World.step (w : World) (i : In) : World :=
  let r := Vsm.step w.vsm i
  { vsm := r.1, out := r.2.foldl Outputs.apply w.out }

/-- A run: the world after the given inputs. stateMachine.c:187-238. -/
def World.run (w : World) (is : List In) : World := is.foldl World.step w

/-- Power-up world: `VSM_Init` has run, `ThrottleController_Init`
(throttleController.c:89-90) left torque disabled and direction forward; the
ECU error pin level before the first tick is whatever the pin driver left. -/
def World.start (tick wait timeout : UInt32) (ecu : Bool) : World :=
  { vsm := vsmInit ⟨tick, wait, timeout, .init, .init, 0, false⟩
    out := ⟨false, .forward, ecu, 0⟩ }

end Verif.Vsm
