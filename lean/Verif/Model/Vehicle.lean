import Verif.Model.StateManager
import Verif.Model.Drive
import Verif.Model.PcRequests
import Verif.Model.Term
import Verif.Model.Pdm

set_option autoImplicit false

/-!
# Vehicle data, state manager, throttle, inverter driver and PC interface together

Composition of `vehicleStateManager.c`, `stateMachine.c`, `faultManager.c`,
`throttleController.c`, `vehicleControl.c`, `cInverter.c` (commands), `pdm.c`,
`requests.c`, `debugterm.c` and `debugtermcommands.c` over one shared
`VehicleState_T`.  Three tasks (state manager, throttle, PC interface) interleave
at every access to shared data; all other tasks appear as writes to the vehicle
data.  Outcomes of lock attempts and of the CAN layer, the bytes read from the
serial stream and the CRC unit are inputs.

Not in this model: the text of log messages, the telemetry frames sent by the PC
interface (they only read the vehicle data), and the time a task holds a lock.
-/

namespace Verif.Vehicle
open InvDrv

/-- What the PC interface task still has to do for the message it decoded. requests.c 32-118, debugtermcommands.c
73-135. -/
inductive PcAct where
  /-- `VehicleControl_SetECUError` (requests.c 42, debugtermcommands.c 130) -/
  | ecuError (on : Bool)
  /-- `VehicleControl_SetPowerChannel` (requests.c 66, debugtermcommands.c 98) -/
  | power (channel : Nat) (on : Bool)
  /-- `DebugPrint` (debugtermlib.h 28-59) -/
  | print (text : List UInt8)
  /-- `PCInterface_DebugTermRecv` (requests.c 103) -/
  | terminal (bytes : List UInt8)
deriving DecidableEq, Repr

/-- Calls made by a request (requests.c 32-118). -/
def ofReq : PcReq.Eff → PcAct
  | .ecuError b => .ecuError b
  | .power c b => .power c b
  | .terminal bs => .terminal bs

/-- Calls made by the terminal (debugterm.c, debugtermcommands.c). debugtermcommands.c 73-135. -/
def ofTerm : Term.Eff → PcAct
  | .print t => .print t
  | .ecuError b => .ecuError b
  | .power c b => .power c b

/-- The firmware state that takes part. `status` is the result of `FaultManager_Step` between
stateMachine.c 190 and 193; `pending` are the calls of the current `VSM_Step` not made yet;
`todo` are those of the current PC message; `level` are the levels driven on output pins, the ECU
error line being `ecuError`; `control` is `controlEnabled` of the PC interface. -/
structure St where
  vd : VData
  mgr : StateMgr.StateManager
  status : Option Vsm.FaultStatus
  pending : List Vsm.Out
  thr : Throttle.Sys
  cmd : Cmd
  ecuError : Bool
  level : Nat → Bool
  channels : Option (List Nat)
  numChannels : Nat
  control : Bool
  dec : MsgFrame.Dec
  term : Term.Term
  todo : List PcAct

/-- What can happen next. vehicleStateManager.c 18-26, throttleController.c 43-66, requests.c 120-149. -/
inductive Ev where
  /-- another task writes the vehicle data: any new values, except that only `pdm.c` 50 writes the
  power channel states -/
  | write (d : VData)
  /-- the state manager runs `FaultManager_Step` (faultManager.c 221-245); `ok`: the data could be
  copied -/
  | copy (ok : Bool)
  /-- the state manager runs the handler of its state (stateMachine.c 193-236); `ok`: the data could
  be acquired -/
  | handle (ok : Bool)
  /-- the state manager makes its next call -/
  | call (e : Env)
  /-- the throttle task makes its next access (throttleController.c 43-65) -/
  | throttle (ok : Bool) (e : Env)
  /-- the PC interface task takes a batch from the serial stream and decodes it (requests.c 124-145) -/
  | pcBatch (bytes : List UInt8) (crc : MsgFrame.CrcUnit)
  /-- the PC interface task makes the next call of the message; `lock`: outcome of the vehicle data
  lock if it takes it -/
  | pcAct (lock : Bool)

/-- Is it a step of the PC interface? requests.c 120-149. -/
def Ev.isPc : Ev → Bool
  | .pcBatch _ _ => true
  | .pcAct _ => true
  | _ => false

/-- `PDM_SetOutputEnabled` (pdm.c 37-57) on the shared data and the pins. -/
def setPower (s : St) (channel : Nat) (on lock : Bool) : C St :=
  match Pdm.setOutputEnabled
      ⟨s.channels, s.numChannels, s.vd.glv.pdmChState.toList, s.level⟩
      (UInt8.ofNat channel) on lock with
  | .error u => .error u
  | .ok r =>
    .ok { s with
      vd := { s.vd with glv := ⟨Vector.ofFn fun i => r.2.published.getD i.val false⟩ }
      level := r.2.level }

/-- One step of the PC interface's calls. requests.c 32-72, debugtermcommands.c 73-135. -/
def act (s : St) (lock : Bool) : PcAct → C St
  | .ecuError b => .ok { s with ecuError := b }
  | .power c b => setPower s c b lock
  | .print _ => .ok s
  | .terminal bs =>
    match Term.recv s.term bs with
    | .error u => .error u
    | .ok (l, t) => .ok { s with term := t, todo := l.effs.map ofTerm ++ s.todo }

/-- The call of the state machine (see `Drive.apply`), on this state. vehicleControl.c 34-67, throttleController.c
117-145. -/
def applyOut (s : St) (e : Env) (o : Vsm.Out) : C (St × List Sent) :=
  match Drive.apply ⟨s.mgr.vsm.core, s.pending, s.thr, s.cmd, s.ecuError⟩ e o with
  | .error u => .error u
  | .ok (d, fs) => .ok ({ s with thr := d.thr, cmd := d.cmd, ecuError := d.ecuError }, fs)

/-- One event: the new state and the frames the inverter driver hands to the CAN layer. An event
whose turn it is not changes nothing. stateMachine.c 187-238, throttleController.c 43-66, cInverter.c 413-518,
requests.c 32-149. -/
def step (s : St) : Ev → C (St × List Sent)
  | .write d => .ok ({ s with vd := { d with glv := s.vd.glv } }, [])
  | .copy ok =>
    if s.status = none ∧ s.pending = [] then
      match StateMgr.fmStepObj s.mgr.vsm.faultMgr (if ok then some s.vd else none) with
      | .error u => .error u
      | .ok (f, fm) =>
        .ok ({ s with status := some f, mgr := { s.mgr with vsm := { s.mgr.vsm with faultMgr := fm } } }, [])
    else .ok (s, [])
  | .handle ok =>
    match s.status with
    | none => .ok (s, [])
    | some f =>
      if s.mgr.vsm.inputState = none ∨ s.mgr.vsm.control = none ∨ s.mgr.vsm.throttleController = none then
        .error .nullDeref
      else
        let r := Vsm.step s.mgr.vsm.core (StateMgr.handlerInput f (if ok then some s.vd else none))
        .ok ({ s with
          status := none, pending := r.2
          mgr := { s.mgr with vsm := { s.mgr.vsm with core := r.1 } } }, [])
  | .call e =>
    match s.pending with
    | [] => .ok (s, [])
    | o :: os => applyOut { s with pending := os } e o
  | .throttle ok e =>
    let r := Throttle.step s.thr (.task (if ok then some s.vd.inputs.accel else none))
    match Drive.issue s.cmd e r.2 with
    | .error u => .error u
    | .ok (c, fs) => .ok ({ s with thr := r.1, cmd := c }, fs)
  | .pcBatch bytes crc =>
    match s.todo with
    | _ :: _ => .ok (s, [])
    | [] =>
      match PcReq.batchStep crc s.dec bytes with
      | .error u => .error u
      | .ok (_, m, d) =>
        .ok ({ s with dec := d, todo := (m.toList.flatMap (PcReq.handleMessage s.control)).map ofReq }, [])
  | .pcAct lock =>
    match s.todo with
    | [] => .ok (s, [])
    | a :: as =>
      match act { s with todo := as } lock a with
      | .error u => .error u
      | .ok s' => .ok (s', [])

/-- A run: final state and all frames, oldest first. stateMachine.c 187-238, throttleController.c 43-66, cInverter.c
413-518, requests.c 32-149. -/
def run (s : St) : List Ev → C (St × List Sent)
  | [] => .ok (s, [])
  | e :: es =>
    match step s e with
    | .error u => .error u
    | .ok (s', fs) =>
      match run s' es with
      | .error u => .error u
      | .ok (s'', fs') => .ok (s'', fs ++ fs')

/-- After start-up with this state manager object and decoder: `VehicleState_Init`
(vehicleState.c 24), `ThrottleController_Init`, `CInverter_Init`, `PCInterface_Init`
(pcinterface.c 97-204), and the PDM as shipped. -/
def start (mgr : StateMgr.StateManager) (dec : MsgFrame.Dec) (buf : Nat → UInt8) (ecu control : Bool) : St where
  vd := VData.zero
  mgr := mgr
  status := none
  pending := []
  thr := Throttle.Sys.init
  cmd := Cmd.init
  ecuError := ecu
  level := Pdm.shipped.level
  channels := Pdm.shipped.channels
  numChannels := Pdm.shipped.numChannels
  control := control
  dec := dec
  term := ⟨buf, 0⟩
  todo := []

end Verif.Vehicle
