import Verif.Model.CanTypes
import Verif.Model.VehicleState

set_option autoImplicit false

/-!
# Inverter driver

`vcu/device/inverter/cInverter.{h,c}`, `cInverterCAN.h`, `dataConversions.h`
(paths relative to `/repo/firmware/src`).

Commands: the driver state is the pair of mode flags; a call's environment is
the result of the mutex take and whether the CAN layer accepts each frame.
Every frame handed to the CAN layer is recorded, with its acceptance.
Status reception: one function per message handler.
-/

namespace Verif.InvDrv
open F32

/-! ## Command side -/

/-- `CInverter_Status_T`, cInverter.h 66-77 (the values the command calls return). -/
inductive Status where
  | ok | errorCan | errorLock | errorNotEnabled | errorNotDisabled | errorDischarge | errorValue
deriving DecidableEq, Repr

/-- `struct CInverterCommand`, cInverter.h 34-41, without the mutex object. -/
structure Cmd where
  inverterEnabled : Bool
  dischargeModeEnabled : Bool
deriving DecidableEq, Repr

/-- `CInverter_Init`, cInverter.c 379: `memset` to 0. -/
def Cmd.init : Cmd := ⟨false, false⟩

/-- One call of `CAN_SendMessage` by the driver: identifier, bytes, accepted. cInverter.c 45-49. -/
structure Sent where
  msgId : Nat
  bytes : Payload
  accepted : Bool
deriving DecidableEq

/-- `VEHICLESTATE_INVERTER_REVERSE` / `FORWARD`, vehicleStateTypes.h 156-160. -/
def REVERSE : UInt8 := 0
/-- `VEHICLESTATE_INVERTER_FORWARD`, vehicleStateTypes.h 156-160. -/
def FORWARD : UInt8 := 1

/-- `INVERTER_MAX_TORQUE`, cInverter.h 32. -/
def maxTorque : F32 := F32.round (32767/10)

/-- `torqueToMsg`, dataConversions.h 86-89: float to `int16_t` conversion is
undefined behaviour when the truncated value does not fit. -/
def torqueToMsg (torque : F32) : C ℤ :=
  match ((F32.round 10).mul torque).toInt16? with
  | some v => .ok v
  | none => .error .badCast

/-- The 8 bytes of `CInverter_CAN_Command_T` (cInverterCAN.h 152-164) as filled
in by `SendCANCommand`, cInverter.c 35-43. -/
def commandBytes (torqueMsg : ℤ) (direction : UInt8) (inverterEnable dischargeEnable : Bool) : Payload :=
  let u := (torqueMsg % 65536).toNat
  #v[UInt8.ofNat (u % 256), UInt8.ofNat (u / 256), 0, 0, direction &&& 1,
     (if inverterEnable then 1 else 0) ||| (if dischargeEnable then 2 else 0), 0, 0]

/-- `SendCANCommand`, cInverter.c 28-52. -/
def sendCANCommand (torqueNm : F32) (direction : UInt8) (inverterEnable dischargeEnable : Bool)
    (accepted : Bool) : C Sent := do
  let v ← torqueToMsg torqueNm
  return ⟨0x0C0, commandBytes v direction inverterEnable dischargeEnable, accepted⟩

/-- What one driver call does. cInverter.c 413-518. -/
structure Result where
  cmd : Cmd
  sent : List Sent
  status : Status
deriving DecidableEq

/-- Environment of a call: mutex result and the CAN layer's answers, in order. cInverter.c 422, 448, 490 (take),
45-49 (CAN). -/
structure Env where
  lock : Bool
  can : Nat → Bool

/-- `CInverter_SendTorqueCommand`, cInverter.c 413-444. -/
def sendTorqueCommand (s : Cmd) (e : Env) (torqueNm : F32) (direction : UInt8) : C Result :=
  if torqueNm.lt (.fin 0) || torqueNm.gt maxTorque then .ok ⟨s, [], .errorValue⟩
  else if !e.lock then .ok ⟨s, [], .errorLock⟩
  else if !s.inverterEnabled then .ok ⟨s, [], .errorNotEnabled⟩
  else do
    let m ← sendCANCommand torqueNm direction true false (e.can 0)
    return ⟨s, [m], if m.accepted then .ok else .errorCan⟩

/-- `CInverter_SendInverterEnabled`, cInverter.c 446-486 (`canSucc` starts
`true` and is only ever or-ed). -/
def sendInverterEnabled (s : Cmd) (e : Env) (enabled : Bool) : C Result :=
  if !e.lock then .ok ⟨s, [], .errorLock⟩
  else if s.dischargeModeEnabled && enabled then .ok ⟨s, [], .errorDischarge⟩
  else do
    let canSucc := true
    let (canSucc, pre) ←
      if !s.inverterEnabled && enabled then do
        let m ← sendCANCommand (.fin 0) FORWARD false false (e.can 0)
        pure (canSucc || m.accepted, [m])
      else pure (canSucc, [])
    let s' := { s with inverterEnabled := enabled }
    let m ← sendCANCommand (.fin 0) FORWARD enabled false (e.can pre.length)
    let canSucc := canSucc || m.accepted
    return ⟨s', pre ++ [m], if canSucc then .ok else .errorCan⟩

/-- `CInverter_SendInverterDischarge`, cInverter.c 488-518. -/
def sendInverterDischarge (s : Cmd) (e : Env) (dischargeModeEnabled : Bool) : C Result :=
  if !e.lock then .ok ⟨s, [], .errorLock⟩
  else if s.inverterEnabled && dischargeModeEnabled then .ok ⟨s, [], .errorNotDisabled⟩
  else do
    let s := { s with dischargeModeEnabled := dischargeModeEnabled }
    let s := if dischargeModeEnabled then { s with inverterEnabled := false } else s
    let m ← sendCANCommand (.fin 0) FORWARD false dischargeModeEnabled (e.can 0)
    return ⟨s, [m], if m.accepted then .ok else .errorCan⟩

/-- A call of the public command API. cInverter.c 413-518. -/
inductive Call where
  | torque (torqueNm : F32) (direction : UInt8)
  | enable (enabled : Bool)
  | discharge (on : Bool)

/-- One API call (the driver mutex makes calls atomic with respect to each other). cInverter.c 413-518. -/
def call (s : Cmd) (e : Env) : Call → C Result
  | .torque t d => sendTorqueCommand s e t d
  | .enable b => sendInverterEnabled s e b
  | .discharge b => sendInverterDischarge s e b

/-- A sequence of API calls: final state and all results, oldest first. cInverter.c 413-518. -/
def runCalls (s : Cmd) : List (Call × Env) → C (Cmd × List Result)
  | [] => .ok (s, [])
  | (c, e) :: rest => do
    let r ← call s e c
    let (s', rs) ← runCalls r.cmd rest
    return (s', r :: rs)

/-! ## Status reception -/

/-- `(float)encodedInt / d`, the shape of all conversions in dataConversions.h. dataConversions.h 14-98. -/
def scaled (n : ℤ) (d : ℚ) : F32 := (F32.ofInt n).div (F32.round d)

/-- `msgToTemperature`, dataConversions.h 14-18. -/
def msgToTemperature (n : Nat) : F32 := scaled n 10
/-- `msgToAngle`, dataConversions.h 23-27. -/
def msgToAngle (n : Nat) : F32 := scaled n 10
/-- `msgToAngularVelocity`, dataConversions.h 32-36. -/
def msgToAngularVelocity (n : Nat) : Int := sign16 n
/-- `msgToFrequency`, dataConversions.h 41-45. -/
def msgToFrequency (n : Nat) : F32 := scaled n 10
/-- `msgToCurrent`, dataConversions.h 50-54. -/
def msgToCurrent (n : Int) : F32 := scaled n 10
/-- `msgToVoltageHigh`, dataConversions.h 59-63. -/
def msgToVoltageHigh (n : Nat) : F32 := scaled n 10
/-- `msgToFlux`, dataConversions.h 68-72. -/
def msgToFlux (n : Nat) : F32 := scaled n 1000
/-- `msgToTorque`, dataConversions.h 77-81. -/
def msgToTorque (n : Nat) : F32 := scaled n 10
/-- `msgToModulationIndex`, dataConversions.h 94-98. -/
def msgToModulationIndex (n : Nat) : F32 := scaled n 100

/-- `HandleMsg_Temperatures1`, cInverter.c 60-74 (layout cInverterCAN.h 26-35). -/
def handleTemperatures1 (p : Payload) (d : VData) : VData :=
  { d with inverter := { d.inverter with
      moduleATemperature := msgToTemperature (le16 p 0)
      moduleBTemperature := msgToTemperature (le16 p 2)
      moduleCTemperature := msgToTemperature (le16 p 4)
      gateDriverTemp := msgToTemperature (le16 p 6) } }

/-- `HandleMsg_Temperatures2`, cInverter.c 84-92 (cInverterCAN.h 37-46). -/
def handleTemperatures2 (p : Payload) (d : VData) : VData :=
  { d with inverter := { d.inverter with controlBoardTemp := msgToTemperature (le16 p 0) } }

/-- `HandleMsg_Temperatures3`, cInverter.c 102-110 (cInverterCAN.h 48-57). -/
def handleTemperatures3 (p : Payload) (d : VData) : VData :=
  { d with motor := { d.motor with temperature := msgToTemperature (le16 p 4) } }

/-- `HandleMsg_MotorPosInfo`, cInverter.c 120-132 (cInverterCAN.h 59-68). -/
def handleMotorPosInfo (p : Payload) (d : VData) : VData :=
  { d with
    motor := { d.motor with
      angle := msgToAngle (le16 p 0)
      speed := msgToAngularVelocity (le16 p 2) }
    inverter := { d.inverter with outputFrequency := msgToFrequency (le16 p 4) } }

/-- `HandleMsg_CurrentInfo`, cInverter.c 142-156 (cInverterCAN.h 70-79). -/
def handleCurrentInfo (p : Payload) (d : VData) : VData :=
  { d with
    motor := { d.motor with
      phaseACurrent := msgToCurrent (sle16 p 0)
      phaseBCurrent := msgToCurrent (sle16 p 2)
      phaseCCurrent := msgToCurrent (sle16 p 4) }
    inverter := { d.inverter with dcBusCurrent := msgToCurrent (sle16 p 6) } }

/-- `HandleMsg_VoltageInfo`, cInverter.c 166-180 (cInverterCAN.h 81-90). -/
def handleVoltageInfo (p : Payload) (d : VData) : VData :=
  { d with inverter := { d.inverter with
      dcBusVoltage := msgToVoltageHigh (le16 p 0)
      outputVoltage := msgToVoltageHigh (le16 p 2)
      vd := msgToVoltageHigh (le16 p 4)
      vq := msgToVoltageHigh (le16 p 6) } }

/-- `HandleMsg_FluxInfo`, cInverter.c 190-204 (cInverterCAN.h 92-101). -/
def handleFluxInfo (p : Payload) (d : VData) : VData :=
  { d with inverter := { d.inverter with
      fluxCommand := msgToFlux (le16 p 0)
      fluxFeedback := msgToFlux (le16 p 2)
      idFeedback := msgToCurrent (sle16 p 4)
      iqFeedback := msgToCurrent (sle16 p 6) } }

/-- `HandleMsg_InternalStates`, cInverter.c 214-230 (cInverterCAN.h 103-120;
bit-fields allocated from the least significant bit, as the target ABI does). -/
def handleInternalStates (p : Payload) (d : VData) : VData :=
  { d with inverter := { d.inverter with
      vsmState := p[0]
      inverterState := p[2]
      dischargeState := p[4] >>> 5
      enabled := p[6] &&& 1
      direction := p[7] &&& 1 } }

/-- `HandleMsg_FaultCodes`, cInverter.c 240-247 (cInverterCAN.h 122-129). -/
def handleFaultCodes (p : Payload) (d : VData) : VData :=
  { d with inverter := { d.inverter with
      postFaults := le32 p 0
      runFaults := le32 p 4 } }

/-- `HandleMsg_TorqueTimer`, cInverter.c 257-269 (cInverterCAN.h 131-139). -/
def handleTorqueTimer (p : Payload) (d : VData) : VData :=
  { d with
    inverter := { d.inverter with
      commandedTorque := msgToTorque (le16 p 0)
      timerCounts := le32 p 4 }
    motor := { d.motor with calculatedTorque := msgToTorque (le16 p 2) } }

/-- `HandleMsg_FluxWeakening`, cInverter.c 279-293 (cInverterCAN.h 141-150). -/
def handleFluxWeakening (p : Payload) (d : VData) : VData :=
  { d with inverter := { d.inverter with
      modulationIndex := msgToModulationIndex (le16 p 0)
      fluxWeakeningOutput := msgToCurrent (sle16 p 2)
      idCommand := msgToCurrent (sle16 p 4)
      iqCommand := msgToCurrent (sle16 p 6) } }

/-- The identifier switch, cInverter.c 309-346 with cInverterCAN.h 11-21. -/
def handlerOf (msgId : UInt32) : Option (Payload → VData → VData) :=
  if msgId = 0x0A0 then some handleTemperatures1
  else if msgId = 0x0A1 then some handleTemperatures2
  else if msgId = 0x0A2 then some handleTemperatures3
  else if msgId = 0x0A5 then some handleMotorPosInfo
  else if msgId = 0x0A6 then some handleCurrentInfo
  else if msgId = 0x0A7 then some handleVoltageInfo
  else if msgId = 0x0A8 then some handleFluxInfo
  else if msgId = 0x0AA then some handleInternalStates
  else if msgId = 0x0AB then some handleFaultCodes
  else if msgId = 0x0AC then some handleTorqueTimer
  else if msgId = 0x0AD then some handleFluxWeakening
  else none

/-- One iteration of the receive loop, cInverter.c 303-347.  `access` is the
result of `VehicleState_AccessAcquire` in the handler (each handler tests the
DLC first and writes only when access was granted). -/
def handleFrame (bus : Nat) (access : Bool) (f : CanFrame) (d : VData) : VData :=
  if f.busInstance ≠ bus then d else
  match handlerOf f.msgId with
  | none => d
  | some h => if f.dlc ≠ 8 then d else if access then h f.data d else d

/-- `InverterProcessing`, cInverter.c 297-350, on a wake-up with the given queue
contents (oldest first). -/
def processing (bus : Nat) (queue : List (CanFrame × Bool)) (d : VData) : VData :=
  queue.foldl (fun d fa => handleFrame bus fa.2 fa.1 d) d

end Verif.InvDrv
