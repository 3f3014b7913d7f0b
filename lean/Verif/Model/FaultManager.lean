import Verif.Model.VehicleState
import Verif.Model.Config
import Verif.Model.Vsm

set_option autoImplicit false

/-!
# Fault manager

Models `firmware/src/vcu/vehicleLogic/stateManager/faultManager.c`.  The fault
word is a 32-bit vector; the timers are `uint16_t` and wrap.
-/

namespace Verif.FaultMgr

open Verif.Vsm (FaultStatus)

/-- `FaultManager_Internal_T`, faultManager.h:17-35 -/
structure Internal where
  faults : BitVec 32
  accelPedalRangeTimer : UInt16
  accelPedalRangeTimerLimit : UInt16
  accelPedalConsistencyTimer : UInt16
  accelPedalConsistencyTimerLimit : UInt16
  brakePressureRangeTimer : UInt16
  brakePressureRangeTimerLimit : UInt16
  brakePressureConsistencyTimer : UInt16
  brakePressureConsistencyTimerLimit : UInt16
  pedalAbuseTimer : UInt16
  pedalAbuseTimerLimit : UInt16
  cellTempOverTimer : UInt16
  currentOverDrawTimer : UInt16
  cellVoltageOverTimer : UInt16
  bmsFaultTimerLimit : UInt16
deriving DecidableEq

/-! Fault codes, faultManager.h:60-87 -/
def LV_ERROR_MASK : BitVec 32 := 0x000000FF#32
/-- faultManager.h:61 -/
def FAULT_MASK : BitVec 32 := 0xFFFFFF00#32
/-- faultManager.h:66 -/
def LV_ERROR_BMS_TIMEOUT : BitVec 32 := 0x00000001#32
/-- faultManager.h:67 -/
def LV_ERROR_INV_TIMEOUT : BitVec 32 := 0x00000002#32
/-- faultManager.h:68 -/
def LV_ERROR_INV_STATE : BitVec 32 := 0x00000002#32
/-- faultManager.h:71 -/
def ACCELPDL_RANGE : BitVec 32 := 0x00000100#32
/-- faultManager.h:72 -/
def ACCELPDL_SENSE : BitVec 32 := 0x00000200#32
/-- faultManager.h:73 -/
def BRAKEPDL_RANGE : BitVec 32 := 0x00000400#32
/-- faultManager.h:74 -/
def BRAKEPDL_SENSE : BitVec 32 := 0x00000800#32
/-- faultManager.h:75 -/
def BRAKEPDL_ABUSE : BitVec 32 := 0x00001000#32
/-- faultManager.h:76 -/
def BMS_CELLTEMP : BitVec 32 := 0x00002000#32
/-- faultManager.h:77 -/
def BMS_CURRENT : BitVec 32 := 0x00004000#32
/-- faultManager.h:78 -/
def BMS_CELLVOLT : BitVec 32 := 0x00008000#32
/-- faultManager.h:79 -/
def BMS_LOWSOC : BitVec 32 := 0x00010000#32
/-- faultManager.h:80 -/
def BMS_FAULTIND : BitVec 32 := 0x00020000#32
/-- faultManager.h:81 -/
def INV_OVERTEMP : BitVec 32 := 0x00040000#32
/-- faultManager.h:82 -/
def INV_IGBTTEMP : BitVec 32 := 0x00080000#32
/-- faultManager.h:83 -/
def INV_MOTORTEMP : BitVec 32 := 0x00100000#32
/-- faultManager.h:84 -/
def INV_CURRENT : BitVec 32 := 0x00200000#32
/-- faultManager.h:85 -/
def INV_FAULTIND : BitVec 32 := 0x00400000#32
/-- faultManager.h:86 -/
def INV_FAULTMSG : BitVec 32 := 0x00800000#32
/-- faultManager.h:87 -/
def INV_STATE : BitVec 32 := 0x01000000#32

/-- `handleTimedCondition`, faultManager.c:25-41.  Returns (check passed, new
timer). -/
def handleTimed (isFault : Bool) (timer limit : UInt16) : Bool × UInt16 :=
  if isFault then
    let t := timer + 1
    if t > limit then (false, limit) else (true, t)
  else (true, 0)

/-- `isFaultAccelPedal`, faultManager.c:43-76 -/
def isFaultAccelPedal (cfg : Config) (m : Internal) (d : VData) : BitVec 32 × Internal :=
  let p := cfg.inputs.accelPedal
  let a := d.inputs.accelRawA
  let b := d.inputs.accelRawB
  let r1 := handleTimed
    (a > p.calibrationA.rawUpper || a < p.calibrationA.rawLower ||
      b > p.calibrationB.rawUpper || b < p.calibrationB.rawLower)
    m.accelPedalRangeTimer m.accelPedalRangeTimerLimit
  let faults := m.faults
  let faults := if !r1.1 then faults ||| ACCELPDL_RANGE else faults
  let diff := F32.abs (F32.sub d.inputs.accelA d.inputs.accelB)
  let r2 := handleTimed (F32.gt diff p.consistencyLimit)
    m.accelPedalConsistencyTimer m.accelPedalConsistencyTimerLimit
  let faults := if !r2.1 then faults ||| ACCELPDL_SENSE else faults
  (faults, { m with accelPedalRangeTimer := r1.2, accelPedalConsistencyTimer := r2.2 })

/-- `isFaultBrakePedal`, faultManager.c:78-115 -/
def isFaultBrakePedal (cfg : Config) (m : Internal) (d : VData) : BitVec 32 × Internal :=
  let fr := d.inputs.brakeRawFront
  let re := d.inputs.brakeRawRear
  let r1 := handleTimed
    (fr > cfg.inputs.brakePressureFront.rawUpper || fr < cfg.inputs.brakePressureFront.rawLower ||
      re > cfg.inputs.brakePressureRear.rawUpper || re < cfg.inputs.brakePressureRear.rawLower)
    m.brakePressureRangeTimer m.brakePressureRangeTimerLimit
  let faults := m.faults
  let faults := if !r1.1 then faults ||| BRAKEPDL_RANGE else faults
  let m := { m with brakePressureRangeTimer := r1.2 }
  if cfg.inputs.pedalAbuseCheckEnabled = 1 then
    let r2 := handleTimed
      (F32.gt d.inputs.accel cfg.inputs.pedalAbuseAccelThreshold &&
        F32.gt d.inputs.brakePresFront cfg.inputs.pedalAbuseBrakeThreshold)
      m.pedalAbuseTimer m.pedalAbuseTimerLimit
    let faults := if !r2.1 then faults ||| BRAKEPDL_ABUSE else faults
    (faults, { m with pedalAbuseTimer := r2.2 })
  else (faults, m)

/-- `isFaultBMS`, faultManager.c:117-170.  The integer limits are converted to
`float` for the comparisons. -/
def isFaultBMS (cfg : Config) (m : Internal) (d : VData) : BitVec 32 × Internal :=
  let faults := m.faults
  let r1 := handleTimed
    (F32.gt d.battery.maxCellTemperature (F32.ofInt cfg.bms.maxCellTemp.toInt))
    m.cellTempOverTimer m.bmsFaultTimerLimit
  let faults := if !r1.1 then faults ||| BMS_CELLTEMP else faults
  let r2 := handleTimed
    (F32.gt d.battery.dcCurrent (F32.ofInt cfg.bms.maxCurrent.toInt))
    m.currentOverDrawTimer m.bmsFaultTimerLimit
  let faults := if !r2.1 then faults ||| BMS_CURRENT else faults
  let r3 := handleTimed
    (F32.gt d.battery.maxCellVoltage (F32.ofInt cfg.bms.maxCellVoltage.toInt))
    m.cellVoltageOverTimer m.bmsFaultTimerLimit
  let faults := if !r3.1 then faults ||| BMS_CELLVOLT else faults
  let faults :=
    if F32.lt d.battery.stateOfCarge (F32.ofInt cfg.bms.minStateOfCharge.toNat)
    then faults ||| BMS_LOWSOC else faults
  let faults := if d.battery.bmsFaultIndicator then faults ||| BMS_FAULTIND else faults
  (faults, { m with cellTempOverTimer := r1.2, currentOverDrawTimer := r2.2,
                    cellVoltageOverTimer := r3.2 })

/-- `isFaultInverter`, faultManager.c:172-178 (TODO in the source). -/
def isFaultInverter (_ : Internal) (_ : VData) : BitVec 32 := 0
/-- `isLVErrorBMS`, faultManager.c:180-186 (TODO in the source). -/
def isLVErrorBMS (_ : Internal) (_ : VData) : BitVec 32 := 0
/-- `isLVErrorInverter`, faultManager.c:188-194 (TODO in the source). -/
def isLVErrorInverter (_ : Internal) (_ : VData) : BitVec 32 := 0

/-- `FaultManager_Init`, faultManager.c:197-219: `memset` and timer limits.  A
zero tick rate divides by zero.  The quotient of a `uint16_t` by a `uint32_t`
fits in 16 bits, so the cast keeps its value. -/
def init (cfg : Config) (tickRateMs : UInt32) : C Internal :=
  if tickRateMs = 0 then .error .divByZero
  else
    let li := (cfg.inputs.invalidDataTimeout.toUInt32 / tickRateMs).toUInt16
    let lb := (cfg.bms.invalidDataTimeout.toUInt32 / tickRateMs).toUInt16
    .ok { faults := 0
          accelPedalRangeTimer := 0, accelPedalRangeTimerLimit := li
          accelPedalConsistencyTimer := 0, accelPedalConsistencyTimerLimit := li
          brakePressureRangeTimer := 0, brakePressureRangeTimerLimit := li
          brakePressureConsistencyTimer := 0, brakePressureConsistencyTimerLimit := li
          pedalAbuseTimer := 0, pedalAbuseTimerLimit := li
          cellTempOverTimer := 0, currentOverDrawTimer := 0, cellVoltageOverTimer := 0
          bmsFaultTimerLimit := lb }

/-- `x |= f(&x)` of faultManager.c:231-236. -/
def orIn (m : Internal) (r : BitVec 32 × Internal) : Internal :=
  { r.2 with faults := m.faults ||| r.1 }

/-- `FaultManager_Step`, faultManager.c:221-245, given the outcome of
`VehicleState_CopyState` (`none`: the mutex could not be taken). -/
def step (cfg : Config) (m : Internal) : Option VData → FaultStatus × Internal
  | none => (.lvError, m)
  | some d =>
    let m := orIn m (isFaultAccelPedal cfg m d)
    let m := orIn m (isFaultBrakePedal cfg m d)
    let m := orIn m (isFaultBMS cfg m d)
    let m := orIn m (isFaultInverter m d, m)
    let m := orIn m (isLVErrorBMS m d, m)
    let m := orIn m (isLVErrorInverter m d, m)
    if (m.faults &&& FAULT_MASK) > 0 then (.fault, m)
    else if (m.faults &&& LV_ERROR_MASK) > 0 then (.lvError, m)
    else (.noFault, m)

end Verif.FaultMgr
