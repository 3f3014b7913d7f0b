import Verif.C.Float32

set_option autoImplicit false

/-!
# Vehicle configuration

Models `firmware/src/vcu/vehicleInterface/config/configData.h` and
`configDataDefault.h`.  `int16_t` limits are kept as `Int16`.
-/

namespace Verif

/-- `Config_ADCCalibration_T`, configData.h:15-19 -/
structure AdcCal where
  rawLower : UInt16
  rawUpper : UInt16
deriving DecidableEq, Repr

/-- `Config_Pedal_T`, configData.h:21-26 -/
structure CfgPedal where
  calibrationA : AdcCal
  calibrationB : AdcCal
  consistencyLimit : F32
deriving DecidableEq, Repr

/-- `Config_InputSensors_T`, configData.h:28-38 -/
structure CfgInputs where
  accelPedal : CfgPedal
  brakePressureFront : AdcCal
  brakePressureRear : AdcCal
  pedalAbuseCheckEnabled : UInt8
  pedalAbuseAccelThreshold : F32
  pedalAbuseBrakeThreshold : F32
  invalidDataTimeout : UInt16
  numWheelspeedTeeth : UInt16
deriving DecidableEq, Repr

/-- `Config_BMS_T`, configData.h:40-50 -/
structure CfgBms where
  baseCanId : UInt32
  maxCellTemp : Int16
  maxCurrent : Int16
  maxCellVoltage : Int16
  minStateOfCharge : UInt16
  invalidDataTimeout : UInt16
  canTimeout : UInt16
deriving DecidableEq

/-- `Config_Inverter_T`, configData.h:52-62 -/
structure CfgInverter where
  baseCanId : UInt32
  maxInternalTemp : Int16
  maxIGBTTemp : Int16
  maxMotorTemp : Int16
  maxCurrentDraw : Int16
  invalidDataTimeout : UInt16
  canTimeout : UInt16
deriving DecidableEq

/-- `Config_VCULogic_T`, configData.h:64-68 -/
structure CfgVcu where
  hvActiveStateWait : UInt32
  hvChargeTimeout : UInt32
deriving DecidableEq, Repr

/-- `Config_T`, configData.h:70-76 -/
structure Config where
  inputs : CfgInputs
  bms : CfgBms
  inverter : CfgInverter
  vcu : CfgVcu
deriving DecidableEq

/-- `0.1f`. configDataDefault.h 26, 37, 38. -/
def f01 : F32 := F32.round (1/10)

/-- `DefaultConfigData`, configDataDefault.h:15-64 -/
def Config.default : Config where
  inputs :=
    { accelPedal := ⟨⟨0, 4095⟩, ⟨0, 4095⟩, f01⟩
      brakePressureFront := ⟨0, 4095⟩
      brakePressureRear := ⟨0, 4095⟩
      pedalAbuseCheckEnabled := 0
      pedalAbuseAccelThreshold := f01
      pedalAbuseBrakeThreshold := f01
      invalidDataTimeout := 100
      numWheelspeedTeeth := 12 }
  bms := ⟨0x300, 750, 4500, 420, 1000, 100, 100⟩
  inverter := ⟨0x0, 750, 750, 750, 4500, 100, 100⟩
  vcu := ⟨500, 7000⟩

end Verif
