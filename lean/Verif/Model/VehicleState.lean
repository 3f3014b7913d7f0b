import Verif.C.Basic
import Verif.C.Float32

set_option autoImplicit false

/-!
# Shared vehicle data

Models `firmware/src/vcu/vehicleInterface/vehicleState/vehicleStateTypes.h` and
`vehicleState.c`.  Enumerations that the code fills with a raw cast from a CAN
byte are kept as `UInt8` values.
-/

namespace Verif

/-- `NmeaUTCTime_T`, nmeatypes.h: hour, minute, second, millisecond. nmeatypes.h 16-22. -/
structure UtcTime where
  hour : UInt8
  minute : UInt8
  second : UInt8
  millisecond : UInt16
deriving DecidableEq, Repr

/-- `VehicleState_InputSensors_T`, vehicleStateTypes.h:24-37 -/
structure Inputs where
  accel : F32
  accelA : F32
  accelB : F32
  accelRawA : UInt16
  accelRawB : UInt16
  accelValid : Bool
  brakePresFront : F32
  brakePresRear : F32
  brakeRawFront : UInt16
  brakeRawRear : UInt16
deriving DecidableEq, Repr

/-- `VehicleState_Dash_T`, vehicleStateTypes.h:39-43 -/
structure Dash where
  buttonPressed : Bool
  ledOn : Bool
deriving DecidableEq, Repr

/-- `VehicleState_SDC_T`, vehicleStateTypes.h:45-52 -/
structure SdcState where
  bms : Bool
  bspd : Bool
  imd : Bool
  out : Bool
deriving DecidableEq, Repr

/-- `VehicleState_GLV_T`, vehicleStateTypes.h:54-58: eight channel flags. -/
structure Glv where
  pdmChState : Vector Bool 8
deriving DecidableEq

/-- `VehicleState_GPS_T`, vehicleStateTypes.h:60-69.  The two 11-byte character
arrays are byte lists. -/
structure GpsState where
  utcTime : UtcTime
  latitude : List UInt8
  nsIndicator : UInt8
  longitude : List UInt8
  ewIndicator : UInt8
  positionFix : UInt8
  nSatellites : UInt8
deriving DecidableEq, Repr

/-- `VehicleState_Wheelspeed_T`, vehicleStateTypes.h:71-78 -/
structure WheelState where
  wheelspeedFront : UInt16
  wheelspeedRear : UInt16
  wssCountFront : UInt16
  wssCountRear : UInt16
deriving DecidableEq, Repr

/-- `VehicleState_VehicleSensors_T`, vehicleStateTypes.h:80-87 -/
structure VehicleSensors where
  gps : GpsState
  sdc : SdcState
  wheelspeed : WheelState
deriving DecidableEq, Repr

/-- `VehicleState_Battery_T`, vehicleStateTypes.h:89-106 -/
structure Battery where
  maxCellVoltage : F32
  maxCellTemperature : F32
  minCellVoltage : F32
  minCellTemperature : F32
  maxCellVoltageCellID : UInt8
  maxCellTemperatureCellID : UInt8
  minCellVoltageCellID : UInt8
  minCellTemperatureCellID : UInt8
  dcCurrent : F32
  dcVoltage : F32
  stateOfCarge : F32
  bmsFaultIndicator : Bool
  bmsPopulatedCells : UInt8
  bmsCounter : UInt8
  bmsFailsafeStatus : UInt16
deriving DecidableEq, Repr

/-- `VehicleState_Motor_T`, vehicleStateTypes.h:108-117; `speed` is the numeric
value of the `int16_t`. -/
structure Motor where
  temperature : F32
  angle : F32
  speed : Int
  phaseACurrent : F32
  phaseBCurrent : F32
  phaseCCurrent : F32
  calculatedTorque : F32
deriving DecidableEq, Repr

/-- `VehicleState_Inverter_T`, vehicleStateTypes.h:162-194.  The five
enumerations are the raw `uint8_t` the driver stores with a cast. -/
structure Inverter where
  moduleATemperature : F32
  moduleBTemperature : F32
  moduleCTemperature : F32
  gateDriverTemp : F32
  controlBoardTemp : F32
  outputFrequency : F32
  dcBusCurrent : F32
  dcBusVoltage : F32
  outputVoltage : F32
  vd : F32
  vq : F32
  fluxCommand : F32
  fluxFeedback : F32
  idFeedback : F32
  iqFeedback : F32
  idCommand : F32
  iqCommand : F32
  commandedTorque : F32
  modulationIndex : F32
  fluxWeakeningOutput : F32
  vsmState : UInt8
  inverterState : UInt8
  dischargeState : UInt8
  enabled : UInt8
  direction : UInt8
  timerCounts : UInt32
  runFaults : UInt32
  postFaults : UInt32
deriving DecidableEq, Repr

/-- `VehicleState_Data_T`, vehicleStateTypes.h:196-205 -/
structure VData where
  inputs : Inputs
  dash : Dash
  vehicle : VehicleSensors
  glv : Glv
  battery : Battery
  motor : Motor
  inverter : Inverter
deriving DecidableEq

/-- `0.0f`: what `memset` to zero leaves in a float. vehicleState.c 24. -/
def f0 : F32 := .fin 0

/-- Contents after `VehicleState_Init` (`memset` 0), vehicleState.c:24. -/
def VData.zero : VData where
  inputs := ⟨f0, f0, f0, 0, 0, false, f0, f0, 0, 0⟩
  dash := ⟨false, false⟩
  vehicle := ⟨⟨⟨0, 0, 0, 0⟩, List.replicate 11 0, 0, List.replicate 11 0, 0, 0, 0⟩,
    ⟨false, false, false, false⟩, ⟨0, 0, 0, 0⟩⟩
  glv := ⟨Vector.replicate 8 false⟩
  battery := ⟨f0, f0, f0, f0, 0, 0, 0, 0, f0, f0, f0, false, 0, 0, 0⟩
  motor := ⟨f0, f0, 0, f0, f0, f0, f0⟩
  inverter := ⟨f0, f0, f0, f0, f0, f0, f0, f0, f0, f0, f0, f0, f0, f0, f0, f0, f0, f0, f0, f0,
    0, 0, 0, 0, 0, 0, 0, 0⟩

end Verif
