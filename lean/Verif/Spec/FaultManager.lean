import Verif.Model.VehicleState
import Verif.Model.Config

set_option autoImplicit false

/-!
# What the fault manager is documented to detect

Independent of the implementation: conditions on one vehicle-data sample, and
"held for `n` consecutive samples at some point of the history".
-/

namespace Verif.FaultSpec

/-- Somewhere in the history, `n` consecutive samples were all bad. -/
def HeldFor {α : Type} (bad : α → Prop) (n : Nat) (history : List α) : Prop :=
  ∃ before window after, history = before ++ window ++ after ∧
    window.length = n ∧ ∀ d ∈ window, bad d

/-- The raw reading lies outside the calibrated range. -/
def outside (c : AdcCal) (raw : UInt16) : Prop :=
  ¬ (c.rawLower.toNat ≤ raw.toNat ∧ raw.toNat ≤ c.rawUpper.toNat)

/-- Accelerator: a pedal sensor is outside its calibrated range. -/
def accelRange (cfg : Config) (d : VData) : Prop :=
  outside cfg.inputs.accelPedal.calibrationA d.inputs.accelRawA ∨
  outside cfg.inputs.accelPedal.calibrationB d.inputs.accelRawB

/-- Accelerator: the redundant sensors disagree by more than the limit. -/
def accelDisagree (cfg : Config) (d : VData) : Prop :=
  F32.lt cfg.inputs.accelPedal.consistencyLimit
    (F32.abs (F32.sub d.inputs.accelA d.inputs.accelB)) = true

/-- Brake: a pressure sensor is outside its calibrated range. -/
def brakeRange (cfg : Config) (d : VData) : Prop :=
  outside cfg.inputs.brakePressureFront d.inputs.brakeRawFront ∨
  outside cfg.inputs.brakePressureRear d.inputs.brakeRawRear

/-- Accelerator and brake pressed together (only when the check is configured). -/
def pedalAbuse (cfg : Config) (d : VData) : Prop :=
  cfg.inputs.pedalAbuseCheckEnabled = 1 ∧
  F32.lt cfg.inputs.pedalAbuseAccelThreshold d.inputs.accel = true ∧
  F32.lt cfg.inputs.pedalAbuseBrakeThreshold d.inputs.brakePresFront = true

/-- A cell is above the temperature limit. -/
def cellTemp (cfg : Config) (d : VData) : Prop :=
  F32.lt (F32.ofInt cfg.bms.maxCellTemp.toInt) d.battery.maxCellTemperature = true
/-- Pack current above the limit. -/
def current (cfg : Config) (d : VData) : Prop :=
  F32.lt (F32.ofInt cfg.bms.maxCurrent.toInt) d.battery.dcCurrent = true
/-- A cell is above the voltage limit. -/
def cellVolt (cfg : Config) (d : VData) : Prop :=
  F32.lt (F32.ofInt cfg.bms.maxCellVoltage.toInt) d.battery.maxCellVoltage = true
/-- State of charge below the limit. -/
def lowSoc (cfg : Config) (d : VData) : Prop :=
  F32.lt d.battery.stateOfCarge (F32.ofInt cfg.bms.minStateOfCharge.toNat) = true

/-- Number of consecutive bad samples that trips an input check: one more than
the timeout in whole ticks. -/
def inputSamples (cfg : Config) (tick : UInt32) : Nat :=
  cfg.inputs.invalidDataTimeout.toNat / tick.toNat + 1
/-- The same for the BMS checks. -/
def bmsSamples (cfg : Config) (tick : UInt32) : Nat :=
  cfg.bms.invalidDataTimeout.toNat / tick.toNat + 1

/-- Some documented drive fault has occurred in the history of samples. -/
def DriveFault (cfg : Config) (tick : UInt32) (h : List VData) : Prop :=
  HeldFor (accelRange cfg) (inputSamples cfg tick) h ∨
  HeldFor (accelDisagree cfg) (inputSamples cfg tick) h ∨
  HeldFor (brakeRange cfg) (inputSamples cfg tick) h ∨
  HeldFor (pedalAbuse cfg) (inputSamples cfg tick) h ∨
  HeldFor (cellTemp cfg) (bmsSamples cfg tick) h ∨
  HeldFor (current cfg) (bmsSamples cfg tick) h ∨
  HeldFor (cellVolt cfg) (bmsSamples cfg tick) h ∨
  (∃ d ∈ h, lowSoc cfg d) ∨
  (∃ d ∈ h, d.battery.bmsFaultIndicator = true)

end Verif.FaultSpec
