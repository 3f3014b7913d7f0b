import Verif.Spec.SenseCar
import Verif.Spec.FaultManager

set_option autoImplicit false

/-!
# What the pedal and brake sensors show
-/

namespace Verif.SenseCar

/-- The four analogue sensors of the driver's controls. -/
inductive Sensor
  | pedalA | pedalB | brakeFront | brakeRear

/-- The calibration of a sensor. -/
def Sensor.cal (cfg : Config) : Sensor → AdcCal
  | .pedalA => cfg.inputs.accelPedal.calibrationA
  | .pedalB => cfg.inputs.accelPedal.calibrationB
  | .brakeFront => cfg.inputs.brakePressureFront
  | .brakeRear => cfg.inputs.brakePressureRear

/-- What the converter returned for a sensor. -/
def Sensor.of (r : DiscreteSense.Reads) : Sensor → Adc.Status × UInt16
  | .pedalA => r.accelA
  | .pedalB => r.accelB
  | .brakeFront => r.brakeFront
  | .brakeRear => r.brakeRear

/-- The sensor task obtained the vehicle data and this sensor could be read. -/
def Sensor.Read (s : Sensor) (r : DiscreteSense.Reads) : Prop := r.acquired = true ∧ (s.of r).1 = .ok

/-- Every activation of the sensor task from time `t` on and before `t'` is like this. -/
def During (H : List (Nat × Ev)) (t t' : Nat) (p : DiscreteSense.Reads → Prop) : Prop :=
  ∀ τ r, (τ, Ev.sense r) ∈ H → t ≤ τ → τ < t' → p r

/-- If the sensor is read, the value lies outside its calibrated range. -/
def OutOfRange (cfg : Config) (s : Sensor) (r : DiscreteSense.Reads) : Prop :=
  s.Read r → FaultSpec.outside (s.cal cfg) (s.of r).2

/-- If the sensor is read, it shows at least this part of its travel. -/
def AtLeast (cfg : Config) (x : ℚ) (s : Sensor) (r : DiscreteSense.Reads) : Prop :=
  s.Read r → x ≤ travel (s.cal cfg) (s.of r).2

/-- If the sensor is read, it shows at most this part of its travel. -/
def AtMost (cfg : Config) (x : ℚ) (s : Sensor) (r : DiscreteSense.Reads) : Prop :=
  s.Read r → travel (s.cal cfg) (s.of r).2 ≤ x

end Verif.SenseCar
