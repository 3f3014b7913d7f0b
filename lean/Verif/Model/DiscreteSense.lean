import Verif.Model.Adc
import Verif.Model.VehicleState
import Verif.Model.Config

set_option autoImplicit false

/-!
# Discrete sensors: vcu/device/discretesense/discretesense.c

The task body for one notification. The results of the four `ADC_Get` calls, the button pin
and the result of `VehicleState_AccessAcquire` are inputs.
-/

namespace Verif.DiscreteSense
open Adc

/-- The scalings in `DiscreteSense_T` (discretesense.h 53-56). -/
structure Cfg where
  accelA : Scaling
  accelB : Scaling
  brakeFront : Scaling
  brakeRear : Scaling

/-- `vehicleDevicesInit` fills the scalings from the configuration with saturation on
(vcu/startup/initialize.c 352-372). -/
def cfgOf (c : Config) : Cfg :=
  { accelA := ⟨c.inputs.accelPedal.calibrationA.rawLower, c.inputs.accelPedal.calibrationA.rawUpper, true⟩
    accelB := ⟨c.inputs.accelPedal.calibrationB.rawLower, c.inputs.accelPedal.calibrationB.rawUpper, true⟩
    brakeFront := ⟨c.inputs.brakePressureFront.rawLower, c.inputs.brakePressureFront.rawUpper, true⟩
    brakeRear := ⟨c.inputs.brakePressureRear.rawLower, c.inputs.brakePressureRear.rawUpper, true⟩ }

/-- What one tick reads: status and value of each `ADC_Get` (discretesense.c 29-32), the pin (41) and
whether the state lock was obtained (43). -/
structure Reads where
  accelA : Status × UInt16
  accelB : Status × UInt16
  brakeFront : Status × UInt16
  brakeRear : Status × UInt16
  button : Bool
  acquired : Bool

/-- discretesense.c 46-49. -/
def pubA (r : Status × UInt16) (v : F32) (i : Inputs) : Inputs :=
  if r.1 = .ok then { i with accelA := v, accelRawA := r.2 } else i

/-- discretesense.c 50-53. -/
def pubB (r : Status × UInt16) (v : F32) (i : Inputs) : Inputs :=
  if r.1 = .ok then { i with accelB := v, accelRawB := r.2 } else i

/-- discretesense.c 54-57. -/
def pubAccel (ra rb : Status × UInt16) (v : F32) (i : Inputs) : Inputs :=
  if ra.1 = .ok ∧ rb.1 = .ok then { i with accel := v, accelValid := true } else i

/-- discretesense.c 59-62. -/
def pubFront (r : Status × UInt16) (v : F32) (i : Inputs) : Inputs :=
  if r.1 = .ok then { i with brakePresFront := v, brakeRawFront := r.2 } else i

/-- discretesense.c 63-66. -/
def pubRear (r : Status × UInt16) (v : F32) (i : Inputs) : Inputs :=
  if r.1 = .ok then { i with brakePresRear := v, brakeRawRear := r.2 } else i

/-- `DiscreteSense_TaskMethod` after a notification (discretesense.c 22-71): the vehicle data it leaves. -/
def tick (c : Cfg) (r : Reads) (d : VData) : VData :=
  let accelA := applyScaling c.accelA r.accelA.2
  let accelB := applyScaling c.accelB r.accelB.2
  let brakeFront := applyScaling c.brakeFront r.brakeFront.2
  let brakeRear := applyScaling c.brakeRear r.brakeRear.2
  let accel := F32.mul (.fin (1 / 2)) (F32.add accelA accelB)
  if r.acquired then
    { d with
      inputs := pubRear r.brakeRear brakeRear (pubFront r.brakeFront brakeFront
        (pubAccel r.accelA r.accelB accel (pubB r.accelB accelB (pubA r.accelA accelA d.inputs))))
      dash := { d.dash with buttonPressed := r.button } }
  else d

/-- One tick reading the converter driver. discretesense.c 22-71 with adc.c 141-179; the four channel numbers
are those of deviceMapping.h 30-33 and initialize.c 116-119. -/
def tickAdc (c : Cfg) (s : St) (button acquired : Bool) (d : VData) : C VData := do
  let a ← adcGet s 8
  let b ← adcGet s 9
  let f ← adcGet s 10
  let r ← adcGet s 11
  .ok (tick c ⟨a, b, f, r, button, acquired⟩ d)

/-- The converter and the sensor task side by side. discretesense.c 22-71; adc.c 207-261. -/
inductive Ev where
  | adc (e : Adc.Ev)
  | tick (button acquired : Bool)

/-- A history: converter events and sensor ticks in any order. discretesense.c 22-71; adc.c 207-261. -/
def session (hw : Hw) (c : Cfg) : Sys → VData → List Ev → C (Sys × VData)
  | y, d, [] => .ok (y, d)
  | y, d, .adc e :: es => Adc.step hw y e >>= fun y' => session hw c y' d es
  | y, d, .tick b a :: es => tickAdc c y.st b a d >>= fun d' => session hw c y d' es

end Verif.DiscreteSense
