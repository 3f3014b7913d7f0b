import Verif.Model.VehicleState
import Verif.Spec.Pedal
import Verif.Spec.InverterCmd
import Verif.C.Float32

set_option autoImplicit false

/-!
# What a driver does to drive off, and what they get

In terms of the samples of the vehicle data that the state manager takes, one per activation
(10 ms), and of the command frames the inverter reads.
-/

namespace Verif.Healthy
open InvSpec

/-- The dash button is pressed in this sample. -/
def Pressed (d : VData) : Prop := d.dash.buttonPressed = true
/-- The dash button is released in this sample. -/
def Released (d : VData) : Prop := d.dash.buttonPressed = false
/-- The inverter reports that it is ready. -/
def InverterReady (d : VData) : Prop := d.inverter.vsmState = 5

/-- The documented way from power-up to drive: two samples of start-up; the button released, then
pressed; the configured waiting time for high voltage (`wait` milliseconds, one sample each 10 ms);
the inverter charging for no longer than `timeout` milliseconds, then ready; the button released at
least once after that (it may still be held before), then pressed. -/
def DriveOff (wait timeout : Nat) (samples : List VData) : Prop :=
  ∃ first second idle press dwell charge ready held released press',
    samples = first :: second :: (idle ++ [press] ++ dwell ++ charge ++ [ready] ++ held ++ released ++
      [press']) ∧
    (∀ d ∈ idle, Released d) ∧ Pressed press ∧
    dwell.length = (wait + 9) / 10 + 1 ∧
    (∀ d ∈ charge, ¬ InverterReady d) ∧ 10 * (charge.length - 1) ≤ timeout ∧ InverterReady ready ∧
    (∀ d ∈ held, Pressed d) ∧ released ≠ [] ∧ (∀ d ∈ released, Released d) ∧ Pressed press'

/-- The driver does not ask to stop: the button may still be held, and once released it is not
pressed again. -/
def NotAsked (samples : List VData) : Prop :=
  ∃ held released, samples = held ++ released ∧ (∀ d ∈ held, Pressed d) ∧ ∀ d ∈ released, Released d

/-- Newton metres of the forward curve at a pedal value; a value that is no number asks for nothing. -/
def asked : F32 → ℚ
  | .fin x => Pedal.forward x
  | _ => 0

/-- The inverter is told to drive forwards with the torque the curve gives for this pedal value: at
most 1.02 tenths of a newton metre less, at most 0.02 tenths more. -/
structure Drives (a : F32) (p : Payload) : Prop where
  enabled : enableBit p = true
  forward : directionBit p = true
  noDischarge : dischargeBit p = false
  rest : RestZero p
  low : 10 * asked a - 102/100 < torqueField p
  high : (torqueField p : ℚ) ≤ 10 * asked a + 2/100

end Verif.Healthy
