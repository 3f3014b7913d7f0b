import Verif.Model.Whole
import Verif.Spec.Car
import Verif.Spec.InvCar
import Verif.Spec.SensorFault
import Verif.Spec.Healthy

set_option autoImplicit false

/-!
# What sensors, battery and inverter have said so far

The situation outside the control software at a moment of a history, in terms of the last readings of the sensors and
of the last frames taken from the buses, and the drive faults in these terms.
-/

namespace Verif.Whole
open Verif.Can Verif.CanSpec Verif.Dbc Verif.FaultSpec
open Verif.SenseCar (Sensor travel)

/-- What happens at the receive queues. -/
def rxs (H : List Ev) : List RxEv :=
  H.filterMap fun
    | .rx e => some e
    | .sense _ => none
    | .veh _ => none

/-- The activations of the sensor task. -/
def readings (H : List Ev) : List DiscreteSense.Reads :=
  H.filterMap fun
    | .rx _ => none
    | .sense r => some r
    | .veh _ => none

/-- The last value read from a sensor. -/
def last (s : Sensor) (H : List Ev) : Option UInt16 :=
  (readings H).reverse.findSome? fun r => if r.acquired = true ∧ (s.of r).1 = .ok then some (s.of r).2 else none

/-- The last values read from both pedal sensors at once. -/
def lastBoth (H : List Ev) : Option (UInt16 × UInt16) :=
  (readings H).reverse.findSome? fun r =>
    if r.acquired = true ∧ r.accelA.1 = .ok ∧ r.accelB.1 = .ok then some (r.accelA.2, r.accelB.2) else none

/-- The last level of the button. -/
def lastButton (H : List Ev) : Option Bool :=
  (readings H).reverse.findSome? fun r => if r.acquired = true then some r.button else none

/-- The part of its travel a sensor shows, from 0 to 1. -/
def part (cal : AdcCal) (raw : UInt16) : ℚ := max 0 (min 1 (travel cal raw))

/-- The last value for a field among these frames. -/
def lastReport (fld : BmsField) (frames : List CanFrame) : Option Val :=
  frames.reverse.findSome? (Car.reading fld)

/-- The last state reported by the inverter among these frames. -/
def lastState (frames : List CanFrame) : Option UInt8 :=
  (frames.reverse.find? InvCar.isReport).map fun f => f.data[0]

/-- One of these two sensors was last read outside its calibrated range. -/
def OutOfRange (cfg : Config) (s o : Sensor) (H : List Ev) : Prop :=
  ∃ raw, (last s H = some raw ∧ outside (s.cal cfg) raw) ∨ (last o H = some raw ∧ outside (o.cal cfg) raw)

/-- The pedal sensors were last read further apart than the limit, up to rounding. -/
def Apart (cfg : Config) (lim : ℚ) (H : List Ev) : Prop :=
  ∃ a b, last .pedalA H = some a ∧ last .pedalB H = some b ∧
    lim < |part (Sensor.pedalA.cal cfg) a - part (Sensor.pedalB.cal cfg) b| + (2 : ℚ) ^ (-23 : ℤ)

/-- Accelerator and brake were last read pressed beyond these parts of their travel, up to rounding, and the
configuration asks for this check. -/
def BothPressed (cfg : Config) (ta tb : ℚ) (H : List Ev) : Prop :=
  cfg.inputs.pedalAbuseCheckEnabled = 1 ∧ ∃ a b f, lastBoth H = some (a, b) ∧ last .brakeFront H = some f ∧
    ta < (part (Sensor.pedalA.cal cfg) a + part (Sensor.pedalB.cal cfg) b) / 2 + (2 : ℚ) ^ (-23 : ℤ) ∧
    tb < part (Sensor.brakeFront.cal cfg) f + (2 : ℚ) ^ (-23 : ℤ)

/-- The limits of these checks. -/
structure Limits (cfg : Config) (lim ta tb : ℚ) : Prop where
  apart : cfg.inputs.accelPedal.consistencyLimit = .fin lim
  pedal : cfg.inputs.pedalAbuseAccelThreshold = .fin ta
  brake : cfg.inputs.pedalAbuseBrakeThreshold = .fin tb

/-- A drive fault, seen from outside, at these moments: something was wrong at enough of them in a row. `taken` gives the
frames taken from the battery's queue. -/
def Cause (cfg : Config) (lim ta tb : ℚ) (taken : List Ev → List CanFrame) (ms : List (List Ev)) : Prop :=
  HeldFor (OutOfRange cfg .pedalA .pedalB) (inputSamples cfg 10) ms ∨
  HeldFor (Apart cfg lim) (inputSamples cfg 10) ms ∨
  HeldFor (OutOfRange cfg .brakeFront .brakeRear) (inputSamples cfg 10) ms ∨
  HeldFor (BothPressed cfg ta tb) (inputSamples cfg 10) ms ∨
  ∃ fld bad n, Car.Measured cfg fld bad n ∧
    HeldFor (fun H => ∃ v, lastReport fld (taken H) = some v ∧ bad v) n ms

/-- All sensors have been read, the pedal sensors also together, and the battery has reported each of the four
measurements. -/
structure Known (taken : List Ev → List CanFrame) (H : List Ev) : Prop where
  sensors : ∀ s, last s H ≠ none
  both : lastBoth H ≠ none
  battery : ∀ fld ∈ [BmsField.maxT, .current, .maxV, .soc], lastReport fld (taken H) ≠ none

/-- The documented way from power-up to drive (as `Healthy.DriveOff`), for moments of a history: `pressed` tells whether
the button is pressed, `ready` whether the inverter has last reported that it is ready. -/
def DriveOff {α : Type} (pressed ready : α → Prop) (wait timeout : Nat) (ms : List α) : Prop :=
  ∃ first second idle press dwell charge rdy held released press',
    ms = first :: second :: (idle ++ [press] ++ dwell ++ charge ++ [rdy] ++ held ++ released ++ [press']) ∧
    (∀ m ∈ idle, ¬ pressed m) ∧ pressed press ∧
    dwell.length = (wait + 9) / 10 + 1 ∧
    (∀ m ∈ charge, ¬ ready m) ∧ 10 * (charge.length - 1) ≤ timeout ∧ ready rdy ∧
    (∀ m ∈ held, pressed m) ∧ released ≠ [] ∧ (∀ m ∈ released, ¬ pressed m) ∧ pressed press'

/-- The driver does not ask to stop: the button may still be held, and once released it is not pressed again. -/
def NotAsked {α : Type} (pressed : α → Prop) (ms : List α) : Prop :=
  ∃ held released, ms = held ++ released ∧ (∀ m ∈ held, pressed m) ∧ ∀ m ∈ released, ¬ pressed m

/-- The pedal position: the mean of the parts of the travel shown by the two sensors when they were last read together,
0 before. -/
def pedal (cfg : Config) (H : List Ev) : ℚ :=
  match lastBoth H with
  | some (a, b) => (part (Sensor.pedalA.cal cfg) a + part (Sensor.pedalB.cal cfg) b) / 2
  | none => 0

end Verif.Whole
