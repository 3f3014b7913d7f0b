import Verif.Model.SenseCar

set_option autoImplicit false

/-!
# What the driver did
-/

namespace Verif.SenseCar

/-- The levels of the dashboard button's pin, as read by the sensor task when it obtained the vehicle data. -/
def button (H : List Ev) : List Bool :=
  H.filterMap fun
    | .sense r => if r.acquired then some r.button else none
    | .veh _ => none

/-- The part of its travel a pedal sensor reports, from its two calibration points. -/
def travel (cal : AdcCal) (raw : UInt16) : ℚ :=
  ((raw.toNat : ℚ) - cal.rawLower.toNat) / ((cal.rawUpper.toNat : ℚ) - cal.rawLower.toNat)

/-- The sensor task obtained the vehicle data and both pedal sensors could be read. -/
def Complete (r : DiscreteSense.Reads) : Prop := r.acquired = true ∧ r.accelA.1 = .ok ∧ r.accelB.1 = .ok

/-- From time `t` on and before `t'` both pedal sensors stay at or below this part of the travel. -/
def Held (cfg : Config) (lim : ℚ) (t t' : Nat) (H : List (Nat × Ev)) : Prop :=
  ∀ τ r, (τ, Ev.sense r) ∈ H → t ≤ τ → τ < t' → Complete r →
    travel cfg.inputs.accelPedal.calibrationA r.accelA.2 ≤ lim ∧
    travel cfg.inputs.accelPedal.calibrationB r.accelB.2 ≤ lim

end Verif.SenseCar
