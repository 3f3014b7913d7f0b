import Verif.Spec.Response
import Verif.Spec.Pedal

set_option autoImplicit false

/-!
# Which reading of the pedal a torque command answers
-/

namespace Verif.Vehicle

/-- The throttle task finishes every activation before the next timer interrupt, for all interrupts
that fall within the history. -/
def ThrottleKeepsUp (P : Nat) (s0 : St) (H : Hist) : Prop :=
  ∀ k, (∃ e ∈ H, k * P ≤ e.1) →
    ∀ s fs, run s0 (events (before H (k * P))) = .ok (s, fs) → s.thr.pc = .idle

/-- At time `t` the throttle task reads the pedal value `a` from the vehicle data. -/
def Reads (s0 : St) (H : Hist) (t : Nat) (a : F32) : Prop :=
  ∃ pre en post s fs, H = pre ++ (t, .throttle true en) :: post ∧
    run s0 (events pre) = .ok (s, fs) ∧ s.thr.pc = .idle ∧ s.vd.inputs.accel = a

/-- Newton metres a pedal value asks for; a value that is no number asks for nothing. -/
def asks : F32 → ℚ
  | .fin x => Pedal.forward x
  | _ => 0

end Verif.Vehicle
