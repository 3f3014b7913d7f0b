import Verif.Spec.Response

set_option autoImplicit false

/-!
# An activation of the throttle task in every period
-/

namespace Verif.Vehicle

/-- In each of the first `K` timer periods the throttle task runs, it is between two activations at
the timer interrupts, and the inverter driver's lock is granted to it. -/
def ThrottleRuns (P K : Nat) (s0 : St) (H : Hist) : Prop :=
  (∀ k, k ≤ K → ∀ s fs, run s0 (events (before H (k * P))) = .ok (s, fs) → s.thr.pc = .idle) ∧
  ∀ k, k < K →
    (∃ ok en, Ev.throttle ok en ∈ events (during H (k * P) ((k + 1) * P))) ∧
    ∀ ok en, Ev.throttle ok en ∈ events (during H (k * P) ((k + 1) * P)) → en.lock = true

end Verif.Vehicle
