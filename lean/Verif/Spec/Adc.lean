import Verif.C.Basic

set_option autoImplicit false

/-!
# Specification of conversion histories

Independent of the driver: what was sampled, how many sweeps have been signalled complete,
and what "the interrupts are served in time" means for a circular buffer of `n` samples.
-/

namespace Verif.AdcSpec

/-- An observable event. -/
inductive Obs where
  | sample (v : UInt16)
  | halfDone
  | sweepDone
  | foreign

/-- The samples in order. -/
def samples : List Obs → List UInt16
  | [] => []
  | .sample v :: es => v :: samples es
  | _ :: es => samples es

/-- The number of sweeps signalled complete. -/
def completed : List Obs → Nat
  | [] => 0
  | .sweepDone :: es => completed es + 1
  | _ :: es => completed es

/-- With `k` samples stored, `h` first halves and `c` sweeps signalled so far, the rest of
the history is timely: each signal comes after the samples it announces, signals alternate,
and no sample overwrites a half that has not been signalled yet. -/
def Timely (n : Nat) : Nat → Nat → Nat → List Obs → Prop
  | _, _, _, [] => True
  | k, h, c, .sample _ :: es =>
    (if k % n < n / 2 then k / n ≤ h else k / n ≤ c) ∧ Timely n (k + 1) h c es
  | k, h, c, .halfDone :: es => h = c ∧ c * n + n / 2 ≤ k ∧ Timely n k (h + 1) c es
  | k, h, c, .sweepDone :: es => h = c + 1 ∧ (c + 1) * n ≤ k ∧ Timely n k h (c + 1) es
  | k, h, c, .foreign :: es => Timely n k h c es

end Verif.AdcSpec
