import Verif.Model.Vehicle
import Verif.Spec.FaultManager

set_option autoImplicit false

/-!
# Histories with time, and what it means to keep up

Times are in any unit; the timer interrupts that release the state manager and the throttle task
come at the multiples of `P` (C56, C118).
-/

namespace Verif.Vehicle
open InvDrv FaultSpec

/-- A history: every event with the time at which it happens, in order. -/
abbrev Hist := List (Nat × Ev)

/-- Times do not go back. -/
def Ordered (H : Hist) : Prop := H.Pairwise (fun a b => a.1 ≤ b.1)

/-- The events. -/
def events (H : Hist) : List Ev := H.map (·.2)

/-- The part before time `t`. -/
def before (H : Hist) (t : Nat) : Hist := H.filter (fun e => e.1 < t)

/-- The part from time `a` on and before `b`. -/
def during (H : Hist) (a b : Nat) : Hist := H.filter (fun e => a ≤ e.1 ∧ e.1 < b)

/-- The command frames with the times at which they are handed to the CAN layer. -/
def frames (s : St) : Hist → List (Nat × Sent)
  | [] => []
  | (t, e) :: H =>
      match step s e with
      | .error _ => []
      | .ok (s', fs) => fs.map (fun f => (t, f)) ++ frames s' H

/-- State manager and throttle task are between activations. -/
structure Resting (s : St) : Prop where
  status : s.status = none
  pending : s.pending = []
  throttle : s.thr.pc = .idle

/-- The tasks keep up: during the first `K` periods each activation is complete before the next
timer interrupt, and the state manager copies the vehicle data once in each period. -/
def KeepsUp (P K : Nat) (s0 : St) (H : Hist) : Prop :=
  ∀ k, k ≤ K → ∀ s fs, run s0 (events (before H (k * P))) = .ok (s, fs) →
    Resting s ∧ (k < K → ∃ a b, events (during H (k * P) ((k + 1) * P)) = a ++ .copy true :: b ∧
      ∀ ok, Ev.copy ok ∉ a ∧ Ev.copy ok ∉ b)

/-- Whatever happens from time `a` on and before `b` finds vehicle data that are bad. -/
def Shows (bad : VData → Prop) (a b : Nat) (s0 : St) (H : Hist) : Prop :=
  ∀ pre t e post, H = pre ++ (t, e) :: post → a ≤ t → t < b →
    ∀ s fs, run s0 (events pre) = .ok (s, fs) → bad s.vd

/-- The documented drive faults, each with the number of consecutive samples after which it
counts. -/
inductive Documented (cfg : Config) : (VData → Prop) → Nat → Prop
  | accelRange : Documented cfg (accelRange cfg) (inputSamples cfg 10)
  | accelDisagree : Documented cfg (accelDisagree cfg) (inputSamples cfg 10)
  | brakeRange : Documented cfg (brakeRange cfg) (inputSamples cfg 10)
  | pedalAbuse : Documented cfg (pedalAbuse cfg) (inputSamples cfg 10)
  | cellTemp : Documented cfg (cellTemp cfg) (bmsSamples cfg 10)
  | current : Documented cfg (current cfg) (bmsSamples cfg 10)
  | cellVolt : Documented cfg (cellVolt cfg) (bmsSamples cfg 10)
  | lowSoc : Documented cfg (lowSoc cfg) 1
  | bms : Documented cfg (fun d => d.battery.bmsFaultIndicator = true) 1

end Verif.Vehicle
