import Verif.Model.Vsm

set_option autoImplicit false

/-!
# Vocabulary for the state-machine properties

`traj w inp n` is the world after the first `n` ticks of the input history
`inp`; `st w inp n` its state.  Nothing here looks inside `VSM_Step`.
-/

namespace Verif.Vsm

/-- World after `n` ticks. -/
def traj (w : World) (inp : Nat → In) : Nat → World
  | 0 => w
  | n + 1 => (traj w inp n).step (inp n)

/-- Machine state after `n` ticks. -/
def st (w : World) (inp : Nat → In) (n : Nat) : St := (traj w inp n).vsm.vsmState

/-- Outputs after `n` ticks. -/
def outs (w : World) (inp : Nat → In) (n : Nat) : Outputs := (traj w inp n).out

/-- States in which the driver button is looked at. -/
def samplesButton : St → Bool
  | .lvReady | .activeNeutral | .activeForward => true
  | _ => false

/-- The most recent button sample before tick `n`: taken at ticks spent in a
button-sampling state without a reported fault and with vehicle state access;
"released" before the first sample. -/
def lastSample (w : World) (inp : Nat → In) : Nat → Bool
  | 0 => false
  | n + 1 =>
    if samplesButton (st w inp n) ∧ (inp n).fault = .noFault ∧ (inp n).access = true
    then (inp n).button else lastSample w inp n

/-- Tick `n` is a driver-requested transition. -/
def driverTransition (w : World) (inp : Nat → In) (n : Nat) : Prop :=
  (st w inp n = .lvReady ∧ st w inp (n+1) = .hvActive) ∨
  (st w inp n = .activeNeutral ∧ st w inp (n+1) = .activeForward) ∨
  (st w inp n = .activeForward ∧ st w inp (n+1) = .activeNeutral)

end Verif.Vsm

namespace Verif.Vsm

/-- At tick `n` the driver presses the button: no fault is reported, the sample
is available and pressed, and the previous sample was released. -/
structure ButtonEdge (w : World) (inp : Nat → In) (n : Nat) : Prop where
  noFault : (inp n).fault = .noFault
  access : (inp n).access = true
  pressed : (inp n).button = true
  wasReleased : lastSample w inp n = false

/-- The documented route from power-up to drive, ending (still driving) at tick
`n`: LV start-up during ticks `1..a`, LV ready during `a+1..b`, HV active during
`b+1..c`, HV charging during `c+1..d`, then neutral/forward, the current drive
phase being `e+1..n`. -/
structure DrivePath (w : World) (inp : Nat → In) (a b c d e n : Nat) : Prop where
  order : 1 ≤ a ∧ a < b ∧ b < c ∧ c < d ∧ d < e ∧ e < n
  start : st w inp 0 = .init
  startup : ∀ j, 1 ≤ j → j ≤ a → st w inp j = .lvStartup
  ready : ∀ j, a < j → j ≤ b → st w inp j = .lvReady
  hvRequest : ButtonEdge w inp b
  ecuReleased : ∀ j, b < j → j ≤ n → (outs w inp j).ecuError = false
  hv : ∀ j, b < j → j ≤ c → st w inp j = .hvActive
  hvWaited : w.vsm.hvActiveStateWait.toNat ≤ w.vsm.tickRateMs.toNat * (c - b - 1)
  inverterOff : ∀ j, j ≤ c → (outs w inp j).inverterEnables = 0
  inverterOn : ∀ j, c < j → j ≤ n → (outs w inp j).inverterEnables = 1
  charging : ∀ j, c < j → j ≤ d → st w inp j = .hvCharging
  inverterReady : (inp d).access = true ∧ (inp d).invVsm = 5
  neutralFirst : st w inp (d+1) = .activeNeutral
  active : ∀ j, d < j → j ≤ n → st w inp j = .activeNeutral ∨ st w inp j = .activeForward
  driveRequest : st w inp e = .activeNeutral ∧ ButtonEdge w inp e
  driving : ∀ j, e < j → j ≤ n → st w inp j = .activeForward
  noFaults : ∀ j, a ≤ j → j < n → (inp j).fault = .noFault

end Verif.Vsm
