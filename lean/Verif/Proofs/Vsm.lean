import Verif.Spec.Vsm

set_option autoImplicit false

namespace Verif.Vsm

/-- Between ticks the staged next state equals the state. -/
def Stable (w : World) : Prop := w.vsm.nextState = w.vsm.vsmState

theorem stable_start (t a b e) : Stable (World.start t a b e) := rfl

theorem stable_step (w : World) (i : In) : Stable (w.step i) := by
  unfold Stable World.step step advance
  simp only
  split <;> simp_all

theorem stable_traj {w : World} (h : Stable w) (inp) (n) : Stable (traj w inp n) := by
  cases n with
  | zero => exact h
  | succ n => exact stable_step _ _

/-- Configuration words never change. -/
theorem cfg_step (w : World) (i : In) :
    (w.step i).vsm.tickRateMs = w.vsm.tickRateMs ∧
    (w.step i).vsm.hvActiveStateWait = w.vsm.hvActiveStateWait ∧
    (w.step i).vsm.hvChargeTimeout = w.vsm.hvChargeTimeout := by
  have adv : ∀ v : Vsm, (advance v).tickRateMs = v.tickRateMs ∧
      (advance v).hvActiveStateWait = v.hvActiveStateWait ∧
      (advance v).hvChargeTimeout = v.hvChargeTimeout := by
    intro v; unfold advance; simp only; split <;> simp
  have hd : ∀ v : Vsm, (handle v i).1.tickRateMs = v.tickRateMs ∧
      (handle v i).1.hvActiveStateWait = v.hvActiveStateWait ∧
      (handle v i).1.hvChargeTimeout = v.hvChargeTimeout := by
    intro v
    unfold handle stateInit stateLvStartup stateLvReady stateHvActive stateHvCharging
      stateActiveNeutral stateActiveForward stateFault
    split <;> (repeat' split) <;> simp
  simp only [World.step, step]
  have h1 := adv (handle w.vsm i).1
  have h2 := hd w.vsm
  simp [h1, h2]

theorem cfg_traj (w : World) (inp) (n) :
    (traj w inp n).vsm.tickRateMs = w.vsm.tickRateMs ∧
    (traj w inp n).vsm.hvActiveStateWait = w.vsm.hvActiveStateWait ∧
    (traj w inp n).vsm.hvChargeTimeout = w.vsm.hvChargeTimeout := by
  induction n with
  | zero => simp [traj]
  | succ n ih =>
    have := cfg_step (traj w inp n) (inp n)
    simp only [traj]
    simp [this, ih]

/-- What a step does, by state, spelled out on all observables. -/
structure StepSpec (w : World) (i : In) (w' : World) : Prop where
  init : w.vsm.vsmState = .init →
    w'.vsm.vsmState = .lvStartup ∧ w'.out = { w.out with ecuError := true } ∧
    w'.vsm.inputButtonPrev = w.vsm.inputButtonPrev ∧ w'.vsm.ticksInState = 0
  lvStartup : w.vsm.vsmState = .lvStartup →
    w'.vsm.vsmState = (match i.fault with
      | .fault => .fault | .noFault => .lvReady | _ => .lvStartup) ∧
    w'.out = w.out ∧ w'.vsm.inputButtonPrev = w.vsm.inputButtonPrev ∧
    (i.fault = .fault ∨ i.fault = .noFault → w'.vsm.ticksInState = 0)
  faulted : w.vsm.vsmState ∈ [.lvReady, .hvActive, .hvCharging, .activeNeutral, .activeForward] →
    i.fault ≠ .noFault → w'.vsm.vsmState = .fault ∧ w'.out = w.out ∧
    w'.vsm.inputButtonPrev = w.vsm.inputButtonPrev ∧ w'.vsm.ticksInState = 0
  lvReady : w.vsm.vsmState = .lvReady → i.fault = .noFault →
    w'.vsm.inputButtonPrev = (if i.access then i.button else w.vsm.inputButtonPrev) ∧
    (if i.access = true ∧ i.button = true ∧ w.vsm.inputButtonPrev = false then
      w'.vsm.vsmState = .hvActive ∧ w'.out = { w.out with ecuError := false } ∧ w'.vsm.ticksInState = 0
    else w'.vsm.vsmState = .lvReady ∧ w'.out = w.out)
  hvActive : w.vsm.vsmState = .hvActive → i.fault = .noFault →
    w'.vsm.inputButtonPrev = w.vsm.inputButtonPrev ∧
    (if w.vsm.hvActiveStateWait ≤ w.vsm.tickRateMs * w.vsm.ticksInState then
      w'.vsm.vsmState = .hvCharging ∧ w'.vsm.ticksInState = 0 ∧
      w'.out = { w.out with inverterEnables := w.out.inverterEnables + 1 }
    else w'.vsm.vsmState = .hvActive ∧ w'.out = w.out ∧
      w'.vsm.ticksInState = w.vsm.ticksInState + 1)
  hvCharging : w.vsm.vsmState = .hvCharging → i.fault = .noFault →
    w'.vsm.inputButtonPrev = w.vsm.inputButtonPrev ∧ w'.out = w.out ∧
    (if i.access = true ∧ i.invVsm = 5 then w'.vsm.vsmState = .activeNeutral
     else if i.access = true ∧ w.vsm.hvChargeTimeout < w.vsm.tickRateMs * w.vsm.ticksInState then
      w'.vsm.vsmState = .fault ∧ w'.vsm.ticksInState = 0
     else w'.vsm.vsmState = .hvCharging ∧ w'.vsm.ticksInState = w.vsm.ticksInState + 1)
  neutral : w.vsm.vsmState = .activeNeutral → i.fault = .noFault →
    w'.vsm.inputButtonPrev = (if i.access then i.button else w.vsm.inputButtonPrev) ∧
    (if i.access = true ∧ i.button = true ∧ w.vsm.inputButtonPrev = false then
      w'.vsm.vsmState = .activeForward ∧
      w'.out = { w.out with direction := .forward, torqueEnabled := true }
    else w'.vsm.vsmState = .activeNeutral ∧ w'.out = w.out)
  forward : w.vsm.vsmState = .activeForward → i.fault = .noFault →
    w'.vsm.inputButtonPrev = (if i.access then i.button else w.vsm.inputButtonPrev) ∧
    (if i.access = true ∧ i.button = true ∧ w.vsm.inputButtonPrev = false then
      w'.vsm.vsmState = .activeNeutral ∧ w'.out = { w.out with torqueEnabled := false }
    else w'.vsm.vsmState = .activeForward ∧ w'.out = w.out)
  fault : w.vsm.vsmState = .fault →
    w'.vsm.vsmState = .fault ∧
    w'.out = { w.out with direction := .forward, torqueEnabled := false, ecuError := true } ∧
    w'.vsm.inputButtonPrev = w.vsm.inputButtonPrev

theorem stepSpec (w : World) (i : In) (hs : Stable w) : StepSpec w i (w.step i) := by
  obtain ⟨⟨tick, wait, tmo, s, nx, tk, pv⟩, o⟩ := w
  obtain ⟨f, acc, btn, iv⟩ := i
  simp only [Stable] at hs
  subst hs
  constructor
  · rintro h; simp only at h; subst h
    simp [World.step, step, handle, stateInit, advance, Outputs.apply]
  · rintro h; simp only at h; subst h
    cases f <;> simp [World.step, step, handle, stateLvStartup, advance]
  · rintro h hf; simp only [List.mem_cons, List.not_mem_nil, or_false] at h hf
    rcases h with h | h | h | h | h <;> subst h <;>
      simp [World.step, step, handle, stateLvReady, stateHvActive, stateHvCharging,
        stateActiveNeutral, stateActiveForward, advance, hf]
  · rintro h hf; simp only at h hf; subst h; subst hf
    cases acc <;> cases btn <;> cases pv <;>
      simp [World.step, step, handle, stateLvReady, advance, Outputs.apply]
  · rintro h hf; simp only at h hf; subst h; subst hf
    by_cases hc : wait ≤ tick * tk <;>
      simp [World.step, step, handle, stateHvActive, advance, Outputs.apply, hc]
  · rintro h hf; simp only at h hf; subst h; subst hf
    by_cases hr : iv = 5 <;> by_cases hc : tmo < tick * tk <;> cases acc <;>
      simp [World.step, step, handle, stateHvCharging, advance, invReady, hr, hc]
  · rintro h hf; simp only at h hf; subst h; subst hf
    cases acc <;> cases btn <;> cases pv <;>
      simp [World.step, step, handle, stateActiveNeutral, advance, Outputs.apply]
  · rintro h hf; simp only at h hf; subst h; subst hf
    cases acc <;> cases btn <;> cases pv <;>
      simp [World.step, step, handle, stateActiveForward, advance, Outputs.apply]
  · rintro h; simp only at h; subst h
    simp [World.step, step, handle, stateFault, advance, Outputs.apply]

end Verif.Vsm
