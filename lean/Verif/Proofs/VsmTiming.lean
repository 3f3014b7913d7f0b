import Verif.Proofs.VsmPath

set_option autoImplicit false

namespace Verif.Vsm

variable {w : World} {inp : Nat → In}

/-- Shift of a trajectory. -/
theorem traj_add (w : World) (inp : Nat → In) (m k : Nat) :
    traj w inp (m + k) = traj (traj w inp m) (fun j => inp (m + j)) k := by
  induction k with
  | zero => rfl
  | succ k ih =>
    show (traj w inp (m + k)).step (inp (m+k)) = _
    rw [ih]; rfl

theorem mul_ofNat_toNat {t : UInt32} {j : Nat} (h : t.toNat * j < 2^32) (hj : j < 2^32) :
    (t * UInt32.ofNat j).toNat = t.toNat * j := by
  rw [UInt32.toNat_mul, UInt32.toNat_ofNat', Nat.mod_eq_of_lt hj, Nat.mod_eq_of_lt h]

/-- Staying in HV_ACTIVE from a world that just entered it. -/
theorem hvActive_stay (hs : Stable w) (h0 : w.vsm.vsmState = .hvActive)
    (ht : w.vsm.ticksInState = 0) (N : Nat)
    (hnf : ∀ j, j < N → (inp j).fault = .noFault)
    (hlt : ∀ j, j < N → (w.vsm.tickRateMs * UInt32.ofNat j).toNat < w.vsm.hvActiveStateWait.toNat) :
    ∀ j, j ≤ N → st w inp j = .hvActive ∧ (traj w inp j).vsm.ticksInState = UInt32.ofNat j ∧
      outs w inp j = w.out := by
  intro j
  induction j with
  | zero => intro _; exact ⟨h0, by simpa [traj] using ht, rfl⟩
  | succ j ih =>
    intro hj
    obtain ⟨i1, i2, i3⟩ := ih (by omega)
    have sp := spec_at hs inp j
    have h2 := (sp.hvActive i1 (hnf j (by omega))).2
    have hcfg := cfg_traj w inp j
    rw [hcfg.1, hcfg.2.1, i2] at h2
    have := hlt j (by omega)
    rw [if_neg (by rw [UInt32.le_iff_toNat_le]; omega)] at h2
    refine ⟨h2.1, ?_, ?_⟩
    · rw [h2.2.2]; simp
    · show (traj w inp (j+1)).out = _; rw [h2.2.1]; exact i3

theorem hvCharging_stay (hs : Stable w) (h0 : w.vsm.vsmState = .hvCharging)
    (ht : w.vsm.ticksInState = 0) (N : Nat)
    (hnf : ∀ j, j < N → (inp j).fault = .noFault)
    (hnr : ∀ j, j < N → ¬ ((inp j).access = true ∧ (inp j).invVsm = 5))
    (hlt : ∀ j, j < N → (inp j).access = true →
      (w.vsm.tickRateMs * UInt32.ofNat j).toNat ≤ w.vsm.hvChargeTimeout.toNat) :
    ∀ j, j ≤ N → st w inp j = .hvCharging ∧ (traj w inp j).vsm.ticksInState = UInt32.ofNat j := by
  intro j
  induction j with
  | zero => intro _; exact ⟨h0, by simpa [traj] using ht⟩
  | succ j ih =>
    intro hj
    obtain ⟨i1, i2⟩ := ih (by omega)
    have sp := spec_at hs inp j
    have h2 := (sp.hvCharging i1 (hnf j (by omega))).2.2
    have hcfg := cfg_traj w inp j
    rw [hcfg.1, hcfg.2.2, i2] at h2
    have := hlt j (by omega)
    rw [if_neg (hnr j (by omega)), if_neg (by rw [UInt32.lt_iff_toNat_lt]; intro h; have := this h.1; omega)] at h2
    refine ⟨h2.1, ?_⟩
    rw [h2.2]; simp

/-- Entering a new state resets the tick counter. -/
theorem ticks_reset (w : World) (i : In) (h : (w.step i).vsm.vsmState ≠ w.vsm.vsmState)
    : (w.step i).vsm.ticksInState = 0 := by
  have hv : ∀ v : Vsm, (handle v i).1.vsmState = v.vsmState := by
    intro v
    unfold handle stateInit stateLvStartup stateLvReady stateHvActive stateHvCharging
      stateActiveNeutral stateActiveForward stateFault
    split <;> (repeat' split) <;> simp
  unfold World.step step advance at *
  simp only at *
  have := hv w.vsm
  split
  · rfl
  · rename_i hh; simp only [if_neg hh] at h; simp_all

end Verif.Vsm
