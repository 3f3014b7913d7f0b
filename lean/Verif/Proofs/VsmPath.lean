import Verif.Proofs.VsmHistory

set_option autoImplicit false

namespace Verif.Vsm

section
variable {w : World} {inp : Nat → In}

theorem prev_eq_lastSample (hs : Stable w) (h0 : w.vsm.inputButtonPrev = false)
    (henum : ∀ n k, st w inp n ≠ .other k) (n : Nat) :
    (traj w inp n).vsm.inputButtonPrev = lastSample w inp n := by
  induction n with
  | zero => simpa [traj, lastSample] using h0
  | succ n ih =>
    have sp := spec_at hs inp n
    have he := henum n
    unfold lastSample
    unfold st at *
    rcases hstate : (traj w inp n).vsm.vsmState with _ | _ | _ | _ | _ | _ | _ | _ | k
    · have := (sp.init hstate).2.2.1; simp [samplesButton, this, ih]
    · have := (sp.fault hstate).2.2; simp [samplesButton, this, ih]
    · have := (sp.lvStartup hstate).2.2.1; simp [samplesButton, this, ih]
    · by_cases hf : (inp n).fault = .noFault
      · have := (sp.lvReady hstate hf).1; simp [samplesButton, this, ih, hf]
      · have := (sp.faulted (by simp [hstate]) hf).2.2.1; simp [samplesButton, this, ih, hf]
    · by_cases hf : (inp n).fault = .noFault
      · have := (sp.hvActive hstate hf).1; simp [samplesButton, this, ih]
      · have := (sp.faulted (by simp [hstate]) hf).2.2.1; simp [samplesButton, this, ih]
    · by_cases hf : (inp n).fault = .noFault
      · have := (sp.hvCharging hstate hf).1; simp [samplesButton, this, ih]
      · have := (sp.faulted (by simp [hstate]) hf).2.2.1; simp [samplesButton, this, ih]
    · by_cases hf : (inp n).fault = .noFault
      · have := (sp.neutral hstate hf).1; simp [samplesButton, this, ih, hf]
      · have := (sp.faulted (by simp [hstate]) hf).2.2.1; simp [samplesButton, this, ih, hf]
    · by_cases hf : (inp n).fault = .noFault
      · have := (sp.forward hstate hf).1; simp [samplesButton, this, ih, hf]
      · have := (sp.faulted (by simp [hstate]) hf).2.2.1; simp [samplesButton, this, ih, hf]
    · exact absurd hstate (he k)

def PhLv (w : World) (inp : Nat → In) (n : Nat) : Prop :=
  1 ≤ n ∧ ∀ j, 1 ≤ j → j ≤ n → st w inp j = .lvStartup

def PhReady (w : World) (inp : Nat → In) (a n : Nat) : Prop :=
  PhLv w inp a ∧ a < n ∧ (∀ j, a < j → j ≤ n → st w inp j = .lvReady) ∧
  (∀ j, a ≤ j → j < n → (inp j).fault = .noFault)

def PhHv (w : World) (inp : Nat → In) (a b n : Nat) : Prop :=
  PhReady w inp a b ∧ ButtonEdge w inp b ∧ b < n ∧
  (∀ j, b < j → j ≤ n → st w inp j = .hvActive) ∧
  (∀ j, a ≤ j → j < n → (inp j).fault = .noFault)

def PhChg (w : World) (inp : Nat → In) (a b c n : Nat) : Prop :=
  PhHv w inp a b c ∧ w.vsm.hvActiveStateWait.toNat ≤ w.vsm.tickRateMs.toNat * (c - b - 1) ∧
  c < n ∧ (∀ j, c < j → j ≤ n → st w inp j = .hvCharging) ∧
  (∀ j, a ≤ j → j < n → (inp j).fault = .noFault)

def PhAct (w : World) (inp : Nat → In) (a b c d n : Nat) : Prop :=
  PhChg w inp a b c d ∧ ((inp d).access = true ∧ (inp d).invVsm = 5) ∧ d < n ∧
  st w inp (d+1) = .activeNeutral ∧
  (∀ j, d < j → j ≤ n → st w inp j = .activeNeutral ∨ st w inp j = .activeForward) ∧
  (∀ j, a ≤ j → j < n → (inp j).fault = .noFault)

def PhFwd (w : World) (inp : Nat → In) (a b c d e n : Nat) : Prop :=
  PhAct w inp a b c d n ∧ d < e ∧ e < n ∧ st w inp e = .activeNeutral ∧ ButtonEdge w inp e ∧
  (∀ j, e < j → j ≤ n → st w inp j = .activeForward)

theorem mul_toNat_le (t k : UInt32) (m : Nat) (hk : k = UInt32.ofNat m) :
    (t * k).toNat ≤ t.toNat * m := by
  subst hk
  rw [UInt32.toNat_mul, UInt32.toNat_ofNat']
  refine Nat.le_trans (Nat.mod_le _ _) ?_
  exact Nat.mul_le_mul_left _ (Nat.mod_le _ _)

theorem forall_extend {P : Nat → Prop} {a n : Nat} (h : ∀ j, a < j → j ≤ n → P j) (h' : P (n+1)) :
    ∀ j, a < j → j ≤ n+1 → P j := by
  intro j h1 h2
  rcases Nat.lt_or_ge n j with h3 | h3
  · have : j = n+1 := by omega
    subst this; exact h'
  · exact h j h1 h3

theorem forall_extend' {P : Nat → Prop} {a n : Nat} (h : ∀ j, a ≤ j → j < n → P j) (h' : P n) :
    ∀ j, a ≤ j → j < n+1 → P j := by
  intro j h1 h2
  rcases Nat.lt_or_ge j n with h3 | h3
  · exact h j h1 h3
  · have : j = n := by omega
    subst this; exact h'

theorem path_inv (t x y e0) (inp : Nat → In) (n : Nat) :
    let w := World.start t x y e0
    (st w inp n = .init → n = 0) ∧
    (st w inp n = .lvStartup → PhLv w inp n) ∧
    (st w inp n = .lvReady → ∃ a, PhReady w inp a n) ∧
    (st w inp n = .hvActive → ∃ a b, PhHv w inp a b n ∧
      (traj w inp n).vsm.ticksInState = UInt32.ofNat (n - b - 1)) ∧
    (st w inp n = .hvCharging → ∃ a b c, PhChg w inp a b c n) ∧
    (st w inp n = .activeNeutral → ∃ a b c d, PhAct w inp a b c d n) ∧
    (st w inp n = .activeForward → ∃ a b c d e, PhFwd w inp a b c d e n) := by
  intro w
  have hs : Stable w := stable_start t x y e0
  have hen : ∀ n k, st w inp n ≠ .other k := fun n k => (reach t x y e0 inp n).enum k
  have hprev := prev_eq_lastSample (inp := inp) hs rfl hen
  induction n with
  | zero =>
    have : st w inp 0 = .init := rfl
    simp [this]
  | succ n ih =>
    obtain ⟨ih0, ih1, ih2, ih3, ih4, ih5, ih6⟩ := ih
    have sp := spec_at hs inp n
    have hpn := hprev n
    have hen' := hen n
    have hcfg := cfg_traj w inp n
    rcases hstate : st w inp n with _ | _ | _ | _ | _ | _ | _ | _ | k
    · have h0 := ih0 hstate
      have h1 : st w inp (n+1) = .lvStartup := (sp.init hstate).1
      refine ⟨by simp [h1], fun _ => ⟨by omega, ?_⟩, by simp [h1], by simp [h1], by simp [h1], by simp [h1], by simp [h1]⟩
      intro j hj1 hj2
      have : j = n+1 := by omega
      rw [this, h1]
    · have h1 : st w inp (n+1) = .fault := (sp.fault hstate).1
      simp [h1]
    · have h1 : st w inp (n+1) = _ := (sp.lvStartup hstate).1
      obtain ⟨p1, p2⟩ := ih1 hstate
      cases hf : (inp n).fault <;> rw [hf] at h1 <;> simp only at h1
      · refine ⟨by simp [h1], fun _ => ⟨by omega, fun j hj1 hj2 => ?_⟩, by simp [h1], by simp [h1], by simp [h1], by simp [h1], by simp [h1]⟩
        exact forall_extend (a := 0) p2 h1 j hj1 hj2
      · refine ⟨by simp [h1], by simp [h1], fun _ => ⟨n, ⟨p1, p2⟩, by omega, ?_, ?_⟩, by simp [h1], by simp [h1], by simp [h1], by simp [h1]⟩
        · intro j hj1 hj2; have : j = n+1 := by omega
          rw [this, h1]
        · intro j hj1 hj2; have : j = n := by omega
          rw [this, hf]
      · refine ⟨by simp [h1], fun _ => ⟨by omega, fun j hj1 hj2 => ?_⟩, by simp [h1], by simp [h1], by simp [h1], by simp [h1], by simp [h1]⟩
        exact forall_extend (a := 0) p2 h1 j hj1 hj2
      · simp [h1]
    · obtain ⟨a, q1, q2, q3, q4⟩ := ih2 hstate
      by_cases hf : (inp n).fault = .noFault
      · have h2 := (sp.lvReady hstate hf).2
        split at h2
        · rename_i hc
          obtain ⟨h3, -, h4⟩ := h2
          have h3 : st w inp (n+1) = .hvActive := h3
          refine ⟨by simp [h3], by simp [h3], by simp [h3], fun _ => ⟨a, n, ⟨⟨q1, q2, q3, q4⟩, ?_, by omega, ?_, forall_extend' q4 hf⟩, ?_⟩, by simp [h3], by simp [h3], by simp [h3]⟩
          · exact ⟨hf, hc.1, hc.2.1, by rw [← hpn]; exact hc.2.2⟩
          · intro j hj1 hj2; have : j = n+1 := by omega
            rw [this, h3]
          · rw [h4]; simp
        · have h3 : st w inp (n+1) = .lvReady := h2.1
          exact ⟨by simp [h3], by simp [h3], fun _ => ⟨a, q1, by omega, forall_extend q3 h3, forall_extend' q4 hf⟩, by simp [h3], by simp [h3], by simp [h3], by simp [h3]⟩
      · have h3 : st w inp (n+1) = .fault := (sp.faulted (by unfold st at hstate; simp [hstate]) hf).1
        simp [h3]
    · obtain ⟨a, b, ⟨q0, q1, q2, q3, q4⟩, qt⟩ := ih3 hstate
      by_cases hf : (inp n).fault = .noFault
      · have h2 := (sp.hvActive hstate hf).2
        split at h2
        · rename_i hc
          have h3 : st w inp (n+1) = .hvCharging := h2.1
          refine ⟨by simp [h3], by simp [h3], by simp [h3], by simp [h3], fun _ => ⟨a, b, n, ⟨q0, q1, q2, q3, q4⟩, ?_, by omega, ?_, forall_extend' q4 hf⟩, by simp [h3], by simp [h3]⟩
          · rw [hcfg.1, hcfg.2.1] at hc
            exact Nat.le_trans (UInt32.le_iff_toNat_le.mp hc) (mul_toNat_le _ _ _ qt)
          · intro j hj1 hj2; have : j = n+1 := by omega
            rw [this, h3]
        · have h3 : st w inp (n+1) = .hvActive := h2.1
          refine ⟨by simp [h3], by simp [h3], by simp [h3], fun _ => ⟨a, b, ⟨q0, q1, by omega, forall_extend q3 h3, forall_extend' q4 hf⟩, ?_⟩, by simp [h3], by simp [h3], by simp [h3]⟩
          rw [h2.2.2, qt]
          have : n + 1 - b - 1 = (n - b - 1) + 1 := by omega
          rw [this]; simp
      · have h3 : st w inp (n+1) = .fault := (sp.faulted (by unfold st at hstate; simp [hstate]) hf).1
        simp [h3]
    · obtain ⟨a, b, c, q0, q1, q2, q3, q4⟩ := ih4 hstate
      by_cases hf : (inp n).fault = .noFault
      · have h2 := (sp.hvCharging hstate hf).2.2
        split at h2
        · rename_i hc
          have h3 : st w inp (n+1) = .activeNeutral := h2
          refine ⟨by simp [h3], by simp [h3], by simp [h3], by simp [h3], by simp [h3], fun _ => ⟨a, b, c, n, ⟨q0, q1, q2, q3, q4⟩, hc, by omega, h3, ?_, forall_extend' q4 hf⟩, by simp [h3]⟩
          intro j hj1 hj2; have : j = n+1 := by omega
          left; rw [this, h3]
        · split at h2
          · have h3 : st w inp (n+1) = .fault := h2.1
            simp [h3]
          · have h3 : st w inp (n+1) = .hvCharging := h2.1
            exact ⟨by simp [h3], by simp [h3], by simp [h3], by simp [h3], fun _ => ⟨a, b, c, q0, q1, by omega, forall_extend q3 h3, forall_extend' q4 hf⟩, by simp [h3], by simp [h3]⟩
      · have h3 : st w inp (n+1) = .fault := (sp.faulted (by unfold st at hstate; simp [hstate]) hf).1
        simp [h3]
    · obtain ⟨a, b, c, d, q0, q1, q2, q3, q4, q5⟩ := ih5 hstate
      by_cases hf : (inp n).fault = .noFault
      · have h2 := (sp.neutral hstate hf).2
        split at h2
        · rename_i hc
          have h3 : st w inp (n+1) = .activeForward := h2.1
          refine ⟨by simp [h3], by simp [h3], by simp [h3], by simp [h3], by simp [h3], by simp [h3], fun _ => ⟨a, b, c, d, n, ⟨q0, q1, by omega, q3, forall_extend q4 (Or.inr h3), forall_extend' q5 hf⟩, q2, by omega, hstate, ⟨hf, hc.1, hc.2.1, by rw [← hpn]; exact hc.2.2⟩, ?_⟩⟩
          intro j hj1 hj2; have : j = n+1 := by omega
          rw [this, h3]
        · have h3 : st w inp (n+1) = .activeNeutral := h2.1
          exact ⟨by simp [h3], by simp [h3], by simp [h3], by simp [h3], by simp [h3], fun _ => ⟨a, b, c, d, q0, q1, by omega, q3, forall_extend q4 (Or.inl h3), forall_extend' q5 hf⟩, by simp [h3]⟩
      · have h3 : st w inp (n+1) = .fault := (sp.faulted (by unfold st at hstate; simp [hstate]) hf).1
        simp [h3]
    · obtain ⟨a, b, c, d, e, ⟨q0, q1, q2, q3, q4, q5⟩, r1, r2, r3, r4, r5⟩ := ih6 hstate
      by_cases hf : (inp n).fault = .noFault
      · have h2 := (sp.forward hstate hf).2
        split at h2
        · have h3 : st w inp (n+1) = .activeNeutral := h2.1
          exact ⟨by simp [h3], by simp [h3], by simp [h3], by simp [h3], by simp [h3], fun _ => ⟨a, b, c, d, q0, q1, by omega, q3, forall_extend q4 (Or.inl h3), forall_extend' q5 hf⟩, by simp [h3]⟩
        · have h3 : st w inp (n+1) = .activeForward := h2.1
          exact ⟨by simp [h3], by simp [h3], by simp [h3], by simp [h3], by simp [h3], by simp [h3], fun _ => ⟨a, b, c, d, e, ⟨q0, q1, by omega, q3, forall_extend q4 (Or.inr h3), forall_extend' q5 hf⟩, r1, by omega, r3, r4, forall_extend r5 h3⟩⟩
      · have h3 : st w inp (n+1) = .fault := (sp.faulted (by unfold st at hstate; simp [hstate]) hf).1
        simp [h3]
    · exact absurd hstate (hen n k)

end
end Verif.Vsm
