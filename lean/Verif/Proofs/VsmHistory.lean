import Verif.Proofs.Vsm
import Mathlib.Tactic.Set

set_option autoImplicit false

namespace Verif.Vsm

variable {w : World} {inp : Nat → In}

theorem spec_at (hs : Stable w) (inp) (n) : StepSpec (traj w inp n) (inp n) (traj w inp (n+1)) :=
  stepSpec _ _ (stable_traj hs inp n)

/-- States reached from power-up and the outputs that go with them. -/
structure Reach (x : World) (prevForward prevHv : Prop) : Prop where
  enum : ∀ k, x.vsm.vsmState ≠ .other k
  torque : x.out.torqueEnabled = true ↔
    x.vsm.vsmState = .activeForward ∨ (x.vsm.vsmState = .fault ∧ prevForward)
  dir : x.out.direction = .forward
  ecu : x.vsm.vsmState ∈ [.lvStartup, .lvReady] → x.out.ecuError = true
  ecuOff : x.vsm.vsmState ∈ [.hvActive, .hvCharging, .activeNeutral, .activeForward] →
    x.out.ecuError = false
  ecuFault : x.vsm.vsmState = .fault → (x.out.ecuError = true ↔ ¬ prevHv)
  enables : x.out.inverterEnables =
    if x.vsm.vsmState ∈ [.hvCharging, .activeNeutral, .activeForward] then 1
    else x.out.inverterEnables
  enables0 : x.vsm.vsmState ∈ [.init, .lvStartup, .lvReady, .hvActive] → x.out.inverterEnables = 0
  enablesLe : x.out.inverterEnables ≤ 1

def prevFwd (w : World) (inp : Nat → In) (n : Nat) : Prop :=
  ∃ m, n = m + 1 ∧ st w inp m = .activeForward

def prevHv (w : World) (inp : Nat → In) (n : Nat) : Prop :=
  ∃ m, n = m + 1 ∧ st w inp m ∈ [.hvActive, .hvCharging, .activeNeutral, .activeForward]

theorem reach (t a b e) (inp : Nat → In) (n : Nat) :
    Reach (traj (World.start t a b e) inp n) (prevFwd (World.start t a b e) inp n)
      (prevHv (World.start t a b e) inp n) := by
  set w := World.start t a b e with hw
  have hs : Stable w := stable_start t a b e
  induction n with
  | zero =>
    constructor <;> simp [traj, hw, World.start, vsmInit]
  | succ n ih =>
    have sp := spec_at hs inp n
    have hpf : prevFwd w inp (n+1) ↔ st w inp n = .activeForward := by
      unfold prevFwd; constructor
      · rintro ⟨m, hm, h⟩; have : m = n := by omega
        subst this; exact h
      · intro h; exact ⟨n, rfl, h⟩
    have hph : prevHv w inp (n+1) ↔
        st w inp n ∈ [.hvActive, .hvCharging, .activeNeutral, .activeForward] := by
      unfold prevHv; constructor
      · rintro ⟨m, hm, h⟩; have : m = n := by omega
        subst this; exact h
      · intro h; exact ⟨n, rfl, h⟩
    unfold st at hpf hph
    generalize hx : traj w inp n = x at *
    generalize hy : traj w inp (n+1) = y at *
    rcases hstate : x.vsm.vsmState with _ | _ | _ | _ | _ | _ | _ | _ | k
    · obtain ⟨h1, h2, -, -⟩ := sp.init hstate
      constructor <;> simp_all [ih.torque, ih.dir, ih.enables0]
    · obtain ⟨h1, h2, -⟩ := sp.fault hstate
      have := ih.enablesLe
      constructor <;> simp_all
    · obtain ⟨h1, h2, -, -⟩ := sp.lvStartup hstate
      have i1 := ih.torque; have i2 := ih.dir; have i3 := ih.ecu; have i4 := ih.enables0
      constructor <;> cases hf : (inp n).fault <;> simp_all
    · have i1 := ih.torque; have i2 := ih.dir; have i3 := ih.ecu; have i4 := ih.enables0
      by_cases hf : (inp n).fault = .noFault
      · obtain ⟨-, h2⟩ := sp.lvReady hstate hf
        split at h2 <;> obtain ⟨h3, h4⟩ := h2 <;> constructor <;> simp_all
      · obtain ⟨h3, h4, -, -⟩ := sp.faulted (by simp [hstate]) hf
        constructor <;> simp_all
    · have i1 := ih.torque; have i2 := ih.dir; have i3 := ih.ecuOff; have i4 := ih.enables0
      by_cases hf : (inp n).fault = .noFault
      · obtain ⟨-, h2⟩ := sp.hvActive hstate hf
        split at h2
        · obtain ⟨h3, h4, h5⟩ := h2; constructor <;> simp_all
        · obtain ⟨h3, h4, h5⟩ := h2; constructor <;> simp_all
      · obtain ⟨h3, h4, -, -⟩ := sp.faulted (by simp [hstate]) hf
        constructor <;> simp_all
    · have i1 := ih.torque; have i2 := ih.dir; have i3 := ih.ecuOff; have i4 := ih.enables
      by_cases hf : (inp n).fault = .noFault
      · obtain ⟨-, h5, h2⟩ := sp.hvCharging hstate hf
        split at h2
        · constructor <;> simp_all
        · split at h2
          · obtain ⟨h3, h4⟩ := h2; constructor <;> simp_all
          · obtain ⟨h3, h4⟩ := h2; constructor <;> simp_all
      · obtain ⟨h3, h4, -, -⟩ := sp.faulted (by simp [hstate]) hf
        constructor <;> simp_all
    · have i1 := ih.torque; have i2 := ih.dir; have i3 := ih.ecuOff; have i4 := ih.enables
      by_cases hf : (inp n).fault = .noFault
      · obtain ⟨-, h2⟩ := sp.neutral hstate hf
        split at h2 <;> obtain ⟨h3, h4⟩ := h2 <;> constructor <;> simp_all
      · obtain ⟨h3, h4, -, -⟩ := sp.faulted (by simp [hstate]) hf
        constructor <;> simp_all
    · have i1 := ih.torque; have i2 := ih.dir; have i3 := ih.ecuOff; have i4 := ih.enables
      by_cases hf : (inp n).fault = .noFault
      · obtain ⟨-, h2⟩ := sp.forward hstate hf
        split at h2 <;> obtain ⟨h3, h4⟩ := h2 <;> constructor <;> simp_all
      · obtain ⟨h3, h4, -, -⟩ := sp.faulted (by simp [hstate]) hf
        constructor <;> simp_all
    · exact absurd hstate (ih.enum k)

end Verif.Vsm
