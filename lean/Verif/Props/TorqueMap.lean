import Verif.Proofs.TorqueMap

set_option autoImplicit false

/-!
# C13: the accelerator-to-torque map

`TorqueMap_Interpolate` on the two shipped maps, for every binary32
accelerator value.

The statement holds in full for the forward map.  For the reverse map it is
false in the flat top segment (0.7 to 1.0, 75 Nm at both ends): rounding of
`(1-t)*75 + t*75` makes the result leave 75 by one unit in the last place in
both directions (`C13_reverse_not_monotone`, `C13_reverse_exceeds_maximum`).
-/

namespace Verif.Throttle
open F32

/-- The table a reader of the data sheet expects: break point, forward torque,
reverse torque. -/
def table : List (ℚ × ℚ × ℚ) :=
  [(0, 0, 0), (1/10, 0, 0), (1/2, 100, 20), (7/10, 200, 75), (1, 500, 75)]

/-- Outside `[0, 1]`, and for NaN and the infinities, the torque is zero. -/
theorem C13_zero_outside (a : F32) (h : ¬ ((fin 0).le a = true ∧ a.le (fin 1) = true)) :
    interpolate mapForward a = fin 0 ∧ interpolate mapReverse a = fin 0 := by
  rw [mapForward_mk, mapReverse_mk]
  exact ⟨interp_outside _ _ _ _ _ h, interp_outside _ _ _ _ _ h⟩

example : interpolate mapForward .nan = fin 0 ∧ interpolate mapForward (fin (-1/4)) = fin 0 ∧
    interpolate mapForward .pinf = fin 0 :=
  ⟨(C13_zero_outside _ (by decide)).1, (C13_zero_outside _ (by decide +kernel)).1,
    (C13_zero_outside _ (by decide)).1⟩

/-- In the dead zone from 0 to 10 % the torque is exactly zero. -/
theorem C13_dead_zone (a : F32) (h0 : (fin 0).le a = true) (h1 : a.le (F32.round (1/10)) = true) :
    interpolate mapForward a = fin 0 ∧ interpolate mapReverse a = fin 0 := by
  have e : F32.round (1/10) = fin b01 := by decide +kernel
  rw [e] at h1
  cases a with
  | fin q =>
    rw [le_fin, decide_eq_true_eq] at h0 h1
    have hb : b01 ≤ 1 := by norm_num [b01]
    rw [forward_mapV h0 (h1.trans hb), reverse_mapV h0 (h1.trans hb)]
    rcases lt_or_eq_of_le h1 with h1 | rfl
    · simp [mapV, h1]
    · constructor <;> decide +kernel
  | nan => simp [F32.le] at h0
  | pinf => simp [F32.le] at h1
  | ninf => simp [F32.le] at h0

example : interpolate mapForward (fin (1/16)) = fin 0 :=
  (C13_dead_zone _ (by decide +kernel) (by decide +kernel)).1

/-- At every break point the result is the table value. -/
theorem C13_break_points : ∀ r ∈ table,
    interpolate mapForward (F32.round r.1) = fin r.2.1 ∧
    interpolate mapReverse (F32.round r.1) = fin r.2.2 := by
  decide +kernel

/-- Forward map: every accelerator value in `[0, 1]` gives a torque in `[0, 500]`. -/
theorem C13_forward_range (q : ℚ) (hf : IsFloat (fin q)) (h0 : 0 ≤ q) (h1 : q ≤ 1) :
    ∃ v, interpolate mapForward (fin q) = fin v ∧ 0 ≤ v ∧ v ≤ 500 :=
  ⟨_, forward_mapV h0 h1, forward_mapV_range hf.1 h1⟩

example : ∃ v, interpolate mapForward (fin (3/4)) = fin v ∧ 0 ≤ v ∧ v ≤ 500 :=
  C13_forward_range _ ⟨by decide +kernel, by norm_num⟩ (by norm_num) (by norm_num)

/-- Forward map: pressing the pedal further never lowers the torque. -/
theorem C13_forward_monotone (a b : ℚ) (ha : IsFloat (fin a)) (hb : IsFloat (fin b))
    (h0 : 0 ≤ a) (h : a ≤ b) (h1 : b ≤ 1) :
    (interpolate mapForward (fin a)).le (interpolate mapForward (fin b)) = true := by
  rw [forward_mapV h0 (h.trans h1), forward_mapV (h0.trans h) h1, le_fin, decide_eq_true_eq]
  exact forward_mapV_mono ha.1 hb.1 h h1

example : (interpolate mapForward (fin (9/16))).le (interpolate mapForward (fin (15/16))) = true :=
  C13_forward_monotone _ _ ⟨by decide +kernel, by norm_num⟩ ⟨by decide +kernel, by norm_num⟩
    (by norm_num) (by norm_num) (by norm_num)

/-- The example is not degenerate: the two torques differ. -/
example : (interpolate mapForward (fin (9/16))).lt (interpolate mapForward (fin (15/16))) = true := by
  decide +kernel

/-- Reverse map: monotone up to (and including) 70 % pedal. Missing from the
full claim: monotonicity in the flat segment above 70 %, which is false. -/
theorem C13_reverse_monotone_partial (a b : ℚ) (ha : IsFloat (fin a)) (hb : IsFloat (fin b))
    (h0 : 0 ≤ a) (h : a ≤ b) (h1 : (fin b).le (F32.round (7/10)) = true) :
    (interpolate mapReverse (fin a)).le (interpolate mapReverse (fin b)) = true := by
  have e : F32.round (7/10) = fin b07 := by decide +kernel
  rw [e, le_fin, decide_eq_true_eq] at h1
  have hb7 : b07 ≤ 1 := by norm_num [b07]
  rw [reverse_mapV h0 (h.trans (h1.trans hb7)), reverse_mapV (h0.trans h) (h1.trans hb7), le_fin,
    decide_eq_true_eq]
  exact reverse_mapV_mono ha.1 hb.1 h h1

/-- Reverse map: the torque is never negative and never more than one unit in
the last place (2^-17 Nm) above 75 Nm.  Missing from the full claim: the bound
75 itself, which is false. -/
theorem C13_reverse_range_partial (q : ℚ) (hf : IsFloat (fin q)) (h0 : 0 ≤ q) (h1 : q ≤ 1) :
    ∃ v, interpolate mapReverse (fin q) = fin v ∧ 0 ≤ v ∧ v ≤ 75 + 1/2^17 :=
  ⟨_, reverse_mapV h0 h1, reverse_mapV_range hf.1 h1⟩

example : ∃ v, interpolate mapReverse (fin (3/4)) = fin v ∧ 0 ≤ v ∧ v ≤ 75 + 1/2^17 :=
  C13_reverse_range_partial _ ⟨by decide +kernel, by norm_num⟩ (by norm_num) (by norm_num)

/-- The full monotonicity claim fails for the reverse map: two neighbouring
pedal values just above 70 % for which the torque drops. -/
theorem C13_reverse_not_monotone :
    ¬ ∀ a b : ℚ, IsFloat (fin a) → IsFloat (fin b) → 0 ≤ a → a ≤ b → b ≤ 1 →
      (interpolate mapReverse (fin a)).le (interpolate mapReverse (fin b)) = true := by
  intro h
  have := h (11744061/2^24) (11744062/2^24) ⟨by decide +kernel, by norm_num⟩
    ⟨by decide +kernel, by norm_num⟩ (by norm_num) (by norm_num) (by norm_num)
  revert this; decide +kernel

/-- The full range claim fails for the reverse map: a pedal value for which the
torque is above the map maximum of 75 Nm. -/
theorem C13_reverse_exceeds_maximum :
    IsFloat (fin (11744061/2^24)) ∧
    interpolate mapReverse (fin (11744061/2^24)) = fin (75 + 1/2^17) :=
  ⟨⟨by decide +kernel, by norm_num⟩, by decide +kernel⟩

end Verif.Throttle
