import Verif.Model.TorqueFused
import Verif.Spec.Table
import Verif.Proofs.TorqueMap
import Verif.Props.DiscreteSense
import Mathlib.Tactic.FinCases
import Mathlib.Data.Fin.VecNotation

set_option autoImplicit false

/-!
# C158: the torque is the straight line between the points, for every table and compiler setting
-/

namespace Verif.Throttle
open F32 TableSpec

/-- The shipped compilation is the model of C13. -/
theorem interpolateAs_none (m : TorqueMap) (a : F32) : interpolateAs .none m a = interpolate m a := rfl

/-- A table of `float`s. -/
def ofPoints (x y : Fin 5 → ℚ) : TorqueMap :=
  ⟨#v[fin (x 0), fin (x 1), fin (x 2), fin (x 3), fin (x 4)],
   #v[fin (y 0), fin (y 1), fin (y 2), fin (y 3), fin (y 4)]⟩

/-- Rounding has a relative error of `2^-24`, and underflow one of `2^-150`. -/
theorem rnd_rel (x : ℚ) : |rnd x - x| ≤ |x| / 2^24 + 1 / 2^150 := by
  by_cases hx : x = 0
  · subst hx; rw [rnd_zero]; norm_num
  have h := rnd_error x
  have h126 : -126 ≤ fexp x := le_max_right _ _
  rcases lt_or_eq_of_le h126 with h1 | h1
  · have h2 := two_fexp_le hx h1
    have e : (2:ℚ)^(fexp x - 24) = (2:ℚ)^(fexp x) / 2^24 := by
      rw [zpow_sub₀ (by norm_num)]; norm_num
    rw [e] at h
    have : (2:ℚ)^(fexp x) / 2^24 ≤ |x| / 2^24 := by
      apply div_le_div_of_nonneg_right h2 (by norm_num)
    have : (0:ℚ) ≤ 1 / 2^150 := by positivity
    linarith
  · rw [← h1] at h
    have e : (2:ℚ)^((-126:ℤ) - 24) = 1 / 2^150 := by norm_num [zpow_neg]
    rw [e] at h
    have : 0 ≤ |x| / 2^24 := by positivity
    linarith

/-- The difference of two `float`s is rounded with a relative error only. -/
theorem rnd_sub_rel {a b : ℚ} (ha : rnd a = a) (hb : rnd b = b) : |rnd (a - b) - (a - b)| ≤ |a - b| / 2^24 := by
  by_cases hx : a - b = 0
  · rw [hx, rnd_zero]; norm_num
  have h := rnd_error (a - b)
  have h126 : -126 ≤ fexp (a - b) := le_max_right _ _
  rcases lt_or_eq_of_le h126 with h1 | h1
  · have h2 := two_fexp_le hx h1
    have e : (2:ℚ)^(fexp (a - b) - 24) = (2:ℚ)^(fexp (a - b)) / 2^24 := by
      rw [zpow_sub₀ (by norm_num)]; norm_num
    rw [e] at h
    exact h.trans (div_le_div_of_nonneg_right h2 (by norm_num))
  · obtain ⟨m, k, e1, -, hk⟩ := rnd_form a
    obtain ⟨n, l, e2, -, hl⟩ := rnd_form b
    rw [ha] at e1
    rw [hb] at e2
    have p : (0:ℚ) < (2:ℚ)^(-149:ℤ) := two_zpow_pos _
    have s : ∀ k : ℤ, -149 ≤ k → (2:ℚ)^k = ((2^(k + 149).toNat : ℤ) : ℚ) * (2:ℚ)^(-149:ℤ) := by
      intro k hk
      push_cast
      rw [← zpow_natCast, Int.toNat_of_nonneg (by omega), ← zpow_add₀ (by norm_num)]
      congr 1; omega
    have e : a - b = ((m * 2^(k + 149).toNat - n * 2^(l + 149).toNat : ℤ) : ℚ) * (2:ℚ)^(-149:ℤ) := by
      rw [e1, e2, s k hk, s l hl]; push_cast; ring
    have hb := abs_lt_two_fexp (x := a - b)
    rw [← h1] at hb
    have hsm : |m * 2^(k + 149).toNat - n * 2^(l + 149).toNat| ≤ (2:ℤ)^24 := by
      rw [e, abs_mul, abs_of_pos p] at hb
      have e3 : (2:ℚ)^((-126:ℤ) + 1) = 2^24 * (2:ℚ)^(-149:ℤ) := by norm_num [zpow_neg]
      rw [e3] at hb
      have := lt_of_mul_lt_mul_right hb p.le
      exact_mod_cast this.le
    have r := rnd_exact _ (-149) hsm le_rfl
    rw [← e] at r
    rw [r, sub_self, abs_zero]
    positivity

/-- The fraction of the way, as computed. -/
theorem fraction {x0 x1 q : ℚ} (f0 : rnd x0 = x0) (f1 : rnd x1 = x1) (fq : rnd q = q)
    (b0 : |x0| ≤ 2^20) (b1 : |x1| ≤ 2^20) (h : x0 < x1) (h0 : x0 ≤ q) (h1 : q ≤ x1) :
    ∃ t, ((F32.fin q).sub (fin x0)).div ((fin x1).sub (fin x0)) = fin t ∧ 0 ≤ t ∧ t ≤ 1 ∧
      |t - (q - x0) / (x1 - x0)| ≤ 5 / 2^24 ∧ (q = x0 → t = 0) ∧ (q = x1 → t = 1) := by
  have a0 := abs_le.1 b0
  have a1 := abs_le.1 b1
  have d : 0 < x1 - x0 := by linarith
  have r1 := rnd_sub_rel f1 f0
  have r0 := rnd_sub_rel fq f0
  rw [abs_of_pos d] at r1
  rw [abs_of_nonneg (by linarith : 0 ≤ q - x0)] at r0
  have s1 := abs_le.1 r1
  have s0 := abs_le.1 r0
  have p1 : 0 < rnd (x1 - x0) := by
    have : (x1 - x0) / 2^24 < x1 - x0 := by rw [div_lt_iff₀ (by norm_num)]; linarith
    linarith
  have p0 : 0 ≤ rnd (q - x0) := rnd_nonneg (by linarith)
  have le : rnd (q - x0) ≤ rnd (x1 - x0) := rnd_mono (by linarith)
  have w0 := div_nonneg p0 p1.le
  have w1 := div_le_one_of_le₀ le p1.le
  refine ⟨rnd (rnd (q - x0) / rnd (x1 - x0)), ?_, rnd_nonneg w0, ?_, ?_, ?_, ?_⟩
  · rw [sub_fin, sub_fin, round_eq (by rw [abs_le]; constructor <;> norm_num at * <;> linarith),
      round_eq (by rw [abs_le]; constructor <;> norm_num at * <;> linarith), div_fin _ _ p1.ne', round_eq]
    rw [abs_le]; constructor <;> norm_num <;> linarith
  · have := rnd_le_int (x := rnd (q - x0) / rnd (x1 - x0)) (n := 1) (by norm_num) (by push_cast; exact w1)
    simpa using this
  · have e := rnd_err_le (x := rnd (q - x0) / rnd (x1 - x0)) (k := 0) (by rw [abs_of_nonneg w0]; simpa using w1)
      (by norm_num)
    have e' : |rnd (rnd (q - x0) / rnd (x1 - x0)) - rnd (q - x0) / rnd (x1 - x0)| ≤ 1 / 2^25 := by
      refine e.trans (le_of_eq ?_); norm_num [zpow_neg]
    have f : |rnd (q - x0) / rnd (x1 - x0) - (q - x0) / (x1 - x0)| ≤ 4 / 2^24 := by
      rw [div_sub_div _ _ p1.ne' d.ne', abs_div, abs_of_pos (mul_pos p1 d), div_le_iff₀ (mul_pos p1 d)]
      have g : rnd (q - x0) * (x1 - x0) - rnd (x1 - x0) * (q - x0) =
          (rnd (q - x0) - (q - x0)) * (x1 - x0) - (rnd (x1 - x0) - (x1 - x0)) * (q - x0) := by ring
      rw [g]
      have g1 : |(rnd (q - x0) - (q - x0)) * (x1 - x0)| ≤ (x1 - x0) / 2^24 * (x1 - x0) := by
        rw [abs_mul, abs_of_pos d]
        refine mul_le_mul_of_nonneg_right (r0.trans ?_) d.le
        exact div_le_div_of_nonneg_right (by linarith) (by norm_num)
      have g2 : |(rnd (x1 - x0) - (x1 - x0)) * (q - x0)| ≤ (x1 - x0) / 2^24 * (x1 - x0) := by
        rw [abs_mul, abs_of_nonneg (by linarith : 0 ≤ q - x0)]
        exact mul_le_mul r1 (by linarith) (by linarith) (by positivity)
      have g3 := abs_sub ((rnd (q - x0) - (q - x0)) * (x1 - x0)) ((rnd (x1 - x0) - (x1 - x0)) * (q - x0))
      have g4 : (x1 - x0) / 2 ≤ rnd (x1 - x0) := by
        have : (x1 - x0) / 2^24 ≤ (x1 - x0) / 2 := by
          apply div_le_div_of_nonneg_left d.le <;> norm_num
        linarith
      have g5 : (x1 - x0) / 2 * (x1 - x0) ≤ rnd (x1 - x0) * (x1 - x0) := mul_le_mul_of_nonneg_right g4 d.le
      linarith
    have := abs_add_le (rnd (rnd (q - x0) / rnd (x1 - x0)) - rnd (q - x0) / rnd (x1 - x0))
      (rnd (q - x0) / rnd (x1 - x0) - (q - x0) / (x1 - x0))
    rw [sub_add_sub_cancel] at this
    norm_num at *; linarith
  · rintro rfl; rw [sub_self, rnd_zero, zero_div, rnd_zero]
  · rintro rfl; rw [div_self p1.ne', rnd_one]

/-- The blend of two torques, as computed. -/
theorem blended (j : Joined) {t T0 T1 M : ℚ} (t0 : 0 ≤ t) (t1 : t ≤ 1) (hM : 1 ≤ M) (hM' : M ≤ 2^20)
    (m0 : |T0| ≤ M) (m1 : |T1| ≤ M) :
    ∃ v, blend j (fin t) (fin T0) (fin T1) = fin v ∧ |v - ((1 - t) * T0 + t * T1)| ≤ 8 * M / 2^24 ∧
      (0 ≤ T0 → 0 ≤ T1 → 0 ≤ v) ∧ rnd v = v := by
  have u0 : 0 ≤ rnd (1 - t) := rnd_nonneg (by linarith)
  have u1 : rnd (1 - t) ≤ 1 := by
    have := rnd_le_int (x := 1 - t) (n := 1) (by norm_num) (by push_cast; linarith)
    simpa using this
  have ue : |rnd (1 - t) - (1 - t)| ≤ 1 / 2^25 := by
    have e := rnd_err_le (x := 1 - t) (k := 0) (by rw [abs_of_nonneg (by linarith)]; simpa using by linarith)
      (by norm_num)
    refine e.trans (le_of_eq ?_); norm_num [zpow_neg]
  have tiny : (1:ℚ) / 2^150 ≤ M / 2^100 := by
    have : (1:ℚ) / 2^150 ≤ 1 / 2^100 := by norm_num
    have : (1:ℚ) / 2^100 ≤ M / 2^100 := div_le_div_of_nonneg_right hM (by norm_num)
    linarith
  have P0 : |rnd (1 - t) * T0| ≤ M := by
    rw [abs_mul, abs_of_nonneg u0]; nlinarith [abs_nonneg T0]
  have P1 : |t * T1| ≤ M := by
    rw [abs_mul, abs_of_nonneg t0]; nlinarith [abs_nonneg T1]
  have R0 := rnd_rel (rnd (1 - t) * T0)
  have R1 := rnd_rel (t * T1)
  have Q0 : |(rnd (1 - t) * T0) - (1 - t) * T0| ≤ M / 2^25 := by
    rw [← sub_mul, abs_mul]
    have := mul_le_mul ue m0 (abs_nonneg _) (by norm_num)
    linarith
  have L0 := abs_le.1 P0
  have L1 := abs_le.1 P1
  have A0 := abs_le.1 R0
  have A1 := abs_le.1 R1
  have B0 := abs_le.1 Q0
  have ft : (F32.fin 1).sub (fin t) = fin (rnd (1 - t)) := by
    rw [sub_fin, round_eq (by rw [abs_le]; constructor <;> norm_num <;> linarith)]
  have f0 : (fin (rnd (1 - t))).mul (fin T0) = fin (rnd (rnd (1 - t) * T0)) := by
    rw [mul_fin, F32.round_eq (by norm_num at *; linarith)]
  have f1 : (fin t).mul (fin T1) = fin (rnd (t * T1)) := by
    rw [mul_fin, F32.round_eq (by norm_num at *; linarith)]
  have fin_of : ∀ s : ℚ, |s - ((1 - t) * T0 + t * T1)| ≤ 5 * M / 2^24 → (0 ≤ T0 → 0 ≤ T1 → 0 ≤ s) → |s| ≤ 5 / 2 * M →
      ∃ v, F32.round s = fin v ∧ |v - ((1 - t) * T0 + t * T1)| ≤ 8 * M / 2^24 ∧ (0 ≤ T0 → 0 ≤ T1 → 0 ≤ v) ∧
        rnd v = v := by
    intro s h1 h2 h3
    refine ⟨rnd s, F32.round_eq (by norm_num at *; linarith), ?_, fun a b => rnd_nonneg (h2 a b), rnd_rnd s⟩
    have r := rnd_rel s
    have := abs_add_le (rnd s - s) (s - ((1 - t) * T0 + t * T1))
    rw [sub_add_sub_cancel] at this
    norm_num at *; linarith
  cases j with
  | none =>
    show ∃ v, (((F32.fin 1).sub (fin t)).mul (fin T0)).add ((fin t).mul (fin T1)) = fin v ∧ _
    rw [ft, f0, f1, add_fin]
    apply fin_of
    · rw [abs_le]; norm_num at *; constructor <;> linarith
    · intro a b
      exact add_nonneg (rnd_nonneg (mul_nonneg u0 a)) (rnd_nonneg (mul_nonneg t0 b))
    · rw [abs_le]; norm_num at *; constructor <;> linarith
  | first =>
    show ∃ v, fma ((F32.fin 1).sub (fin t)) (fin T0) ((fin t).mul (fin T1)) = fin v ∧ _
    rw [ft, f1]
    show ∃ v, F32.round _ = fin v ∧ _
    apply fin_of
    · rw [abs_le]; norm_num at *; constructor <;> linarith
    · intro a b
      exact add_nonneg (mul_nonneg u0 a) (rnd_nonneg (mul_nonneg t0 b))
    · rw [abs_le]; norm_num at *; constructor <;> linarith
  | second =>
    show ∃ v, fma (fin t) (fin T1) (((F32.fin 1).sub (fin t)).mul (fin T0)) = fin v ∧ _
    rw [ft, f0]
    show ∃ v, F32.round _ = fin v ∧ _
    apply fin_of
    · rw [abs_le]; norm_num at *; constructor <;> linarith
    · intro a b
      exact add_nonneg (mul_nonneg t0 b) (rnd_nonneg (mul_nonneg u0 a))
    · rw [abs_le]; norm_num at *; constructor <;> linarith

theorem bucket_points (x y : Fin 5 → ℚ) (a : F32) : bucket (ofPoints x y) a =
    if a.ge (fin (x 3)) && a.le (fin (x 4)) then (3, 4) else
    if a.ge (fin (x 2)) && a.le (fin (x 3)) then (2, 3) else
    if a.ge (fin (x 1)) && a.le (fin (x 2)) then (1, 2) else
    if a.ge (fin (x 0)) && a.le (fin (x 1)) then (0, 1) else (0, 0) := by
  unfold bucket
  rw [finRange4]
  rfl

theorem accel_points (x y : Fin 5 → ℚ) (i : Fin 5) : (ofPoints x y).accel[i] = fin (x i) := by
  fin_cases i <;> rfl

theorem torque_points (x y : Fin 5 → ℚ) (i : Fin 5) : (ofPoints x y).torque[i] = fin (y i) := by
  fin_cases i <;> rfl

theorem as_of_bucket {j : Joined} {x y : Fin 5 → ℚ} {a : F32} {lo up : Fin 5}
    (h : bucket (ofPoints x y) a = (lo, up)) (hne : lo ≠ up) :
    interpolateAs j (ofPoints x y) a =
      blend j ((a.sub (fin (x lo))).div ((fin (x up)).sub (fin (x lo)))) (fin (y lo)) (fin (y up)) := by
  unfold interpolateAs
  rw [h]
  simp only
  rw [if_neg hne, accel_points, accel_points, torque_points, torque_points]

/-- The segment found for a value within the table. -/
theorem found {x y : Fin 5 → ℚ} {q : ℚ} (h0 : x 0 ≤ q) (h4 : q ≤ x 4) :
    ∃ lo up : Fin 5, up.val = lo.val + 1 ∧ x lo ≤ q ∧ q ≤ x up ∧ bucket (ofPoints x y) (fin q) = (lo, up) ∧
      (∀ k : Fin 5, up.val ≤ k.val → k.val ≤ 3 → q < x k ∨ x (k + 1) < q) := by
  rw [bucket_points]
  simp only [ge_fin, le_fin, Bool.and_eq_true, decide_eq_true_eq]
  by_cases a3 : x 3 ≤ q
  · refine ⟨3, 4, rfl, a3, h4, by rw [if_pos ⟨a3, h4⟩], ?_⟩
    intro k h5 h6; exfalso; change 4 ≤ k.val at h5; omega
  have b3 := not_le.1 a3
  rw [if_neg (fun h => a3 h.1)]
  by_cases a2 : x 2 ≤ q
  · refine ⟨2, 3, rfl, a2, b3.le, by rw [if_pos ⟨a2, b3.le⟩], ?_⟩
    intro k h5 h6; change 3 ≤ k.val at h5
    have : k = 3 := Fin.ext (show k.val = 3 by omega)
    subst this; exact Or.inl b3
  have b2 := not_le.1 a2
  rw [if_neg (fun h => a2 h.1)]
  by_cases a1 : x 1 ≤ q
  · refine ⟨1, 2, rfl, a1, b2.le, by rw [if_pos ⟨a1, b2.le⟩], ?_⟩
    intro k h5 h6; change 2 ≤ k.val at h5
    have : k = 2 ∨ k = 3 := by
      rcases Nat.lt_or_ge k.val 3 with h | h
      · exact Or.inl (Fin.ext (show k.val = 2 by omega))
      · exact Or.inr (Fin.ext (show k.val = 3 by omega))
    rcases this with rfl | rfl
    · exact Or.inl b2
    · exact Or.inl b3
  have b1 := not_le.1 a1
  rw [if_neg (fun h => a1 h.1)]
  refine ⟨0, 1, rfl, h0, b1.le, by rw [if_pos ⟨h0, b1.le⟩], ?_⟩
  intro k h5 h6; change 1 ≤ k.val at h5
  have : k = 1 ∨ k = 2 ∨ k = 3 := by
    rcases Nat.lt_or_ge k.val 2 with h | h
    · exact Or.inl (Fin.ext (show k.val = 1 by omega))
    rcases Nat.lt_or_ge k.val 3 with h' | h'
    · exact Or.inr (Or.inl (Fin.ext (show k.val = 2 by omega)))
    · exact Or.inr (Or.inr (Fin.ext (show k.val = 3 by omega)))
  rcases this with rfl | rfl | rfl
  · exact Or.inl b1
  · exact Or.inl b2
  · exact Or.inl b3

theorem ne_of_next {lo up : Fin 5} (h : up.val = lo.val + 1) : lo ≠ up := by
  rintro rfl; omega

/-- **C158** (outside). For every table with positions in order and every setting, the torque
is zero for every pedal value that is not within the positions, for the infinities and for
NaN. -/
theorem C158_outside (j : Joined) (x y : Fin 5 → ℚ) (inc : ∀ i k : Fin 5, i ≤ k → x i ≤ x k) (a : F32)
    (h : ∀ q, a = fin q → q < x 0 ∨ x 4 < q) : interpolateAs j (ofPoints x y) a = fin 0 := by
  have b : bucket (ofPoints x y) a = (0, 0) := by
    rw [bucket_points]
    cases a with
    | fin q =>
      simp only [ge_fin, le_fin, Bool.and_eq_true, decide_eq_true_eq]
      have i1 := inc 0 1 (by decide)
      have i2 := inc 1 2 (by decide)
      have i3 := inc 2 3 (by decide)
      have i4 := inc 3 4 (by decide)
      rw [if_neg, if_neg, if_neg, if_neg]
      all_goals (rintro ⟨u, v⟩; rcases h q rfl with hq | hq <;> linarith)
    | nan => simp [F32.ge, F32.le]
    | pinf => simp [F32.ge, F32.le]
    | ninf => simp [F32.ge, F32.le]
  unfold interpolateAs
  rw [b]; rfl

/-- **C158** (between). For every table of `float`s whose positions increase and are at most
`2^20` in size, whose torques are at most `M` in size (`M` from 1 to `2^20`), for every
`float` within the positions, and whether or not the compiler joins a product with the sum:
the torque is a `float` that differs from the straight line between the two neighbouring points
by at most `M / 2^19`; it is not negative if no torque of the table is. -/
theorem C158_line (j : Joined) (x y : Fin 5 → ℚ) (M : ℚ) (inc : ∀ i k : Fin 5, i < k → x i < x k)
    (fx : ∀ i, IsFloat (fin (x i))) (bx : ∀ i, |x i| ≤ 2^20) (hM : 1 ≤ M) (hM' : M ≤ 2^20) (by' : ∀ i, |y i| ≤ M)
    (q : ℚ) (fq : IsFloat (fin q)) (h0 : x 0 ≤ q) (h4 : q ≤ x 4) :
    ∃ v e, interpolateAs j (ofPoints x y) (fin q) = fin v ∧ IsFloat (fin v) ∧ OnCurve x y q e ∧
      |v - e| ≤ M / 2^19 ∧ |v| ≤ M + M / 2^19 ∧ ((∀ i, 0 ≤ y i) → 0 ≤ v) := by
  obtain ⟨lo, up, hn, l0, l1, hb, -⟩ := found (y := y) h0 h4
  have lt : x lo < x up := inc lo up (by rw [Fin.lt_def]; omega)
  obtain ⟨t, ht, t0, t1, te, -, -⟩ := fraction (fx lo).1 (fx up).1 fq.1 (bx lo) (bx up) lt l0 l1
  obtain ⟨v, hv, ve, vn, vf⟩ := blended j t0 t1 hM hM' (by' lo) (by' up)
  have d : 0 < x up - x lo := by linarith
  have w0 : 0 ≤ (q - x lo) / (x up - x lo) := div_nonneg (by linarith) d.le
  have w1 : (q - x lo) / (x up - x lo) ≤ 1 := div_le_one_of_le₀ (by linarith) d.le
  have m0 := abs_le.1 (by' lo)
  have m1 := abs_le.1 (by' up)
  have key : |v - (y lo + (q - x lo) / (x up - x lo) * (y up - y lo))| ≤ M / 2^19 := by
    have e1 : ((1 - t) * y lo + t * y up) - (y lo + (q - x lo) / (x up - x lo) * (y up - y lo)) =
        (t - (q - x lo) / (x up - x lo)) * (y up - y lo) := by ring
    have e2 : |(t - (q - x lo) / (x up - x lo)) * (y up - y lo)| ≤ 5 / 2^24 * (2 * M) := by
      rw [abs_mul]
      exact mul_le_mul te (by rw [abs_le]; constructor <;> linarith) (abs_nonneg _) (by norm_num)
    have := abs_add_le (v - ((1 - t) * y lo + t * y up))
      (((1 - t) * y lo + t * y up) - (y lo + (q - x lo) / (x up - x lo) * (y up - y lo)))
    rw [sub_add_sub_cancel, e1] at this
    norm_num at *; linarith
  have size : |y lo + (q - x lo) / (x up - x lo) * (y up - y lo)| ≤ M := by
    have e : y lo + (q - x lo) / (x up - x lo) * (y up - y lo) =
        (1 - (q - x lo) / (x up - x lo)) * y lo + (q - x lo) / (x up - x lo) * y up := by ring
    rw [e, abs_le]
    constructor <;> nlinarith
  have vs : |v| ≤ M + M / 2^19 := by
    have := abs_add_le (v - (y lo + (q - x lo) / (x up - x lo) * (y up - y lo)))
      (y lo + (q - x lo) / (x up - x lo) * (y up - y lo))
    rw [sub_add_cancel] at this
    linarith
  refine ⟨v, _, by rw [as_of_bucket hb (ne_of_next hn), ht, hv], ⟨vf, ?_⟩, ⟨lo, up, hn, l0, l1, ?_⟩, key, vs,
    fun h => vn (h lo) (h up)⟩
  · norm_num at *; linarith
  · show (y lo + (q - x lo) / (x up - x lo) * (y up - y lo) - y lo) * (x up - x lo) = _
    have := div_mul_cancel₀ (q - x lo) d.ne'
    calc _ = ((q - x lo) / (x up - x lo) * (x up - x lo)) * (y up - y lo) := by ring
      _ = _ := by rw [this]; ring

theorem blend_zero (j : Joined) {T0 T1 : ℚ} (f0 : rnd T0 = T0) (m0 : |T0| ≤ 2^20) :
    blend j (fin 0) (fin T0) (fin T1) = fin T0 := by
  have a : (F32.fin 1).sub (fin 0) = fin 1 := by
    rw [sub_fin, F32.round_eq (by norm_num), sub_zero, rnd_one]
  have c : (fin 0).mul (fin T1) = fin 0 := by
    rw [mul_fin, zero_mul, F32.round_eq (by norm_num), rnd_zero]
  have r : F32.round T0 = fin T0 := by rw [F32.round_eq (m0.trans (by norm_num)), f0]
  have b : (fin 1).mul (fin T0) = fin T0 := by rw [mul_fin, one_mul, r]
  cases j with
  | none =>
    show (((F32.fin 1).sub (fin 0)).mul (fin T0)).add ((fin 0).mul (fin T1)) = fin T0
    rw [a, b, c, add_fin, add_zero, r]
  | first =>
    show fma ((F32.fin 1).sub (fin 0)) (fin T0) ((fin 0).mul (fin T1)) = fin T0
    rw [a, c]
    show F32.round (1 * T0 + 0) = _
    rw [one_mul, add_zero, r]
  | second =>
    show fma (fin 0) (fin T1) (((F32.fin 1).sub (fin 0)).mul (fin T0)) = fin T0
    rw [a, b]
    show F32.round (0 * T1 + T0) = _
    rw [zero_mul, zero_add, r]

theorem blend_one (j : Joined) {T0 T1 : ℚ} (f1 : rnd T1 = T1) (m1 : |T1| ≤ 2^20) :
    blend j (fin 1) (fin T0) (fin T1) = fin T1 := by
  have a : (F32.fin 1).sub (fin 1) = fin 0 := by
    rw [sub_fin, F32.round_eq (by norm_num), sub_self, rnd_zero]
  have c : (fin 0).mul (fin T0) = fin 0 := by
    rw [mul_fin, zero_mul, F32.round_eq (by norm_num), rnd_zero]
  have r : F32.round T1 = fin T1 := by rw [F32.round_eq (m1.trans (by norm_num)), f1]
  have b : (fin 1).mul (fin T1) = fin T1 := by rw [mul_fin, one_mul, r]
  cases j with
  | none =>
    show (((F32.fin 1).sub (fin 1)).mul (fin T0)).add ((fin 1).mul (fin T1)) = fin T1
    rw [a, b, c, add_fin, zero_add, r]
  | first =>
    show fma ((F32.fin 1).sub (fin 1)) (fin T0) ((fin 1).mul (fin T1)) = fin T1
    rw [a, b]
    show F32.round (0 * T0 + T1) = _
    rw [zero_mul, zero_add, r]
  | second =>
    show fma (fin 1) (fin T1) (((F32.fin 1).sub (fin 1)).mul (fin T0)) = fin T1
    rw [a, c]
    show F32.round (1 * T1 + 0) = _
    rw [one_mul, add_zero, r]

/-- **C158** (points). At every point of every such table the torque is exactly that of the
table. -/
theorem C158_points (j : Joined) (x y : Fin 5 → ℚ) (inc : ∀ i k : Fin 5, i < k → x i < x k)
    (fx : ∀ i, IsFloat (fin (x i))) (bx : ∀ i, |x i| ≤ 2^20) (fy : ∀ i, IsFloat (fin (y i))) (by' : ∀ i, |y i| ≤ 2^20)
    (i : Fin 5) : interpolateAs j (ofPoints x y) (fin (x i)) = fin (y i) := by
  have mono : ∀ i k : Fin 5, i ≤ k → x i ≤ x k := fun i k h => by
    rcases lt_or_eq_of_le h with h | h
    · exact (inc i k h).le
    · rw [h]
  obtain ⟨lo, up, hn, l0, l1, hb, -⟩ := found (y := y) (mono 0 i (Fin.zero_le _)) (mono i 4 (Fin.le_last i))
  have lt : x lo < x up := inc lo up (by rw [Fin.lt_def]; omega)
  obtain ⟨t, ht, -, -, -, tz, tw⟩ := fraction (fx lo).1 (fx up).1 (fx i).1 (bx lo) (bx up) lt l0 l1
  rw [as_of_bucket hb (ne_of_next hn), ht]
  have hi : i = lo ∨ i = up := by
    rcases lt_trichotomy i lo with h | h | h
    · exact absurd (inc i lo h) (not_lt.2 l0)
    · exact Or.inl h
    rcases lt_trichotomy i up with h' | h' | h'
    · rw [Fin.lt_def] at h h'; omega
    · exact Or.inr h'
    · exact absurd (inc up i h') (not_lt.2 l1)
  rcases hi with rfl | rfl
  · rw [tz rfl]; exact blend_zero j (fy i).1 (by' i)
  · rw [tw rfl]; exact blend_one j (fy i).1 (by' i)

/-- **C158** (why increasing). In a table whose last two positions are equal, that pedal
value gives NaN, whatever the torques: the condition cannot be dropped. -/
theorem C158_step_is_nan (j : Joined) (x y : Fin 5 → ℚ) (h : x 3 = x 4) :
    interpolateAs j (ofPoints x y) (fin (x 4)) = .nan := by
  have hb : bucket (ofPoints x y) (fin (x 4)) = (3, 4) := by
    rw [bucket_points, if_pos]
    simp [h]
  rw [as_of_bucket hb (by decide), h]
  have z : ((fin (x 4)).sub (fin (x 4))) = fin 0 := by
    rw [sub_fin, sub_self, F32.round_eq (by norm_num), rnd_zero]
  rw [z]
  have n : (fin 0).div (fin 0) = F32.nan := by decide
  rw [n]
  cases j <;> rfl

/-- The positions of the shipped forward table; it meets the conditions (below), and the ways of
compiling really differ just above 0.6 of the pedal travel. -/
def shippedX : Fin 5 → ℚ := ![0, b01, 1/2, b07, 1]
/-- Its torques. -/
def shippedY : Fin 5 → ℚ := ![0, 0, 100, 200, 500]

example : ofPoints shippedX shippedY = mapForward := by rw [mapForward_eq]; rfl
example : (∀ i k : Fin 5, i < k → shippedX i < shippedX k) ∧ (∀ i, IsFloat (fin (shippedX i))) ∧
    (∀ i, |shippedX i| ≤ 2^20) ∧ (∀ i, IsFloat (fin (shippedY i))) ∧ (∀ i, |shippedY i| ≤ 500) := by
  refine ⟨by decide +kernel, ?_, by decide +kernel, ?_, by decide +kernel⟩
  · intro i; fin_cases i <;> exact ⟨by decide +kernel, by decide +kernel⟩
  · intro i; fin_cases i <;> exact ⟨by decide +kernel, by decide +kernel⟩

example : IsFloat (fin (10066345 / 2^24)) ∧
    interpolateAs .none (ofPoints shippedX shippedY) (fin (10066345 / 2^24)) = fin (4915215 / 32768) ∧
    interpolateAs .first (ofPoints shippedX shippedY) (fin (10066345 / 2^24)) = fin (9830431 / 65536) ∧
    interpolateAs .second (ofPoints shippedX shippedY) (fin (10066343 / 2^24)) = fin (9830427 / 65536) ∧
    interpolateAs .none (ofPoints shippedX shippedY) (fin (10066343 / 2^24)) = fin (4915213 / 32768) := by
  refine ⟨⟨by decide +kernel, by decide +kernel⟩, ?_, ?_, ?_, ?_⟩ <;> decide +kernel
-- a table in ADC counts with negative torque (braking) also meets them
example : ∃ v e, interpolateAs .second (ofPoints ![0, 100, 1000, 3000, 4095] ![-40, 0, 20, 60, 60]) (fin 2048) = fin v ∧
    IsFloat (fin v) ∧ OnCurve ![0, 100, 1000, 3000, 4095] ![-40, 0, 20, 60, 60] 2048 e ∧
    |v - e| ≤ 60 / 2^19 ∧ |v| ≤ 60 + 60 / 2^19 ∧
    ((∀ i, 0 ≤ (![-40, 0, 20, 60, 60] : Fin 5 → ℚ) i) → 0 ≤ v) := by
  refine C158_line .second _ _ 60 (by decide +kernel) ?_ (by decide +kernel) (by norm_num) (by norm_num)
    (by decide +kernel) 2048 ⟨by decide +kernel, by decide +kernel⟩ (by decide +kernel) (by decide +kernel)
  intro i; fin_cases i <;> exact ⟨by decide +kernel, by decide +kernel⟩

end Verif.Throttle
