import Verif.Model.TorqueMap

set_option autoImplicit false

namespace Verif.Throttle
open F32

/-- Binary32 values of the break points. -/
def b01 : ℚ := 13421773 / 2^27
def b07 : ℚ := 11744051 / 2^24

theorem mapForward_eq : mapForward =
    ⟨#v[fin 0, fin b01, fin (1/2), fin b07, fin 1],
     #v[fin 0, fin 0, fin 100, fin 200, fin 500]⟩ := by decide +kernel

theorem mapReverse_eq : mapReverse =
    ⟨#v[fin 0, fin b01, fin (1/2), fin b07, fin 1],
     #v[fin 0, fin 0, fin 20, fin 75, fin 75]⟩ := by decide +kernel

/-- A map with the shipped break points. -/
def mk (t0 t1 t2 t3 t4 : ℚ) : TorqueMap :=
  ⟨#v[fin 0, fin b01, fin (1/2), fin b07, fin 1], #v[fin t0, fin t1, fin t2, fin t3, fin t4]⟩

/-- One linear segment in float arithmetic. -/
def seg (a0 a1 T0 T1 : ℚ) (accel : F32) : F32 :=
  let t := (accel.sub (fin a0)).div ((fin a1).sub (fin a0))
  (((F32.fin 1).sub t).mul (fin T0)).add (t.mul (fin T1))

theorem finRange4 : List.finRange 4 = [0, 1, 2, 3] := by decide

section
variable (t0 t1 t2 t3 t4 : ℚ)

theorem bucket_mk (a : F32) : bucket (mk t0 t1 t2 t3 t4) a =
    if a.ge (fin b07) && a.le (fin 1) then (3, 4) else
    if a.ge (fin (1/2)) && a.le (fin b07) then (2, 3) else
    if a.ge (fin b01) && a.le (fin (1/2)) then (1, 2) else
    if a.ge (fin 0) && a.le (fin b01) then (0, 1) else (0, 0) := by
  unfold bucket
  rw [finRange4]
  rfl

theorem interp_of_bucket {m : TorqueMap} {a : F32} {lo up : Fin 5} (h : bucket m a = (lo, up))
    (hne : lo ≠ up) : interpolate m a =
      (((F32.fin 1).sub ((a.sub m.accel[lo]).div (m.accel[up].sub m.accel[lo]))).mul
        m.torque[lo]).add
        (((a.sub m.accel[lo]).div (m.accel[up].sub m.accel[lo])).mul m.torque[up]) := by
  unfold interpolate
  rw [h]
  simp only
  rw [if_neg hne]

theorem interp_of_none {m : TorqueMap} {a : F32} (h : bucket m a = (0, 0)) :
    interpolate m a = fin 0 := by
  unfold interpolate
  rw [h]; rfl

theorem interp_outside {a : F32} (h : ¬ (a.ge (fin 0) = true ∧ a.le (fin 1) = true)) :
    interpolate (mk t0 t1 t2 t3 t4) a = fin 0 := by
  apply interp_of_none
  rw [bucket_mk]
  cases a with
  | fin q =>
    simp only [ge_fin, le_fin, decide_eq_true_eq, not_and, not_le, Bool.and_eq_true] at *
    have h7 : b07 < 1 := by norm_num [b07]
    have h1 : (0:ℚ) < b01 := by norm_num [b01]
    have h1' : b01 < 1/2 := by norm_num [b01]
    have h7' : 1/2 < b07 := by norm_num [b07]
    have hq : q < 0 ∨ 1 < q := by
      by_cases h0 : 0 ≤ q
      · exact Or.inr (h h0)
      · exact Or.inl (not_le.mp h0)
    rw [if_neg, if_neg, if_neg, if_neg]
    all_goals (rintro ⟨x, y⟩; rcases hq with hq | hq <;> linarith)
  | nan => simp [F32.ge, F32.le]
  | pinf => simp [F32.ge, F32.le]
  | ninf => simp [F32.ge, F32.le]

variable {t0 t1 t2 t3 t4}

theorem interp_seg0 {q : ℚ} (h0 : 0 ≤ q) (h1 : q < b01) :
    interpolate (mk t0 t1 t2 t3 t4) (fin q) = seg 0 b01 t0 t1 (fin q) := by
  refine interp_of_bucket (lo := 0) (up := 1) ?_ (by decide)
  rw [bucket_mk]
  have h1' : b01 < 1/2 := by norm_num [b01]
  have h7' : 1/2 < b07 := by norm_num [b07]
  simp only [ge_fin, le_fin, decide_eq_true_eq, Bool.and_eq_true]
  rw [if_neg (by rintro ⟨x, y⟩; linarith), if_neg (by rintro ⟨x, y⟩; linarith),
    if_neg (by rintro ⟨x, y⟩; linarith), if_pos ⟨h0, h1.le⟩]

theorem interp_seg1 {q : ℚ} (h0 : b01 ≤ q) (h1 : q < 1/2) :
    interpolate (mk t0 t1 t2 t3 t4) (fin q) = seg b01 (1/2) t1 t2 (fin q) := by
  refine interp_of_bucket (lo := 1) (up := 2) ?_ (by decide)
  rw [bucket_mk]
  have h7' : 1/2 < b07 := by norm_num [b07]
  simp only [ge_fin, le_fin, decide_eq_true_eq, Bool.and_eq_true]
  rw [if_neg (by rintro ⟨x, y⟩; linarith), if_neg (by rintro ⟨x, y⟩; linarith),
    if_pos ⟨h0, h1.le⟩]

theorem interp_seg2 {q : ℚ} (h0 : 1/2 ≤ q) (h1 : q < b07) :
    interpolate (mk t0 t1 t2 t3 t4) (fin q) = seg (1/2) b07 t2 t3 (fin q) := by
  refine interp_of_bucket (lo := 2) (up := 3) ?_ (by decide)
  rw [bucket_mk]
  simp only [ge_fin, le_fin, decide_eq_true_eq, Bool.and_eq_true]
  rw [if_neg (by rintro ⟨x, y⟩; linarith), if_pos ⟨h0, h1.le⟩]

theorem interp_seg3 {q : ℚ} (h0 : b07 ≤ q) (h1 : q ≤ 1) :
    interpolate (mk t0 t1 t2 t3 t4) (fin q) = seg b07 1 t3 t4 (fin q) := by
  refine interp_of_bucket (lo := 3) (up := 4) ?_ (by decide)
  rw [bucket_mk]
  simp only [ge_fin, le_fin, decide_eq_true_eq, Bool.and_eq_true]
  rw [if_pos ⟨h0, h1⟩]
end

/-! ## One segment -/

/-- The rational value computed by a segment. -/
def segT (a0 a1 : ℚ) (q : ℚ) : ℚ := rnd (rnd (q - a0) / rnd (a1 - a0))
def segG (a0 a1 T0 T1 q : ℚ) : ℚ :=
  rnd (rnd (1 - segT a0 a1 q) * T0) + rnd (segT a0 a1 q * T1)
def segV (a0 a1 T0 T1 q : ℚ) : ℚ := rnd (segG a0 a1 T0 T1 q)

theorem segT_range {a0 a1 q : ℚ} (h0 : a0 ≤ q) (h1 : q ≤ a1) :
    0 ≤ segT a0 a1 q ∧ segT a0 a1 q ≤ 1 := by
  have e0 : 0 ≤ rnd (q - a0) := rnd_nonneg (by linarith)
  have e1 : rnd (q - a0) ≤ rnd (a1 - a0) := rnd_mono (by linarith)
  constructor
  · exact rnd_nonneg (div_nonneg e0 (e0.trans e1))
  · have := rnd_le_int (x := rnd (q - a0) / rnd (a1 - a0)) (n := 1) (by norm_num) (by
      push_cast; exact div_le_one_of_le₀ e1 (e0.trans e1))
    simpa [segT] using this

theorem segT_mono {a0 a1 q q' : ℚ} (h : a0 ≤ a1) (hq : q ≤ q') :
    segT a0 a1 q ≤ segT a0 a1 q' :=
  rnd_mono (div_le_div_of_nonneg_right (rnd_mono (by linarith)) (rnd_nonneg (by linarith)))

theorem segG_range {a0 a1 T0 T1 q : ℚ} (h0 : a0 ≤ q) (h1 : q ≤ a1)
    (hT0 : 0 ≤ T0) (hT0' : T0 ≤ 1000) (hT1 : 0 ≤ T1) (hT1' : T1 ≤ 1000) :
    0 ≤ segG a0 a1 T0 T1 q ∧ segG a0 a1 T0 T1 q ≤ 2000 := by
  obtain ⟨ht0, ht1⟩ := segT_range h0 h1
  have o0 : 0 ≤ rnd (1 - segT a0 a1 q) := rnd_nonneg (by linarith)
  have o1 : rnd (1 - segT a0 a1 q) ≤ 1 := by
    have := rnd_le_int (x := 1 - segT a0 a1 q) (n := 1) (by norm_num) (by push_cast; linarith)
    simpa using this
  have u0 : 0 ≤ rnd (rnd (1 - segT a0 a1 q) * T0) := rnd_nonneg (by positivity)
  have v0 : 0 ≤ rnd (segT a0 a1 q * T1) := rnd_nonneg (by positivity)
  have u1 : rnd (rnd (1 - segT a0 a1 q) * T0) ≤ 1000 := by
    have := rnd_le_int (x := rnd (1 - segT a0 a1 q) * T0) (n := 1000) (by norm_num)
      (by push_cast; nlinarith)
    simpa using this
  have v1 : rnd (segT a0 a1 q * T1) ≤ 1000 := by
    have := rnd_le_int (x := segT a0 a1 q * T1) (n := 1000) (by norm_num)
      (by push_cast; nlinarith)
    simpa using this
  unfold segG
  constructor <;> linarith

theorem seg_eq {a0 a1 T0 T1 q : ℚ} (h0 : a0 ≤ q) (h1 : q ≤ a1) (ha0 : 0 ≤ a0) (ha1 : a1 ≤ 1)
    (hT0 : 0 ≤ T0) (hT0' : T0 ≤ 1000) (hT1 : 0 ≤ T1) (hT1' : T1 ≤ 1000)
    (hd : rnd (a1 - a0) ≠ 0) :
    seg a0 a1 T0 T1 (fin q) = fin (segV a0 a1 T0 T1 q) := by
  obtain ⟨ht0, ht1⟩ := segT_range h0 h1
  obtain ⟨hg0, hg1⟩ := segG_range (T0 := T0) (T1 := T1) h0 h1 hT0 hT0' hT1 hT1'
  have e0 : 0 ≤ rnd (q - a0) := rnd_nonneg (by linarith)
  have e1 : rnd (q - a0) ≤ rnd (a1 - a0) := rnd_mono (by linarith)
  have o0 : 0 ≤ rnd (1 - segT a0 a1 q) := rnd_nonneg (by linarith)
  have o1 : rnd (1 - segT a0 a1 q) ≤ 1 := by
    have := rnd_le_int (x := 1 - segT a0 a1 q) (n := 1) (by norm_num) (by push_cast; linarith)
    simpa using this
  have ht : ((F32.fin q).sub (fin a0)).div ((fin a1).sub (fin a0)) = fin (segT a0 a1 q) := by
    rw [sub_fin, sub_fin, round_eq (by rw [abs_le]; constructor <;> norm_num <;> linarith),
      round_eq (by rw [abs_le]; constructor <;> norm_num <;> linarith), div_fin _ _ hd, round_eq]
    · rfl
    · have a1 := div_nonneg e0 (e0.trans e1)
      have a2 := div_le_one_of_le₀ e1 (e0.trans e1)
      rw [abs_le]; constructor <;> norm_num <;> linarith
  unfold seg
  rw [ht]
  simp only
  rw [sub_fin, round_eq (by rw [abs_le]; constructor <;> norm_num <;> linarith), mul_fin, mul_fin,
    round_eq (by rw [abs_le]; constructor <;> norm_num <;> nlinarith),
    round_eq (by rw [abs_le]; constructor <;> norm_num <;> nlinarith), add_fin, round_eq]
  · rfl
  · change |segG a0 a1 T0 T1 q| ≤ _
    rw [abs_le]; constructor <;> norm_num <;> linarith

/-! ## Rounding error of a segment -/

/-- Values rounded in the binade `[2^k, 2^(k+1)]` are multiples of `2^(k-23)`. -/
theorem rnd_grid {x : ℚ} {k : ℤ} (h0 : (2:ℚ)^k ≤ x) (h1 : x ≤ (2:ℚ)^(k+1)) (hk : -126 ≤ k) :
    ∃ m : ℤ, rnd x = m * (2:ℚ)^(k - 23) := by
  have hx : 0 < x := (two_zpow_pos k).trans_le h0
  rcases lt_or_eq_of_le h1 with h1 | h1
  · have hf : fexp x = k := by
      have e : Int.log 2 x = k := by
        have l1 : k ≤ Int.log 2 x := by
          rw [← Int.zpow_le_iff_le_log (b := 2) (by norm_num) hx]; exact_mod_cast h0
        have l2 : Int.log 2 x < k + 1 := by
          rw [← Int.lt_zpow_iff_log_lt (b := 2) (by norm_num) hx]; exact_mod_cast h1
        omega
      unfold fexp; rw [abs_of_pos hx, e]; exact max_eq_left hk
    refine ⟨rne (x / (2:ℚ)^(fexp x - 23)), ?_⟩
    unfold rnd; rw [if_neg hx.ne', hf]
  · refine ⟨2^24, ?_⟩
    have := rnd_exact 1 (k+1) (by norm_num) (by omega)
    rw [h1]
    rw [show ((1:ℤ):ℚ) * (2:ℚ)^(k+1) = (2:ℚ)^(k+1) by push_cast; ring] at this
    rw [this, show ((2^24 : ℤ) : ℚ) = (2:ℚ)^(24:ℤ) by norm_num, ← zpow_add₀ (by norm_num)]
    congr 1; ring

/-- A binary32 value in `[1/2, 1]` is a multiple of `2^-24`. -/
theorem grid_of_rep {q : ℚ} (hr : rnd q = q) (h0 : 1/2 ≤ q) (h1 : q ≤ 1) :
    ∃ n : ℤ, q = n / 2^24 := by
  obtain ⟨m, hm⟩ := rnd_grid (x := q) (k := -1) (by norm_num; linarith) (by norm_num; exact h1)
    (by norm_num)
  refine ⟨m, ?_⟩
  rw [hr] at hm
  rw [hm]; norm_num [zpow_neg]; ring

theorem rnd_grid24 {n : ℤ} (h : |n| ≤ 2^24) : rnd ((n:ℚ) / 2^24) = n / 2^24 := by
  have := rnd_exact n (-24) h (by norm_num)
  rw [show (2:ℚ)^(-24:ℤ) = 1 / 2^24 by norm_num [zpow_neg]] at this
  rw [show (n:ℚ)/2^24 = n * (1/2^24) by ring]; exact this

/-- The value before the last rounding as a function of the exact ratio. -/
def gOf (T0 T1 x : ℚ) : ℚ := rnd (rnd (1 - rnd x) * T0) + rnd (rnd x * T1)

theorem gOf_close {T0 T1 x : ℚ} (h0 : 0 ≤ T0) (h1 : T0 ≤ T1) {kt ku kv : ℤ} {eo : ℚ}
    (hx : |x| ≤ (2:ℚ)^kt) (ho : |rnd (1 - rnd x) - (1 - rnd x)| ≤ eo)
    (hu : |rnd (1 - rnd x) * T0| ≤ (2:ℚ)^ku) (hv : |rnd x * T1| ≤ (2:ℚ)^kv)
    (b1 : -125 ≤ kt) (b2 : -125 ≤ ku) (b3 : -125 ≤ kv) :
    |gOf T0 T1 x - (T0 + x * (T1 - T0))| ≤
      (2:ℚ)^(kt - 25) * (T1 - T0) + eo * T0 + (2:ℚ)^(ku - 25) + (2:ℚ)^(kv - 25) := by
  have e1 := abs_le.mp (rnd_err_le hx b1)
  have e2 := abs_le.mp ho
  have e3 := abs_le.mp (rnd_err_le hu b2)
  have e4 := abs_le.mp (rnd_err_le hv b3)
  have d : 0 ≤ T1 - T0 := by linarith
  have p1 := mul_le_mul_of_nonneg_right e1.1 d
  have p2 := mul_le_mul_of_nonneg_right e1.2 d
  have p3 := mul_le_mul_of_nonneg_right e2.1 h0
  have p4 := mul_le_mul_of_nonneg_right e2.2 h0
  unfold gOf
  rw [abs_le]
  constructor <;> nlinarith

theorem one_sub_err {x : ℚ} (h0 : 0 ≤ x) (h1 : x ≤ 1) :
    |rnd (1 - rnd x) - (1 - rnd x)| ≤ 1 / 2^25 := by
  have a := rnd_nonneg h0
  have b : rnd x ≤ 1 := by
    simpa using rnd_le_int (x := x) (n := 1) (by norm_num) (by simpa using h1)
  have := rnd_err_le (x := 1 - rnd x) (k := 0) (by rw [abs_le]; constructor <;> norm_num <;> linarith)
    (by norm_num)
  refine this.trans (by norm_num [zpow_neg])

theorem one_sub_exact {x : ℚ} (h0 : 1/2 ≤ x) (h1 : x ≤ 1) :
    rnd (1 - rnd x) = 1 - rnd x := by
  have b : rnd x ≤ 1 := by
    simpa using rnd_le_int (x := x) (n := 1) (by norm_num) (by simpa using h1)
  have a : 0 ≤ rnd x := rnd_nonneg (by linarith)
  obtain ⟨m, hm⟩ := rnd_grid (x := x) (k := -1) (by norm_num; linarith) (by norm_num; exact h1)
    (by norm_num)
  have hm' : rnd x = m / 2^24 := by rw [hm]; norm_num [zpow_neg]; ring
  have hm0 : (0:ℤ) ≤ m := by
    have : (0:ℚ) ≤ m := by
      have e : (m:ℚ) = m / 2^24 * 2^24 := by ring
      rw [e, ← hm']; positivity
    exact_mod_cast this
  have hm1 : m ≤ 2^24 := by
    have : (m:ℚ) ≤ 2^24 := by
      rw [hm', div_le_one (by norm_num)] at b; exact b
    exact_mod_cast this
  have := rnd_grid24 (n := 2^24 - m) (by rw [abs_le]; constructor <;> omega)
  rw [hm']
  rw [show (1:ℚ) - m/2^24 = ((2^24 - m : ℤ):ℚ)/2^24 by push_cast; ring]
  exact this

/-- Error bound over the whole segment from bounds on three sub-ranges. -/
theorem gOf_err {T0 T1 E : ℚ} (h0 : 0 ≤ T0) (h1 : T0 ≤ T1) {u0 u1 u2 v0 v1 v2 : ℤ}
    (hu0 : T0 ≤ (2:ℚ)^u0) (hu1 : 3/4 * T0 ≤ (2:ℚ)^u1) (hu2 : 1/2 * T0 ≤ (2:ℚ)^u2)
    (hv0 : 1/4 * T1 ≤ (2:ℚ)^v0) (hv1 : 1/2 * T1 ≤ (2:ℚ)^v1) (hv2 : T1 ≤ (2:ℚ)^v2)
    (hu : -125 ≤ u0 ∧ -125 ≤ u1 ∧ -125 ≤ u2) (hv : -125 ≤ v0 ∧ -125 ≤ v1 ∧ -125 ≤ v2)
    (E0 : (T1 - T0) / 2^27 + T0 / 2^25 + (2:ℚ)^(u0 - 25) + (2:ℚ)^(v0 - 25) ≤ E)
    (E1 : (T1 - T0) / 2^26 + T0 / 2^25 + (2:ℚ)^(u1 - 25) + (2:ℚ)^(v1 - 25) ≤ E)
    (E2 : (T1 - T0) / 2^25 + (2:ℚ)^(u2 - 25) + (2:ℚ)^(v2 - 25) ≤ E)
    {x : ℚ} (hx0 : 0 ≤ x) (hx1 : x ≤ 1) :
    |gOf T0 T1 x - (T0 + x * (T1 - T0))| ≤ E := by
  have hT1 : 0 ≤ T1 := h0.trans h1
  have t0 := rnd_nonneg hx0
  have q14 : rnd (1/4) = 1/4 := by
    have := rnd_exact 1 (-2) (by norm_num) (by norm_num); norm_num [zpow_neg] at this; norm_num; exact this
  have q12 : rnd (1/2) = 1/2 := by
    have := rnd_exact 1 (-1) (by norm_num) (by norm_num); norm_num [zpow_neg] at this; norm_num; exact this
  have q34 : rnd (3/4) = 3/4 := by
    have := rnd_exact 3 (-2) (by norm_num) (by norm_num); norm_num [zpow_neg] at this; norm_num; exact this
  have t1 : rnd x ≤ 1 := by rw [← rnd_one]; exact rnd_mono hx1
  have o0 : 0 ≤ rnd (1 - rnd x) := rnd_nonneg (by linarith)
  have o1 : rnd (1 - rnd x) ≤ 1 := by
    have := rnd_mono (x := 1 - rnd x) (y := 1) (by linarith); rwa [rnd_one] at this
  rcases le_total x (1/4) with hc | hc
  · have tt : rnd x ≤ 1/4 := by rw [← q14]; exact rnd_mono hc
    refine (gOf_close h0 h1 (kt := -2) (ku := u0) (kv := v0) (eo := 1/2^25) ?_
      (one_sub_err hx0 hx1) ?_ ?_ (by norm_num) hu.1 hv.1).trans (le_trans (le_of_eq ?_) E0)
    · rw [abs_of_nonneg hx0]; norm_num; linarith
    · rw [abs_of_nonneg (by positivity)]; nlinarith
    · rw [abs_of_nonneg (by positivity)]; nlinarith
    · norm_num [zpow_neg]; ring
  rcases le_total x (1/2) with hc' | hc'
  · have tt : rnd x ≤ 1/2 := by rw [← q12]; exact rnd_mono hc'
    have tt' : 1/4 ≤ rnd x := by rw [← q14]; exact rnd_mono hc
    have oo : rnd (1 - rnd x) ≤ 3/4 := by rw [← q34]; exact rnd_mono (by linarith)
    refine (gOf_close h0 h1 (kt := -1) (ku := u1) (kv := v1) (eo := 1/2^25) ?_
      (one_sub_err hx0 hx1) ?_ ?_ (by norm_num) hu.2.1 hv.2.1).trans (le_trans (le_of_eq ?_) E1)
    · rw [abs_of_nonneg hx0]; norm_num; linarith
    · rw [abs_of_nonneg (by positivity)]; nlinarith
    · rw [abs_of_nonneg (by positivity)]; nlinarith
    · norm_num [zpow_neg]; ring
  · have tt' : 1/2 ≤ rnd x := by rw [← q12]; exact rnd_mono hc'
    have oo : rnd (1 - rnd x) ≤ 1/2 := by rw [one_sub_exact hc' hx1]; linarith
    refine (gOf_close h0 h1 (kt := 0) (ku := u2) (kv := v2) (eo := 0) ?_
      (by rw [one_sub_exact hc' hx1]; simp) ?_ ?_ (by norm_num) hu.2.2 hv.2.2).trans
        (le_trans (le_of_eq ?_) E2)
    · rw [abs_of_nonneg hx0]; norm_num; linarith
    · rw [abs_of_nonneg (by positivity)]; nlinarith
    · rw [abs_of_nonneg (by positivity)]; nlinarith
    · norm_num [zpow_neg]; ring

/-- On grid points the segment computes `gOf` of the exact ratio. -/
theorem segG_grid {m0 m1 n : ℤ} (T0 T1 : ℚ) (h0 : 0 ≤ m0) (h1 : m0 ≤ n) (h2 : n ≤ m1) (h3 : m1 ≤ 2^24) :
    segG (m0/2^24) (m1/2^24) T0 T1 (n/2^24) = gOf T0 T1 (((n - m0 : ℤ):ℚ) / ((m1 - m0 : ℤ):ℚ)) := by
  have e1 : rnd ((n:ℚ)/2^24 - m0/2^24) = ((n - m0 : ℤ):ℚ)/2^24 := by
    rw [← rnd_grid24 (n := n - m0) (by rw [abs_le]; constructor <;> omega)]
    congr 1; push_cast; ring
  have e2 : rnd ((m1:ℚ)/2^24 - m0/2^24) = ((m1 - m0 : ℤ):ℚ)/2^24 := by
    rw [← rnd_grid24 (n := m1 - m0) (by rw [abs_le]; constructor <;> omega)]
    congr 1; push_cast; ring
  have e3 : segT (m0/2^24) (m1/2^24) (n/2^24) = rnd (((n - m0 : ℤ):ℚ) / ((m1 - m0 : ℤ):ℚ)) := by
    unfold segT; rw [e1, e2, div_div_div_cancel_right₀ (by norm_num)]
  unfold segG gOf; rw [e3]

theorem segG_mono {m0 m1 n n' : ℤ} {T0 T1 E : ℚ} (h0 : 0 ≤ m0) (h1 : m0 ≤ n) (hn : n ≤ n')
    (h2 : n' ≤ m1) (h3 : m1 ≤ 2^24) (hm : m0 < m1)
    (hT : T0 ≤ T1) (hE : 2 * E ≤ (T1 - T0) / ((m1 - m0 : ℤ):ℚ))
    (herr : ∀ x : ℚ, 0 ≤ x → x ≤ 1 → |gOf T0 T1 x - (T0 + x * (T1 - T0))| ≤ E) :
    segG (m0/2^24) (m1/2^24) T0 T1 (n/2^24) ≤ segG (m0/2^24) (m1/2^24) T0 T1 (n'/2^24) := by
  rcases eq_or_lt_of_le hn with rfl | hlt
  · exact le_rfl
  rw [segG_grid T0 T1 h0 h1 (hn.trans h2) h3, segG_grid T0 T1 h0 (h1.trans hn) h2 h3]
  have hD : (0:ℚ) < ((m1 - m0 : ℤ):ℚ) := by exact_mod_cast (by omega : 0 < m1 - m0)
  have r : ∀ k : ℤ, m0 ≤ k → k ≤ m1 → 0 ≤ ((k - m0 : ℤ):ℚ)/((m1 - m0 : ℤ):ℚ) ∧
      ((k - m0 : ℤ):ℚ)/((m1 - m0 : ℤ):ℚ) ≤ 1 := by
    intro k hk hk'
    constructor
    · apply div_nonneg _ hD.le; exact_mod_cast (by omega : 0 ≤ k - m0)
    · rw [div_le_one hD]; exact_mod_cast (by omega : k - m0 ≤ m1 - m0)
  have e := abs_le.mp (herr _ (r n h1 (hn.trans h2)).1 (r n h1 (hn.trans h2)).2)
  have e' := abs_le.mp (herr _ (r n' (h1.trans hn) h2).1 (r n' (h1.trans hn) h2).2)
  have step : (T1 - T0) / ((m1 - m0 : ℤ):ℚ) ≤
      ((n' - m0 : ℤ):ℚ)/((m1 - m0 : ℤ):ℚ) * (T1 - T0) - ((n - m0 : ℤ):ℚ)/((m1 - m0 : ℤ):ℚ) * (T1 - T0) := by
    rw [div_mul_eq_mul_div, div_mul_eq_mul_div, ← sub_div]
    apply div_le_div_of_nonneg_right _ hD.le
    have : (1:ℚ) ≤ ((n' - m0 : ℤ):ℚ) - ((n - m0 : ℤ):ℚ) := by
      push_cast; have : (1:ℚ) ≤ ((n' - n : ℤ) : ℚ) := by exact_mod_cast (by omega : 1 ≤ n' - n)
      push_cast at this; linarith
    nlinarith
  linarith [e.2, e'.1]

/-! ## The shipped segments -/

theorem err_100_200 {x : ℚ} (hx0 : 0 ≤ x) (hx1 : x ≤ 1) :
    |gOf 100 200 x - (100 + x * (200 - 100))| ≤ 420 / 2^25 :=
  gOf_err (u0 := 7) (u1 := 7) (u2 := 6) (v0 := 6) (v1 := 7) (v2 := 8) (by norm_num) (by norm_num)
    (by norm_num) (by norm_num) (by norm_num) (by norm_num) (by norm_num) (by norm_num)
    (by decide) (by decide) (by norm_num) (by norm_num) (by norm_num) hx0 hx1

theorem err_200_500 {x : ℚ} (hx0 : 0 ≤ x) (hx1 : x ≤ 1) :
    |gOf 200 500 x - (200 + x * (500 - 200))| ≤ 940 / 2^25 :=
  gOf_err (u0 := 8) (u1 := 8) (u2 := 7) (v0 := 7) (v1 := 8) (v2 := 9) (by norm_num) (by norm_num)
    (by norm_num) (by norm_num) (by norm_num) (by norm_num) (by norm_num) (by norm_num)
    (by decide) (by decide) (by norm_num) (by norm_num) (by norm_num) hx0 hx1

theorem err_20_75 {x : ℚ} (hx0 : 0 ≤ x) (hx1 : x ≤ 1) :
    |gOf 20 75 x - (20 + x * (75 - 20))| ≤ 200 / 2^25 :=
  gOf_err (u0 := 5) (u1 := 4) (u2 := 4) (v0 := 5) (v1 := 6) (v2 := 7) (by norm_num) (by norm_num)
    (by norm_num) (by norm_num) (by norm_num) (by norm_num) (by norm_num) (by norm_num)
    (by decide) (by decide) (by norm_num) (by norm_num) (by norm_num) hx0 hx1

theorem err_75_75 {x : ℚ} (hx0 : 0 ≤ x) (hx1 : x ≤ 1) :
    |gOf 75 75 x - (75 + x * (75 - 75))| ≤ 235 / 2^25 :=
  gOf_err (u0 := 7) (u1 := 6) (u2 := 6) (v0 := 5) (v1 := 6) (v2 := 7) (by norm_num) (by norm_num)
    (by norm_num) (by norm_num) (by norm_num) (by norm_num) (by norm_num) (by norm_num)
    (by decide) (by decide) (by norm_num) (by norm_num) (by norm_num) hx0 hx1

/-- First sloped segment (from torque 0): monotone for any binary32 operands. -/
theorem segV1_mono {T q q' : ℚ} (hT : 0 ≤ T) (h : q ≤ q') :
    segV b01 (1/2) 0 T q ≤ segV b01 (1/2) 0 T q' := by
  have ht := segT_mono (a0 := b01) (a1 := 1/2) (by norm_num [b01]) h
  unfold segV segG
  rw [mul_zero, mul_zero, rnd_zero, zero_add, zero_add]
  exact rnd_mono (rnd_mono (mul_le_mul_of_nonneg_right ht hT))

theorem b07_grid : b07 = ((11744051 : ℤ) : ℚ) / 2^24 := by norm_num [b07]
theorem half_grid : (1/2 : ℚ) = ((8388608 : ℤ) : ℚ) / 2^24 := by norm_num
theorem one_grid : (1 : ℚ) = ((16777216 : ℤ) : ℚ) / 2^24 := by norm_num

theorem grid_le {m n : ℤ} : ((m:ℚ)/2^24 ≤ (n:ℚ)/2^24) ↔ m ≤ n := by
  rw [div_le_div_iff_of_pos_right (by norm_num)]; exact_mod_cast Iff.rfl

theorem segV2_mono {T0 T1 E q q' : ℚ} (hT : T0 ≤ T1) (hE : 2 * E ≤ (T1 - T0) / 3355443)
    (herr : ∀ x : ℚ, 0 ≤ x → x ≤ 1 → |gOf T0 T1 x - (T0 + x * (T1 - T0))| ≤ E)
    (hr : rnd q = q) (hr' : rnd q' = q') (h0 : 1/2 ≤ q) (h : q ≤ q') (h1 : q' ≤ b07) :
    segV (1/2) b07 T0 T1 q ≤ segV (1/2) b07 T0 T1 q' := by
  have hb : b07 ≤ 1 := by norm_num [b07]
  obtain ⟨n, rfl⟩ := grid_of_rep hr h0 (by linarith)
  obtain ⟨n', rfl⟩ := grid_of_rep hr' (by linarith) (by linarith)
  rw [half_grid, grid_le] at h0
  rw [b07_grid, grid_le] at h1
  rw [grid_le] at h
  unfold segV
  rw [half_grid, b07_grid]
  exact rnd_mono (segG_mono (by norm_num) h0 h h1 (by norm_num) (by norm_num) hT
    (by norm_num; linarith) herr)

theorem segV3_mono {T0 T1 E q q' : ℚ} (hT : T0 ≤ T1) (hE : 2 * E ≤ (T1 - T0) / 5033165)
    (herr : ∀ x : ℚ, 0 ≤ x → x ≤ 1 → |gOf T0 T1 x - (T0 + x * (T1 - T0))| ≤ E)
    (hr : rnd q = q) (hr' : rnd q' = q') (h0 : b07 ≤ q) (h : q ≤ q') (h1 : q' ≤ 1) :
    segV b07 1 T0 T1 q ≤ segV b07 1 T0 T1 q' := by
  have hb : 1/2 ≤ b07 := by norm_num [b07]
  obtain ⟨n, rfl⟩ := grid_of_rep hr (by linarith) (by linarith)
  obtain ⟨n', rfl⟩ := grid_of_rep hr' (by linarith) (by linarith)
  rw [one_grid, grid_le] at h1
  rw [b07_grid, grid_le] at h0
  rw [grid_le] at h
  unfold segV
  rw [show segG b07 1 = segG (((11744051 : ℤ) : ℚ) / 2^24) (((16777216 : ℤ) : ℚ) / 2^24) by
    rw [← b07_grid, ← one_grid]]
  exact rnd_mono (segG_mono (by norm_num) h0 h h1 (by norm_num) (by norm_num) hT
    (by norm_num; linarith) herr)

theorem rep_b01 : rnd b01 = b01 := by decide +kernel
theorem rep_b07 : rnd b07 = b07 := by decide +kernel
theorem rep_half : rnd (1/2) = 1/2 := by decide +kernel

theorem d0 : rnd (b01 - 0) ≠ 0 := by decide +kernel
theorem d1 : rnd (1/2 - b01) ≠ 0 := by decide +kernel
theorem d2 : rnd (b07 - 1/2) ≠ 0 := by decide +kernel
theorem d3 : rnd (1 - b07) ≠ 0 := by decide +kernel

/-- Value of a map with dead zone, as a rational. -/
def mapV (T2 T3 T4 q : ℚ) : ℚ :=
  if q < b01 then 0 else if q < 1/2 then segV b01 (1/2) 0 T2 q
  else if q < b07 then segV (1/2) b07 T2 T3 q else segV b07 1 T3 T4 q

theorem interp_mapV {T2 T3 T4 q : ℚ} (h2 : 0 ≤ T2 ∧ T2 ≤ 1000) (h3 : 0 ≤ T3 ∧ T3 ≤ 1000)
    (h4 : 0 ≤ T4 ∧ T4 ≤ 1000) (h0 : 0 ≤ q) (h1 : q ≤ 1) :
    interpolate (mk 0 0 T2 T3 T4) (fin q) = fin (mapV T2 T3 T4 q) := by
  have a1 : (0:ℚ) < b01 := by norm_num [b01]
  have a2 : b01 < 1/2 := by norm_num [b01]
  have a3 : 1/2 < b07 := by norm_num [b07]
  have a4 : b07 < 1 := by norm_num [b07]
  unfold mapV
  split_ifs with c1 c2 c3
  · rw [interp_seg0 h0 c1, seg_eq h0 c1.le (by linarith) (by linarith) (by norm_num) (by norm_num)
      (by norm_num) (by norm_num) d0]
    simp [segV, segG, rnd_zero]
  · rw [interp_seg1 (not_lt.mp c1) c2, seg_eq (not_lt.mp c1) c2.le (by linarith) (by linarith)
      (by norm_num) (by norm_num) h2.1 h2.2 d1]
  · rw [interp_seg2 (not_lt.mp c2) c3, seg_eq (not_lt.mp c2) c3.le (by linarith) (by linarith)
      h2.1 h2.2 h3.1 h3.2 d2]
  · rw [interp_seg3 (not_lt.mp c3) h1, seg_eq (not_lt.mp c3) h1 (by linarith) (by linarith)
      h3.1 h3.2 h4.1 h4.2 d3]

theorem mapForward_mk : mapForward = mk 0 0 100 200 500 := mapForward_eq
theorem mapReverse_mk : mapReverse = mk 0 0 20 75 75 := mapReverse_eq

theorem forward_mapV {q : ℚ} (h0 : 0 ≤ q) (h1 : q ≤ 1) :
    interpolate mapForward (fin q) = fin (mapV 100 200 500 q) := by
  rw [mapForward_mk]
  exact interp_mapV (by norm_num) (by norm_num) (by norm_num) h0 h1

theorem reverse_mapV {q : ℚ} (h0 : 0 ≤ q) (h1 : q ≤ 1) :
    interpolate mapReverse (fin q) = fin (mapV 20 75 75 q) := by
  rw [mapReverse_mk]
  exact interp_mapV (by norm_num) (by norm_num) (by norm_num) h0 h1

theorem segV1_ge {T q : ℚ} (hT : 0 ≤ T) (h : b01 ≤ q) : 0 ≤ segV b01 (1/2) 0 T q := by
  have e : segV b01 (1/2) 0 T b01 = 0 := by
    simp [segV, segG, segT, rnd_zero]
  have := segV1_mono hT h
  rwa [e] at this

theorem segV1_le_100 {q : ℚ} (h : q ≤ 1/2) : segV b01 (1/2) 0 100 q ≤ 100 := by
  have e : segV b01 (1/2) 0 100 (1/2) = 100 := by decide +kernel
  have := segV1_mono (T := 100) (by norm_num) h
  rwa [e] at this

theorem segV1_le_20 {q : ℚ} (h : q ≤ 1/2) : segV b01 (1/2) 0 20 q ≤ 20 := by
  have e : segV b01 (1/2) 0 20 (1/2) = 20 := by decide +kernel
  have := segV1_mono (T := 20) (by norm_num) h
  rwa [e] at this

theorem fwd2_mono {q q' : ℚ} (hr : rnd q = q) (hr' : rnd q' = q') (h0 : 1/2 ≤ q) (h : q ≤ q')
    (h1 : q' ≤ b07) : segV (1/2) b07 100 200 q ≤ segV (1/2) b07 100 200 q' :=
  segV2_mono (E := 420/2^25) (by norm_num) (by norm_num) (fun _ a b => err_100_200 a b) hr hr' h0 h h1

theorem fwd3_mono {q q' : ℚ} (hr : rnd q = q) (hr' : rnd q' = q') (h0 : b07 ≤ q) (h : q ≤ q')
    (h1 : q' ≤ 1) : segV b07 1 200 500 q ≤ segV b07 1 200 500 q' :=
  segV3_mono (E := 940/2^25) (by norm_num) (by norm_num) (fun _ a b => err_200_500 a b) hr hr' h0 h h1

theorem rev2_mono {q q' : ℚ} (hr : rnd q = q) (hr' : rnd q' = q') (h0 : 1/2 ≤ q) (h : q ≤ q')
    (h1 : q' ≤ b07) : segV (1/2) b07 20 75 q ≤ segV (1/2) b07 20 75 q' :=
  segV2_mono (E := 200/2^25) (by norm_num) (by norm_num) (fun _ a b => err_20_75 a b) hr hr' h0 h h1

theorem fwd2_range {q : ℚ} (hr : rnd q = q) (h0 : 1/2 ≤ q) (h1 : q ≤ b07) :
    100 ≤ segV (1/2) b07 100 200 q ∧ segV (1/2) b07 100 200 q ≤ 200 := by
  have e0 : segV (1/2) b07 100 200 (1/2) = 100 := by decide +kernel
  have e1 : segV (1/2) b07 100 200 b07 = 200 := by decide +kernel
  have := fwd2_mono rep_half hr le_rfl h0 h1
  have := fwd2_mono hr rep_b07 h0 h1 le_rfl
  constructor <;> linarith

theorem rev2_range {q : ℚ} (hr : rnd q = q) (h0 : 1/2 ≤ q) (h1 : q ≤ b07) :
    20 ≤ segV (1/2) b07 20 75 q ∧ segV (1/2) b07 20 75 q ≤ 75 := by
  have e0 : segV (1/2) b07 20 75 (1/2) = 20 := by decide +kernel
  have e1 : segV (1/2) b07 20 75 b07 = 75 := by decide +kernel
  have := rev2_mono rep_half hr le_rfl h0 h1
  have := rev2_mono hr rep_b07 h0 h1 le_rfl
  constructor <;> linarith

theorem fwd3_range {q : ℚ} (hr : rnd q = q) (h0 : b07 ≤ q) (h1 : q ≤ 1) :
    200 ≤ segV b07 1 200 500 q ∧ segV b07 1 200 500 q ≤ 500 := by
  have e0 : segV b07 1 200 500 b07 = 200 := by decide +kernel
  have e1 : segV b07 1 200 500 1 = 500 := by decide +kernel
  have := fwd3_mono rep_b07 hr le_rfl h0 h1
  have := fwd3_mono hr rnd_one h0 h1 le_rfl
  constructor <;> linarith

theorem rev3_range {q : ℚ} (hr : rnd q = q) (h0 : b07 ≤ q) (h1 : q ≤ 1) :
    75 - 1/2^17 ≤ segV b07 1 75 75 q ∧ segV b07 1 75 75 q ≤ 75 + 1/2^17 := by
  have hb : 1/2 ≤ b07 := by norm_num [b07]
  obtain ⟨n, rfl⟩ := grid_of_rep hr (by linarith) (by linarith)
  rw [one_grid, grid_le] at h1
  rw [b07_grid, grid_le] at h0
  have e0 : rnd (75 - 1/2^17) = 75 - 1/2^17 := by decide +kernel
  have e1 : rnd (75 + 1/2^17) = 75 + 1/2^17 := by decide +kernel
  unfold segV
  rw [show segG b07 1 = segG (((11744051 : ℤ) : ℚ) / 2^24) (((16777216 : ℤ) : ℚ) / 2^24) by
    rw [← b07_grid, ← one_grid]]
  rw [segG_grid 75 75 (by norm_num) h0 h1 (by norm_num)]
  have hD : (0:ℚ) < ((16777216 - 11744051 : ℤ):ℚ) := by norm_num
  have := abs_le.mp (err_75_75 (x := ((n - 11744051 : ℤ):ℚ) / ((16777216 - 11744051 : ℤ):ℚ))
    (by apply div_nonneg _ hD.le; exact_mod_cast (by omega : 0 ≤ n - 11744051))
    (by rw [div_le_one hD]; exact_mod_cast (by omega : n - 11744051 ≤ 16777216 - 11744051)))
  obtain ⟨l, u⟩ := this
  rw [sub_self, mul_zero, add_zero] at l u
  have n1 : (235:ℚ)/2^25 ≤ 1/2^17 := by norm_num
  constructor
  · rw [← e0]; exact rnd_mono (by linarith)
  · rw [← e1]; exact rnd_mono (by linarith)

theorem forward_mapV_mono {q q' : ℚ} (hr : rnd q = q) (hr' : rnd q' = q')
    (h : q ≤ q') (h1 : q' ≤ 1) : mapV 100 200 500 q ≤ mapV 100 200 500 q' := by
  have a2 : b01 < 1/2 := by norm_num [b01]
  have a3 : 1/2 < b07 := by norm_num [b07]
  unfold mapV
  by_cases c1 : q < b01
  · rw [if_pos c1]
    split_ifs with d1 d2 d3
    · exact le_rfl
    · exact segV1_ge (by norm_num) (not_lt.mp d1)
    · linarith [(fwd2_range hr' (not_lt.mp d2) d3.le).1]
    · linarith [(fwd3_range hr' (not_lt.mp d3) h1).1]
  rw [if_neg c1, if_neg (show ¬ q' < b01 by linarith)]
  by_cases c2 : q < 1/2
  · rw [if_pos c2]
    have u := segV1_le_100 c2.le
    split_ifs with d2 d3
    · exact segV1_mono (by norm_num) h
    · linarith [(fwd2_range hr' (not_lt.mp d2) d3.le).1]
    · linarith [(fwd3_range hr' (not_lt.mp d3) h1).1]
  rw [if_neg c2, if_neg (show ¬ q' < 1/2 by linarith)]
  by_cases c3 : q < b07
  · rw [if_pos c3]
    have u := (fwd2_range hr (not_lt.mp c2) c3.le).2
    split_ifs with d3
    · exact fwd2_mono hr hr' (not_lt.mp c2) h d3.le
    · linarith [(fwd3_range hr' (not_lt.mp d3) h1).1]
  rw [if_neg c3, if_neg (show ¬ q' < b07 by linarith)]
  exact fwd3_mono hr hr' (not_lt.mp c3) h h1

theorem forward_mapV_range {q : ℚ} (hr : rnd q = q) (h1 : q ≤ 1) :
    0 ≤ mapV 100 200 500 q ∧ mapV 100 200 500 q ≤ 500 := by
  unfold mapV
  split_ifs with d1 d2 d3
  · norm_num
  · have := segV1_ge (T := 100) (by norm_num) (not_lt.mp d1)
    have := segV1_le_100 d2.le
    constructor <;> linarith
  · have := fwd2_range hr (not_lt.mp d2) d3.le
    constructor <;> linarith
  · have := fwd3_range hr (not_lt.mp d3) h1
    constructor <;> linarith

theorem reverse_mapV_mono {q q' : ℚ} (hr : rnd q = q) (hr' : rnd q' = q')
    (h : q ≤ q') (h1 : q' ≤ b07) : mapV 20 75 75 q ≤ mapV 20 75 75 q' := by
  have a2 : b01 < 1/2 := by norm_num [b01]
  have a3 : 1/2 < b07 := by norm_num [b07]
  have e3 : segV b07 1 75 75 b07 = 75 := by decide +kernel
  unfold mapV
  by_cases c1 : q < b01
  · rw [if_pos c1]
    split_ifs with d1 d2 d3
    · exact le_rfl
    · exact segV1_ge (by norm_num) (not_lt.mp d1)
    · linarith [(rev2_range hr' (not_lt.mp d2) d3.le).1]
    · rw [le_antisymm h1 (not_lt.mp d3), e3]; norm_num
  rw [if_neg c1, if_neg (show ¬ q' < b01 by linarith)]
  by_cases c2 : q < 1/2
  · rw [if_pos c2]
    have u := segV1_le_20 c2.le
    split_ifs with d2 d3
    · exact segV1_mono (by norm_num) h
    · linarith [(rev2_range hr' (not_lt.mp d2) d3.le).1]
    · rw [le_antisymm h1 (not_lt.mp d3), e3]; linarith
  rw [if_neg c2, if_neg (show ¬ q' < 1/2 by linarith)]
  by_cases c3 : q < b07
  · rw [if_pos c3]
    have u := (rev2_range hr (not_lt.mp c2) c3.le).2
    split_ifs with d3
    · exact rev2_mono hr hr' (not_lt.mp c2) h d3.le
    · rw [le_antisymm h1 (not_lt.mp d3), e3]; linarith
  rw [if_neg c3, if_neg (show ¬ q' < b07 by linarith)]
  rw [le_antisymm h1 (by linarith : b07 ≤ q'), le_antisymm (h.trans h1) (not_lt.mp c3)]

theorem reverse_mapV_range {q : ℚ} (hr : rnd q = q) (h1 : q ≤ 1) :
    0 ≤ mapV 20 75 75 q ∧ mapV 20 75 75 q ≤ 75 + 1/2^17 := by
  unfold mapV
  split_ifs with d1 d2 d3
  · norm_num
  · have := segV1_ge (T := 20) (by norm_num) (not_lt.mp d1)
    have := segV1_le_20 d2.le
    constructor <;> linarith
  · have := rev2_range hr (not_lt.mp d2) d3.le
    constructor <;> linarith
  · have := rev3_range hr (not_lt.mp d3) h1
    constructor <;> linarith

end Verif.Throttle
