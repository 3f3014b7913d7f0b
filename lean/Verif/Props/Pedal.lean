import Verif.Spec.Pedal
import Verif.Spec.InverterCmd
import Verif.Props.Throttle
import Verif.Props.InverterCmd

set_option autoImplicit false

/-!
# C136: the torque on the bus follows the pedal curve
-/

namespace Verif.Throttle
open F32 InvDrv InvSpec

/-! ## Error of one segment -/

/-- The ratio computed for a segment with rounded end points is close to the exact ratio. -/
theorem ratio_close {a0 d A0 D q : ℚ} (hq0 : a0 ≤ q) (hq1 : q - a0 ≤ D + 1/2^24) (hD : 1/5 ≤ D)
    (hD1 : D ≤ 1/2) (h0 : |a0 - A0| ≤ 1/2^25) (hd : |d - D| ≤ 1/2^24) :
    |rnd (q - a0) / d - (q - A0) / D| ≤ 13 / 2^24 := by
  have e := abs_le.mp (rnd_err_le (x := q - a0) (k := 0)
    (by rw [abs_le]; constructor <;> norm_num at hq1 ⊢ <;> linarith) (by norm_num))
  norm_num [zpow_neg] at e
  have h0' := abs_le.mp h0
  have hd' := abs_le.mp hd
  norm_num at h0' hd' hq1
  have hdp : 1/6 ≤ d := by linarith [hd'.1]
  have dp : 0 < d := by linarith
  have Dp : 0 < D := by linarith
  have y : |q - A0| ≤ D + 1/2^23 := by
    rw [abs_le]; constructor <;> norm_num <;> linarith [h0'.1, h0'.2]
  have u0 : rnd (q - a0) - (q - A0) ≤ 1/2^24 := by norm_num; linarith [e.2, h0'.1, h0'.2]
  have u1 : -(1/2^24) ≤ rnd (q - a0) - (q - A0) := by norm_num; linarith [e.1, h0'.1, h0'.2]
  have split : rnd (q - a0) * D - d * (q - A0) =
      (rnd (q - a0) - (q - A0)) * D - (q - A0) * (d - D) := by ring
  have p1 : (rnd (q - a0) - (q - A0)) * D ≤ 1/2^24 * D := mul_le_mul_of_nonneg_right u0 Dp.le
  have p2 : -(1/2^24) * D ≤ (rnd (q - a0) - (q - A0)) * D := mul_le_mul_of_nonneg_right u1 Dp.le
  have p3 : |(q - A0) * (d - D)| ≤ (D + 1/2^23) * (1/2^24) := by
    rw [abs_mul]
    exact mul_le_mul y hd (abs_nonneg _) (by linarith [abs_nonneg (q - A0)])
  have p3' := abs_le.mp p3
  have dD : 1/6 * D ≤ d * D := mul_le_mul_of_nonneg_right hdp Dp.le
  rw [div_sub_div _ _ dp.ne' Dp.ne', split, abs_le]
  constructor
  · rw [le_div_iff₀ (by positivity)]
    norm_num at p2 p3' ⊢
    linarith [p3'.1, p3'.2]
  · rw [div_le_iff₀ (by positivity)]
    norm_num at p1 p3' ⊢
    linarith [p3'.1, p3'.2]

/-- A segment computed in binary32 is within half a thousandth of the exact line. -/
theorem segV_close {a0 a1 A0 A1 T0 T1 q : ℚ} (hq0 : a0 ≤ q) (hq1 : q ≤ a1)
    (hD : 1/5 ≤ A1 - A0) (hD1 : A1 - A0 ≤ 1/2) (h0 : |a0 - A0| ≤ 1/2^25)
    (hw : a1 - a0 ≤ A1 - A0 + 1/2^24) (hd : |rnd (a1 - a0) - (A1 - A0)| ≤ 1/2^24)
    (t0 : 0 ≤ T0) (t1 : T0 ≤ T1) (t2 : T1 ≤ 500) (t3 : T1 - T0 ≤ 300) :
    |segV a0 a1 T0 T1 q - Pedal.line A0 A1 T0 T1 q| ≤ 1/2000 := by
  obtain ⟨x, hx⟩ : ∃ x, x = rnd (q - a0) / rnd (a1 - a0) := ⟨_, rfl⟩
  have e0 : 0 ≤ rnd (q - a0) := rnd_nonneg (by linarith)
  have e1 : rnd (q - a0) ≤ rnd (a1 - a0) := rnd_mono (by linarith)
  have x0 : 0 ≤ x := by rw [hx]; exact div_nonneg e0 (e0.trans e1)
  have x1 : x ≤ 1 := by rw [hx]; exact div_le_one_of_le₀ e1 (e0.trans e1)
  have r0 := rnd_nonneg x0
  have r1 : rnd x ≤ 1 := by
    simpa using rnd_le_int (x := x) (n := 1) (by norm_num) (by simpa using x1)
  have o0 : 0 ≤ rnd (1 - rnd x) := rnd_nonneg (by linarith)
  have o1 : rnd (1 - rnd x) ≤ 1 := by
    simpa using rnd_le_int (x := 1 - rnd x) (n := 1) (by norm_num) (by push_cast; linarith)
  have g := abs_le.mp (gOf_close (kt := 0) (ku := 9) (kv := 9) t0 t1
    (by rw [abs_le]; constructor <;> norm_num <;> linarith) (one_sub_err x0 x1)
    (by rw [abs_le]; constructor <;> norm_num <;> nlinarith)
    (by rw [abs_le]; constructor <;> norm_num <;> nlinarith)
    (by norm_num) (by norm_num) (by norm_num))
  have gr := segG_range (T0 := T0) (T1 := T1) hq0 hq1 t0 (by linarith) (by linarith) (by linarith)
  have eg : segG a0 a1 T0 T1 q = gOf T0 T1 x := by rw [hx]; rfl
  rw [eg] at gr
  have f := abs_le.mp (rnd_err_le (x := gOf T0 T1 x) (k := 11)
    (by rw [abs_le]; constructor <;> norm_num <;> linarith) (by norm_num))
  have rc := abs_le.mp (ratio_close (q := q) hq0 (by linarith) hD hD1 h0 hd)
  rw [← hx] at rc
  have d : 0 ≤ T1 - T0 := by linarith
  have m1 := mul_le_mul_of_nonneg_right rc.1 d
  have m2 := mul_le_mul_of_nonneg_right rc.2 d
  unfold segV Pedal.line
  rw [eg]
  norm_num [zpow_neg] at g f m1 m2
  rw [abs_le]
  constructor <;> norm_num <;> nlinarith [f.1, f.2, g.1, g.2]

theorem b01_close : |b01 - 1/10| ≤ 1/2^25 := by norm_num [b01, abs_le]
theorem b07_close : |b07 - 7/10| ≤ 1/2^25 := by norm_num [b07, abs_le]

/-- The map in binary32 is within a thousandth of the exact curve. -/
theorem mapV_close {T2 T3 T4 q : ℚ} (h2 : 0 ≤ T2) (h3 : T2 ≤ T3) (h4 : T3 ≤ T4)
    (h5 : T4 ≤ 500) (d3 : T3 - T2 ≤ 300) (d2 : T2 ≤ 300) (d4 : T4 - T3 ≤ 300)
    (h0 : 0 ≤ q) (h1 : q ≤ 1) :
    |mapV T2 T3 T4 q - Pedal.curve T2 T3 T4 q| ≤ 1/1000 := by
  have a1 : (1:ℚ)/10 < b01 := by norm_num [b01]
  have a2 : b01 < 1/2 := by norm_num [b01]
  have a3 : 1/2 < b07 := by norm_num [b07]
  have a4 : b07 < 7/10 := by norm_num [b07]
  have c0 : ¬ (q < 0 ∨ 1 < q) := by rintro (h | h) <;> linarith
  unfold mapV Pedal.curve
  rw [if_neg c0]
  by_cases k1 : q < b01
  · rw [if_pos k1]
    by_cases k2 : q ≤ 1/10
    · rw [if_pos k2]; norm_num
    · rw [if_neg k2, if_pos (by linarith)]
      have w0 : 0 ≤ (q - 1/10) / (1/2 - 1/10) := div_nonneg (by linarith) (by norm_num)
      have w1 : (q - 1/10) / (1/2 - 1/10) ≤ 1/2^23 := by
        rw [div_le_iff₀ (by norm_num)]
        have : b01 - 1/10 ≤ 1/2^25 := (le_abs_self _).trans b01_close
        norm_num at this ⊢; linarith
      unfold Pedal.line
      norm_num at w1
      rw [abs_le]; constructor <;> norm_num at w0 w1 ⊢ <;> nlinarith
  · have k1' := not_lt.mp k1
    rw [if_neg k1, if_neg (by linarith : ¬ q ≤ 1/10)]
    by_cases k2 : q < 1/2
    · rw [if_pos k2, if_pos k2.le]
      refine (segV_close k1' k2.le (by norm_num) (by norm_num) b01_close (by norm_num [b01])
        (by decide +kernel) le_rfl h2 (by linarith) (by linarith)).trans (by norm_num)
    · have k2' := not_lt.mp k2
      rw [if_neg k2]
      by_cases k3 : q < b07
      · rw [if_pos k3]
        by_cases k4 : q ≤ 1/2
        · have : q = 1/2 := le_antisymm k4 k2'
          subst this
          rw [if_pos le_rfl]
          have := segV_close (a0 := 1/2) (a1 := b07) (A0 := 1/2) (A1 := 7/10) (T0 := T2) (T1 := T3)
            (q := 1/2) le_rfl a3.le (by norm_num) (by norm_num) (by norm_num) (by norm_num [b07])
            (by decide +kernel) h2 h3 (by linarith) (by linarith)
          have el : Pedal.line (1/2) (7/10) T2 T3 (1/2) = Pedal.line (1/10) (1/2) 0 T2 (1/2) := by
            unfold Pedal.line; norm_num
          rw [el] at this
          exact this.trans (by norm_num)
        · rw [if_neg k4, if_pos (by linarith)]
          refine (segV_close k2' k3.le (by norm_num) (by norm_num) (by norm_num) (by norm_num [b07])
            (by decide +kernel) h2 h3 (by linarith) (by linarith)).trans (by norm_num)
      · have k3' := not_lt.mp k3
        rw [if_neg k3, if_neg (by linarith : ¬ q ≤ 1/2)]
        have := abs_le.mp (segV_close (a0 := b07) (a1 := 1) (A0 := 7/10) (A1 := 1) (T0 := T3) (T1 := T4)
          k3' h1 (by norm_num) (by norm_num) b07_close (by norm_num [b07])
          (by decide +kernel) (h2.trans h3) h4 h5 (by linarith))
        by_cases k4 : q ≤ 7/10
        · rw [if_pos k4]
          have w0 : -(1/2^25) ≤ q - 7/10 := by
            have := (abs_le.mp b07_close).1; linarith
          unfold Pedal.line at this ⊢
          have e1 : (q - 7/10) / (1 - 7/10) = (q - 7/10) * (10/3) := by ring
          have e2 : (q - 1/2) / (7/10 - 1/2) = 1 + (q - 7/10) * 5 := by ring
          rw [e1] at this
          rw [e2, abs_le]
          norm_num at w0 this ⊢
          constructor <;> nlinarith [this.1, this.2]
        · rw [if_neg k4, abs_le]
          norm_num at this ⊢
          constructor <;> linarith [this.1, this.2]

/-! ## The claim -/

/-- Newton metres the curve of the direction asks for; a pedal value that is no number asks for
nothing. -/
def curveOf (s : Thr) : F32 → ℚ
  | .fin x => if s.direction = 1 then Pedal.forward x else Pedal.backward x
  | _ => 0

/-- C136, the torque asked for: within a thousandth of a newton metre of the curve, for every pedal
value of the format. -/
theorem C136_follows_the_curve (s : Thr) (a : F32) (hen : s.enabled = true)
    (hdir : s.direction = 1 ∨ s.direction = 0) :
    ∃ v, (tick s (some a)).torque = fin v ∧ |v - curveOf s a| ≤ 1/1000 := by
  have out : ¬ ((fin 0).le a = true ∧ a.le (fin 1) = true) → curveOf s a = 0 →
      ∃ v, (tick s (some a)).torque = fin v ∧ |v - curveOf s a| ≤ 1/1000 := by
    intro h cz
    have z := C13_zero_outside a h
    rw [cz]
    rcases hdir with h | h
    · exact ⟨0, ((C14_requested_torque s (some a)).2.1 _ hen rfl h).trans z.1, by norm_num⟩
    · exact ⟨0, ((C14_requested_torque s (some a)).2.2.1 _ hen rfl h).trans z.2, by norm_num⟩
  cases a with
  | nan => exact out (by simp [F32.le]) rfl
  | pinf => exact out (by simp [F32.le]) rfl
  | ninf => exact out (by simp [F32.le]) rfl
  | fin x =>
    by_cases hx : 0 ≤ x ∧ x ≤ 1
    · rcases hdir with h | h
      · refine ⟨_, (((C14_requested_torque s (some (fin x))).2.1 _ hen rfl h).trans
          (forward_mapV hx.1 hx.2)), ?_⟩
        simp only [curveOf]; rw [if_pos h]
        exact mapV_close (by norm_num) (by norm_num) (by norm_num) (by norm_num) (by norm_num)
          (by norm_num) (by norm_num) hx.1 hx.2
      · refine ⟨_, (((C14_requested_torque s (some (fin x))).2.2.1 _ hen rfl h).trans
          (reverse_mapV hx.1 hx.2)), ?_⟩
        simp only [curveOf]; rw [if_neg (by rw [h]; decide)]
        exact mapV_close (by norm_num) (by norm_num) (by norm_num) (by norm_num) (by norm_num)
          (by norm_num) (by norm_num) hx.1 hx.2
    · have o : x < 0 ∨ 1 < x := by
        by_cases h0 : 0 ≤ x
        · exact Or.inr (not_le.mp fun h => hx ⟨h0, h⟩)
        · exact Or.inl (not_le.mp h0)
      have ez : ∀ a b c, Pedal.curve a b c x = 0 := fun a b c => by unfold Pedal.curve; rw [if_pos o]
      refine out (by rw [le_fin, le_fin, decide_eq_true_eq, decide_eq_true_eq]; exact hx) ?_
      simp only [curveOf]
      split_ifs
      · exact ez _ _ _
      · exact ez _ _ _

/-- Three quarters of the travel ask for 250 Nm. -/
example : Pedal.forward (3/4) = 250 ∧
    (tick ⟨true, 1⟩ (some (fin (3/4)))).torque = fin 250 := by decide +kernel

/-- C136, the frame: a healthy activation with the inverter enabled puts exactly one command on the
bus, for the chosen direction, enabled, not discharging, and the torque the inverter reads in it (in
tenths of a newton metre) is at most 1.02 counts below and 0.02 counts above the curve. -/
theorem C136_frame_follows_the_curve (s : Thr) (a : F32) (hx : IsFloat a) (hen : s.enabled = true)
    (hdir : s.direction = 1 ∨ s.direction = 0) (c : Cmd) (hc : c.inverterEnabled = true)
    (e : Env) (he : e.lock = true) :
    ∃ f, requestMotorTorque c e (tick s (some a)) =
        .ok ⟨c, [f], if f.accepted then .ok else .errorCan⟩ ∧
      f.msgId = 0x0C0 ∧ f.accepted = e.can 0 ∧
      10 * curveOf s a - 102/100 < torqueField f.bytes ∧
      (torqueField f.bytes : ℚ) ≤ 10 * curveOf s a + 2/100 ∧
      (directionBit f.bytes = true ↔ s.direction = 1) ∧ enableBit f.bytes = true ∧
      dischargeBit f.bytes = false ∧ RestZero f.bytes := by
  obtain ⟨v, hv, hcl⟩ := C136_follows_the_curve s a hen hdir
  obtain ⟨⟨v', hv', h0, h1⟩, -⟩ := C14_always_representable s (some a)
    (fun b hb => by cases hb; exact hx) c e
  have : v' = v := by rw [hv] at hv'; cases hv'; rfl
  subst this
  have e10 : F32.round 10 = fin 10 := by decide +kernel
  have hr : (F32.round 10).mul (fin v') = fin (rnd (10 * v')) := by
    rw [e10, mul_fin, round_eq]
    rw [abs_le]; constructor <;> norm_num <;> linarith
  have re := abs_le.mp (rnd_err_le (x := 10 * v') (k := 13)
    (by rw [abs_le]; constructor <;> norm_num <;> linarith) (by norm_num))
  norm_num [zpow_neg] at re
  have r0 : 0 ≤ rnd (10 * v') := rnd_nonneg (by linarith)
  obtain ⟨m, hm, m0, m1⟩ := torqueToMsg_small h0 h1
  have mt : m = ⌊rnd (10 * v')⌋ := by
    have ht : trunc (rnd (10 * v')) = ⌊rnd (10 * v')⌋ := by unfold trunc; rw [if_pos r0]
    unfold torqueToMsg at hm
    rw [hr] at hm
    simp only [toInt16?, ht] at hm
    split_ifs at hm with hh
    cases hm; rfl
  have fl : (m : ℚ) ≤ rnd (10 * v') := by rw [mt]; exact Int.floor_le _
  have fu : rnd (10 * v') < m + 1 := by rw [mt]; exact Int.lt_floor_add_one _
  have hmax : maxTorque = fin (13421363/4096) := by decide +kernel
  have c1 : ((fin v').lt (fin 0) || (fin v').gt maxTorque) = false := by
    rw [hmax, lt_fin, gt_fin, Bool.or_eq_false_iff]
    constructor <;> rw [decide_eq_false_iff_not] <;> intro h
    · linarith
    · norm_num at h; linarith
  have dec := C21_frame_decodes m (by constructor <;> omega) s.direction true false
  have hcl' := abs_le.mp hcl
  norm_num at hcl'
  refine ⟨⟨0x0C0, commandBytes m s.direction true false, e.can 0⟩, ?_, rfl, rfl, ?_, ?_, ?_, ?_⟩
  · unfold requestMotorTorque sendTorqueCommand
    rw [hv, c1, he, hc]
    simp only [Bool.false_eq_true, if_false, Bool.not_true, sendCANCommand, hm]
    rfl
  · dsimp only; rw [dec.1]; linarith [hcl'.1, hcl'.2, re.1, re.2]
  · dsimp only; rw [dec.1]; linarith [hcl'.1, hcl'.2, re.1, re.2]
  · dsimp only; rw [dec.2.1]
    rcases hdir with h | h <;> rw [h] <;> decide
  · exact dec.2.2

/-- The float next to 0.6 of the travel asks for just over 150 Nm on the curve; the frame carries
149.9 or 150 Nm, in tenths. -/
example : ((requestMotorTorque ⟨true, false⟩ ⟨true, fun _ => true⟩
      (tick ⟨true, 1⟩ (some (F32.round (6/10))))).map
    fun r => r.sent.map fun f => (torqueField f.bytes, directionBit f.bytes)) = .ok [(1500, true)] ∧
    ((requestMotorTorque ⟨true, false⟩ ⟨true, fun _ => true⟩
      (tick ⟨true, 0⟩ (some (F32.round (3/10))))).map
    fun r => r.sent.map fun f => (torqueField f.bytes, directionBit f.bytes)) = .ok [(100, false)] := by
  decide +kernel

end Verif.Throttle
