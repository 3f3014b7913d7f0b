import Verif.Model.DiscreteSense
import Verif.Props.Adc
import Mathlib.Tactic.Positivity
import Mathlib.Tactic.FieldSimp
import Mathlib.Tactic.NormNum

set_option autoImplicit false

/-!
# C50, C51: calibration and publication of the pedal and brake sensors
-/

namespace Verif

theorem rnd_form (x : ℚ) : ∃ m k : ℤ, rnd x = (m : ℚ) * (2 : ℚ) ^ k ∧ |m| ≤ 2 ^ 24 ∧ -149 ≤ k := by
  by_cases h0 : x = 0
  · exact ⟨0, 0, by simp [h0, rnd_zero], by norm_num, by norm_num⟩
  refine ⟨rne (x / (2 : ℚ) ^ (fexp x - 23)), fexp x - 23, by unfold rnd; rw [if_neg h0], ?_, ?_⟩
  · have hp : (0 : ℚ) < (2 : ℚ) ^ (fexp x - 23) := two_zpow_pos _
    have hup := abs_lt_two_fexp (x := x)
    have hsplit : (2 : ℚ) ^ (fexp x + 1) = 2 ^ 24 * (2 : ℚ) ^ (fexp x - 23) := by
      rw [show fexp x + 1 = 24 + (fexp x - 23) by ring, zpow_add₀ (by norm_num)]
      norm_num
    rw [hsplit] at hup
    have ha : |x / (2 : ℚ) ^ (fexp x - 23)| ≤ 2 ^ 24 := by
      rw [abs_div, abs_of_pos hp, div_le_iff₀ hp]; exact hup.le
    obtain ⟨h1, h2⟩ := abs_le.1 ha
    rw [abs_le]
    exact ⟨le_rne_of_int_le (by push_cast; linarith), rne_le_of_le_int (by push_cast; linarith)⟩
  · have : -126 ≤ fexp x := le_max_right _ _
    omega

theorem rnd_rnd (x : ℚ) : rnd (rnd x) = rnd x := by
  obtain ⟨m, k, h, hm, hk⟩ := rnd_form x
  rw [h, rnd_exact m k hm hk]

theorem rnd_two_mul (x : ℚ) (h : rnd x = x) : rnd (2 * x) = 2 * x := by
  obtain ⟨m, k, h', hm, hk⟩ := rnd_form x
  have e : 2 * x = (m : ℚ) * (2 : ℚ) ^ (k + 1) := by
    rw [zpow_add₀ (by norm_num), zpow_one, ← h, h']; ring
  rw [e, rnd_exact m (k + 1) hm (by omega)]

end Verif

namespace Verif.Adc
open F32

/-- The exact calibrated fraction of a reading. -/
def fraction (lower upper raw : UInt16) : ℚ :=
  ((raw.toNat : ℚ) - lower.toNat) / ((upper.toNat : ℚ) - lower.toNat)

theorem fraction_abs (lower upper raw : UInt16) (h : lower ≠ upper) :
    |fraction lower upper raw| ≤ 2 ^ 24 := by
  have h1 := raw.toNat_lt
  have h2 := lower.toNat_lt
  have h3 := upper.toNat_lt
  have hne : lower.toNat ≠ upper.toNat := fun e => h (UInt16.toNat_inj.1 e)
  unfold fraction
  have e1 : ((raw.toNat : ℚ) - lower.toNat) = (((raw.toNat : ℤ) - lower.toNat : ℤ) : ℚ) := by push_cast; rfl
  have e2 : ((upper.toNat : ℚ) - lower.toNat) = (((upper.toNat : ℤ) - lower.toNat : ℤ) : ℚ) := by push_cast; rfl
  rw [e1, e2, abs_div, div_le_iff₀ (by rw [abs_pos]; exact Int.cast_ne_zero.2 (by omega))]
  have hn : |(((raw.toNat : ℤ) - lower.toNat : ℤ) : ℚ)| ≤ 2 ^ 16 := by
    rw [← Int.cast_abs]
    have : |((raw.toNat : ℤ) - lower.toNat)| ≤ 2 ^ 16 := by rw [abs_le]; constructor <;> omega
    exact_mod_cast this
  have hd : (1 : ℚ) ≤ |(((upper.toNat : ℤ) - lower.toNat : ℤ) : ℚ)| := by
    rw [← Int.cast_abs]
    have : 1 ≤ |((upper.toNat : ℤ) - lower.toNat)| := Int.one_le_abs (by omega)
    exact_mod_cast this
  nlinarith

theorem applyScaling_eq (sc : Scaling) (raw : UInt16) (h : sc.lower ≠ sc.upper)
    (hs : sc.saturate = true) :
    applyScaling sc raw = fin (max 0 (min 1 (rnd (fraction sc.lower sc.upper raw)))) := by
  have h1 := raw.toNat_lt
  have h2 := sc.lower.toNat_lt
  have h3 := sc.upper.toNat_lt
  have hne : sc.lower.toNat ≠ sc.upper.toNat := fun e => h (UInt16.toNat_inj.1 e)
  have hn : |((raw.toNat : ℤ) - sc.lower.toNat)| ≤ 2 ^ 24 := by rw [abs_le]; constructor <;> omega
  have hd : |((sc.upper.toNat : ℤ) - sc.lower.toNat)| ≤ 2 ^ 24 := by rw [abs_le]; constructor <;> omega
  have e : F32.div (ofInt ((raw.toNat : ℤ) - sc.lower.toNat)) (ofInt ((sc.upper.toNat : ℤ) - sc.lower.toNat)) =
      fin (rnd (fraction sc.lower sc.upper raw)) := by
    rw [ofInt_eq hn, ofInt_eq hd, div_fin _ _ (by
      have : ((sc.upper.toNat : ℤ) - sc.lower.toNat) ≠ 0 := by omega
      exact_mod_cast this)]
    have := round_eq (fraction_abs sc.lower sc.upper raw h)
    unfold fraction at this ⊢
    push_cast
    exact this
  unfold applyScaling
  dsimp only
  rw [e, hs, if_pos rfl, gt_fin, lt_fin]
  split_ifs with a b
  · simp only [decide_eq_true_eq] at a
    rw [min_eq_left a.le, max_eq_right zero_le_one]
  · simp only [decide_eq_true_eq] at b
    rw [min_eq_right (by linarith), max_eq_left b.le]
  · simp only [decide_eq_true_eq, not_lt] at a b
    rw [min_eq_right a, max_eq_right b]

/-- C50: for distinct calibration points with saturation the result is a number in [0,1],
exactly 0 at and beyond the lower point and 1 at and beyond the upper point, monotone from
the one to the other, and within `2^-25` of the exact calibrated fraction in between. -/
theorem C50_scaling (sc : Scaling) (h : sc.lower ≠ sc.upper) (hs : sc.saturate = true) :
    (∀ raw, ∃ q, applyScaling sc raw = fin q ∧ rnd q = q ∧ 0 ≤ q ∧ q ≤ 1) ∧
    applyScaling sc sc.lower = fin 0 ∧ applyScaling sc sc.upper = fin 1 ∧
    (∀ raw, fraction sc.lower sc.upper raw ≤ 0 → applyScaling sc raw = fin 0) ∧
    (∀ raw, 1 ≤ fraction sc.lower sc.upper raw → applyScaling sc raw = fin 1) ∧
    (sc.lower < sc.upper → ∀ r1 r2, r1 ≤ r2 →
      F32.le (applyScaling sc r1) (applyScaling sc r2) = true) ∧
    (sc.upper < sc.lower → ∀ r1 r2, r1 ≤ r2 →
      F32.le (applyScaling sc r2) (applyScaling sc r1) = true) ∧
    (∀ raw q, 0 ≤ fraction sc.lower sc.upper raw → fraction sc.lower sc.upper raw ≤ 1 →
      applyScaling sc raw = fin q → |q - fraction sc.lower sc.upper raw| ≤ (2 : ℚ) ^ (-25 : ℤ)) := by
  have hne : sc.lower.toNat ≠ sc.upper.toNat := fun e => h (UInt16.toNat_inj.1 e)
  have hsub : ((sc.upper.toNat : ℚ) - sc.lower.toNat) ≠ 0 := by
    intro e
    have : (sc.upper.toNat : ℚ) = sc.lower.toNat := by linarith
    exact hne (by exact_mod_cast this.symm)
  have lo : ∀ raw, fraction sc.lower sc.upper raw ≤ 0 → applyScaling sc raw = fin 0 := by
    intro raw hr
    rw [applyScaling_eq sc raw h hs]
    have := rnd_nonpos hr
    rw [min_eq_right (by linarith), max_eq_left this]
  have hi : ∀ raw, 1 ≤ fraction sc.lower sc.upper raw → applyScaling sc raw = fin 1 := by
    intro raw hr
    rw [applyScaling_eq sc raw h hs]
    have := rnd_mono hr
    rw [rnd_one] at this
    rw [min_eq_left this, max_eq_right zero_le_one]
  have mono : ∀ r1 r2, fraction sc.lower sc.upper r1 ≤ fraction sc.lower sc.upper r2 →
      F32.le (applyScaling sc r1) (applyScaling sc r2) = true := by
    intro r1 r2 hr
    rw [applyScaling_eq sc r1 h hs, applyScaling_eq sc r2 h hs, le_fin, decide_eq_true_eq]
    exact max_le_max_left _ (min_le_min_left _ (rnd_mono hr))
  refine ⟨?_, lo _ (by simp [fraction]), hi _ (by unfold fraction; rw [div_self hsub]), lo, hi, ?_, ?_, ?_⟩
  · intro raw
    refine ⟨_, applyScaling_eq sc raw h hs, ?_, le_max_left _ _, max_le zero_le_one (min_le_left _ _)⟩
    rcases max_choice 0 (min 1 (rnd (fraction sc.lower sc.upper raw))) with e | e <;> rw [e]
    · exact rnd_zero
    · rcases min_choice 1 (rnd (fraction sc.lower sc.upper raw)) with e | e <;> rw [e]
      · exact rnd_one
      · exact rnd_rnd _
  · intro hlt r1 r2 hr
    refine mono r1 r2 ?_
    have h1 : (sc.lower.toNat : ℚ) < sc.upper.toNat := by exact_mod_cast UInt16.lt_iff_toNat_lt.1 hlt
    have h2 : (r1.toNat : ℚ) ≤ r2.toNat := by exact_mod_cast UInt16.le_iff_toNat_le.1 hr
    unfold fraction
    rw [div_le_div_iff_of_pos_right (by linarith)]
    linarith
  · intro hlt r1 r2 hr
    refine mono r2 r1 ?_
    have h1 : (sc.upper.toNat : ℚ) < sc.lower.toNat := by exact_mod_cast UInt16.lt_iff_toNat_lt.1 hlt
    have h2 : (r1.toNat : ℚ) ≤ r2.toNat := by exact_mod_cast UInt16.le_iff_toNat_le.1 hr
    unfold fraction
    rw [div_le_div_right_of_neg (by linarith)]
    linarith
  · intro raw q h0 h1 hq
    rw [applyScaling_eq sc raw h hs] at hq
    have e : rnd (fraction sc.lower sc.upper raw) = q := by
      have a := rnd_nonneg h0
      have b : rnd (fraction sc.lower sc.upper raw) ≤ 1 := by
        have := rnd_mono h1; rwa [rnd_one] at this
      rw [min_eq_right b, max_eq_right a] at hq
      exact F32.fin.inj hq
    rw [← e]
    have := rnd_err_le (x := fraction sc.lower sc.upper raw) (k := 0)
      (by rw [abs_of_nonneg h0]; simpa using h1) (by norm_num)
    simpa using this

example : applyScaling ⟨0, 4095, true⟩ 2048 = fin (8390657 / 2 ^ 24) := by decide +kernel
example : applyScaling ⟨4095, 0, true⟩ 0 = fin 1 := by decide +kernel
example : applyScaling ⟨1000, 3000, true⟩ 65535 = fin 1 := by decide +kernel

/-- Equal calibration points give NaN or an infinity that saturates; the reading equal to
both points is never saturated. Nothing rejects such a configuration. -/
theorem C50_equal_points (v : UInt16) : applyScaling ⟨v, v, true⟩ v = nan := by
  have h := v.toNat_lt
  unfold applyScaling
  dsimp only
  rw [sub_self, ofInt_eq (by norm_num)]
  simp [F32.div, F32.gt, F32.lt]

end Verif.Adc

namespace Verif.DiscreteSense
open Adc F32

/-- Specification of one published sensor: after an unsuccessful reading nothing changes,
after a successful one the raw value is published and the value is its calibrated
fraction, clamped to [0,1], to within `2^-25`. -/
def Sensor (lower upper : UInt16) (r : Status × UInt16) (old new : F32) (oldRaw newRaw : UInt16) :
    Prop :=
  if r.1 = .ok then newRaw = r.2 ∧ ∃ q, new = fin q ∧ 0 ≤ q ∧ q ≤ 1 ∧
    |q - max 0 (min 1 (((r.2.toNat : ℚ) - lower.toNat) / ((upper.toNat : ℚ) - lower.toNat)))| ≤
      (2 : ℚ) ^ (-25 : ℤ)
  else new = old ∧ newRaw = oldRaw

theorem scaled (sc : Scaling) (h : sc.lower ≠ sc.upper) (hs : sc.saturate = true) (raw : UInt16) :
    ∃ q, applyScaling sc raw = fin q ∧ rnd q = q ∧ 0 ≤ q ∧ q ≤ 1 ∧
      |q - max 0 (min 1 (fraction sc.lower sc.upper raw))| ≤ (2 : ℚ) ^ (-25 : ℤ) := by
  obtain ⟨hr, _, _, lo, hi, _, _, acc⟩ := C50_scaling sc h hs
  obtain ⟨q, hq, h1, h2, h3⟩ := hr raw
  refine ⟨q, hq, h1, h2, h3, ?_⟩
  rcases le_total (fraction sc.lower sc.upper raw) 0 with a | a
  · have := (lo raw a).symm.trans hq
    rw [← F32.fin.inj this, min_eq_right (by linarith), max_eq_left a]
    simp
  · rcases le_total 1 (fraction sc.lower sc.upper raw) with b | b
    · have := (hi raw b).symm.trans hq
      rw [← F32.fin.inj this, min_eq_left b, max_eq_right zero_le_one]
      simp
    · rw [min_eq_right b, max_eq_right a]
      exact acc raw q a b hq

theorem average (a b : ℚ) (ha : rnd a = a) (hb : rnd b = b) (a0 : 0 ≤ a) (a1 : a ≤ 1)
    (b0 : 0 ≤ b) (b1 : b ≤ 1) :
    ∃ q, F32.mul (.fin (1 / 2)) (F32.add (fin a) (fin b)) = fin q ∧ min a b ≤ q ∧ q ≤ max a b ∧
      |q - (a + b) / 2| ≤ (2 : ℚ) ^ (-24 : ℤ) := by
  have h0 : |a + b| ≤ 2 ^ 24 := by rw [abs_le]; constructor <;> norm_num <;> linarith
  have hmx : rnd (max a b) = max a b := by rcases max_choice a b with e | e <;> rw [e] <;> assumption
  have hmn : rnd (min a b) = min a b := by rcases min_choice a b with e | e <;> rw [e] <;> assumption
  have hu : rnd (a + b) ≤ 2 * max a b := by
    rw [← rnd_two_mul _ hmx]
    exact rnd_mono (by have := le_max_left a b; have := le_max_right a b; linarith)
  have hl : 2 * min a b ≤ rnd (a + b) := by
    rw [← rnd_two_mul _ hmn]
    exact rnd_mono (by have := min_le_left a b; have := min_le_right a b; linarith)
  have hx1 : max a b ≤ 1 := max_le a1 b1
  have hn0 : 0 ≤ min a b := le_min a0 b0
  have h1 : |1 / 2 * rnd (a + b)| ≤ 2 ^ 24 := by rw [abs_le]; constructor <;> norm_num <;> linarith
  refine ⟨rnd (1 / 2 * rnd (a + b)), ?_, ?_, ?_, ?_⟩
  · rw [add_fin, round_eq h0, mul_fin, round_eq h1]
  · rw [← hmn]; exact rnd_mono (by linarith)
  · rw [← hmx]; exact rnd_mono (by linarith)
  · have e1 := rnd_err_le (x := a + b) (k := 1) (by rw [abs_of_nonneg (by linarith)]; norm_num; linarith) (by norm_num)
    have e2 := rnd_err_le (x := 1 / 2 * rnd (a + b)) (k := 0)
      (by rw [abs_of_nonneg (by linarith)]; norm_num; linarith) (by norm_num)
    have p1 : (2 : ℚ) ^ ((1 : ℤ) - 25) = (2 : ℚ) ^ (-24 : ℤ) := by norm_num
    have p2 : (2 : ℚ) ^ ((0 : ℤ) - 25) = (2 : ℚ) ^ (-24 : ℤ) / 2 := by
      rw [show (0 : ℤ) - 25 = -24 - 1 by norm_num, zpow_sub₀ (by norm_num), zpow_one]
    rw [p1] at e1
    rw [p2] at e2
    clear p1 p2
    generalize (2 : ℚ) ^ (-24 : ℤ) = ε at *
    rw [abs_le] at e1 e2 ⊢
    constructor <;> linarith [e1.1, e1.2, e2.1, e2.2]

theorem tick_eq (c : Cfg) (r : Reads) (d : VData) (hq : r.acquired = true) :
    tick c r d = { d with
      inputs :=
        { accel := if r.accelA.1 = .ok ∧ r.accelB.1 = .ok then
            F32.mul (.fin (1 / 2)) (F32.add (applyScaling c.accelA r.accelA.2)
              (applyScaling c.accelB r.accelB.2)) else d.inputs.accel
          accelA := if r.accelA.1 = .ok then applyScaling c.accelA r.accelA.2 else d.inputs.accelA
          accelB := if r.accelB.1 = .ok then applyScaling c.accelB r.accelB.2 else d.inputs.accelB
          accelRawA := if r.accelA.1 = .ok then r.accelA.2 else d.inputs.accelRawA
          accelRawB := if r.accelB.1 = .ok then r.accelB.2 else d.inputs.accelRawB
          accelValid := if r.accelA.1 = .ok ∧ r.accelB.1 = .ok then true else d.inputs.accelValid
          brakePresFront := if r.brakeFront.1 = .ok then
            applyScaling c.brakeFront r.brakeFront.2 else d.inputs.brakePresFront
          brakePresRear := if r.brakeRear.1 = .ok then
            applyScaling c.brakeRear r.brakeRear.2 else d.inputs.brakePresRear
          brakeRawFront := if r.brakeFront.1 = .ok then r.brakeFront.2 else d.inputs.brakeRawFront
          brakeRawRear := if r.brakeRear.1 = .ok then r.brakeRear.2 else d.inputs.brakeRawRear }
      dash := { d.dash with buttonPressed := r.button } } := by
  unfold tick
  dsimp only
  rw [if_pos hq]
  generalize applyScaling c.accelA _ = A
  generalize applyScaling c.accelB _ = B
  generalize applyScaling c.brakeFront _ = F
  generalize applyScaling c.brakeRear _ = R
  generalize F32.mul _ _ = M
  congr 1
  obtain ⟨i1, i2, i3, i4, i5, i6, i7, i8, i9, i10⟩ := d.inputs
  unfold pubA pubB pubAccel pubFront pubRear
  by_cases cA : r.accelA.1 = .ok <;> by_cases cB : r.accelB.1 = .ok <;>
  by_cases cF : r.brakeFront.1 = .ok <;> by_cases cR : r.brakeRear.1 = .ok <;>
    simp only [cA, cB, cF, cR, if_true, if_false, and_self, and_false, false_and]

/-- C51: one sensor tick that obtains the state. Each sensor follows `Sensor`; the averaged
accelerator changes only if both pedal readings succeeded, and is then valid, between the
two published pedal values, and within `2^-24` of their mean; the button is published; no
other vehicle data changes. -/
theorem C51_publication (cfg : Config) (r : Reads) (d : VData) (hq : r.acquired = true)
    (hA : cfg.inputs.accelPedal.calibrationA.rawLower ≠ cfg.inputs.accelPedal.calibrationA.rawUpper)
    (hB : cfg.inputs.accelPedal.calibrationB.rawLower ≠ cfg.inputs.accelPedal.calibrationB.rawUpper)
    (hF : cfg.inputs.brakePressureFront.rawLower ≠ cfg.inputs.brakePressureFront.rawUpper)
    (hR : cfg.inputs.brakePressureRear.rawLower ≠ cfg.inputs.brakePressureRear.rawUpper) :
    let d' := tick (cfgOf cfg) r d
    let o := d.inputs
    let p := d'.inputs
    Sensor cfg.inputs.accelPedal.calibrationA.rawLower cfg.inputs.accelPedal.calibrationA.rawUpper
      r.accelA o.accelA p.accelA o.accelRawA p.accelRawA ∧
    Sensor cfg.inputs.accelPedal.calibrationB.rawLower cfg.inputs.accelPedal.calibrationB.rawUpper
      r.accelB o.accelB p.accelB o.accelRawB p.accelRawB ∧
    Sensor cfg.inputs.brakePressureFront.rawLower cfg.inputs.brakePressureFront.rawUpper
      r.brakeFront o.brakePresFront p.brakePresFront o.brakeRawFront p.brakeRawFront ∧
    Sensor cfg.inputs.brakePressureRear.rawLower cfg.inputs.brakePressureRear.rawUpper
      r.brakeRear o.brakePresRear p.brakePresRear o.brakeRawRear p.brakeRawRear ∧
    (if r.accelA.1 = .ok ∧ r.accelB.1 = .ok then
        p.accelValid = true ∧ ∃ a b q, p.accelA = fin a ∧ p.accelB = fin b ∧ p.accel = fin q ∧
          min a b ≤ q ∧ q ≤ max a b ∧ 0 ≤ q ∧ q ≤ 1 ∧ |q - (a + b) / 2| ≤ (2 : ℚ) ^ (-24 : ℤ)
      else p.accelValid = o.accelValid ∧ p.accel = o.accel) ∧
    d' = { d with inputs := p, dash := { d.dash with buttonPressed := r.button } } := by
  intro d' o p
  have hd : d' = _ := tick_eq (cfgOf cfg) r d hq
  have hp : p = _ := congrArg VData.inputs hd
  obtain ⟨qA, eA, fA, a0, a1, accA⟩ := scaled (cfgOf cfg).accelA hA rfl r.accelA.2
  obtain ⟨qB, eB, fB, b0, b1, accB⟩ := scaled (cfgOf cfg).accelB hB rfl r.accelB.2
  obtain ⟨qF, eF, fF, f0, f1, accF⟩ := scaled (cfgOf cfg).brakeFront hF rfl r.brakeFront.2
  obtain ⟨qR, eR, fR, r0, r1, accR⟩ := scaled (cfgOf cfg).brakeRear hR rfl r.brakeRear.2
  obtain ⟨q, eq, q1, q2, accq⟩ := average qA qB fA fB a0 a1 b0 b1
  have q0 : 0 ≤ q := le_trans (le_min a0 b0) q1
  have q3 : q ≤ 1 := le_trans q2 (max_le a1 b1)
  refine ⟨?_, ?_, ?_, ?_, ?_, ?_⟩
  · rw [Sensor, hp]
    dsimp only
    split
    · exact ⟨rfl, qA, eA, a0, a1, accA⟩
    · exact ⟨rfl, rfl⟩
  · rw [Sensor, hp]
    dsimp only
    split
    · exact ⟨rfl, qB, eB, b0, b1, accB⟩
    · exact ⟨rfl, rfl⟩
  · rw [Sensor, hp]
    dsimp only
    split
    · exact ⟨rfl, qF, eF, f0, f1, accF⟩
    · exact ⟨rfl, rfl⟩
  · rw [Sensor, hp]
    dsimp only
    split
    · exact ⟨rfl, qR, eR, r0, r1, accR⟩
    · exact ⟨rfl, rfl⟩
  · rw [hp]
    dsimp only
    split
    · rename_i h
      rw [if_pos h.1, if_pos h.2]
      exact ⟨rfl, qA, qB, q, eA, eB, by rw [eA, eB]; exact eq, q1, q2, q0, q3, accq⟩
    · exact ⟨rfl, rfl⟩
  · rw [hd, hp]

-- both pedals read, front brake not ready
example : (tick (cfgOf Config.default) ⟨(.ok, 4095), (.ok, 0), (.errNotReady, 0), (.ok, 4095), true, true⟩
    VData.zero).inputs =
    { VData.zero.inputs with
      accel := fin (1 / 2), accelA := fin 1, accelB := fin 0
      accelRawA := 4095, accelValid := true, brakePresRear := fin 1, brakeRawRear := 4095 } := by
  decide +kernel
-- one pedal fails: the average and its validity stay
example : (tick (cfgOf Config.default) ⟨(.ok, 4095), (.errNotReady, 0), (.ok, 0), (.ok, 0), false, true⟩
    VData.zero).inputs =
    { VData.zero.inputs with accelA := fin 1, accelRawA := 4095 } := by
  decide +kernel

/-- Nothing has ever been published but zeros. -/
def AllZero (i : Inputs) : Prop :=
  i.accel = fin 0 ∧ i.accelA = fin 0 ∧ i.accelB = fin 0 ∧ i.accelRawA = 0 ∧ i.accelRawB = 0 ∧
  i.brakePresFront = fin 0 ∧ i.brakePresRear = fin 0 ∧ i.brakeRawFront = 0 ∧ i.brakeRawRear = 0

theorem tick_zero (r : Reads) (d : VData) (h : AllZero d.inputs)
    (hA : r.accelA.2 = 0) (hB : r.accelB.2 = 0) (hF : r.brakeFront.2 = 0) (hR : r.brakeRear.2 = 0) :
    AllZero (tick (cfgOf Config.default) r d).inputs := by
  by_cases hq : r.acquired = true
  · rw [tick_eq _ _ _ hq, hA, hB, hF, hR]
    have e : applyScaling ⟨0, 4095, true⟩ 0 = fin 0 := by decide +kernel
    have e' : F32.mul (.fin (1 / 2)) (F32.add (fin 0) (fin 0)) = fin 0 := by decide +kernel
    obtain ⟨h1, h2, h3, h4, h5, h6, h7, h8, h9⟩ := h
    simp only [AllZero, cfgOf, Config.default, e, e', h1, h2, h3, h4, h5, h6, h7, h8, h9, ite_self,
      and_self]
  · unfold tick
    dsimp only
    rw [if_neg hq]
    exact h

theorem session_zero (c : Cfg) (hc : c = cfgOf Config.default) : ∀ (es : List Ev) (y : Sys) (d : VData),
    Packed y 12 → AllZero d.inputs →
    ∃ y' d', session shippedHw c y d es = .ok (y', d') ∧ AllZero d'.inputs
  | [], y, d, _, h => ⟨y, d, rfl, h⟩
  | .adc e :: es, y, d, p, h => by
    obtain ⟨y1, h1, p1⟩ := packed_step shippedHw rfl p e
    obtain ⟨y2, d2, h2, z⟩ := session_zero c hc es y1 d p1 h
    exact ⟨y2, d2, by rw [session, h1]; exact h2, z⟩
  | .tick b a :: es, y, d, p, h => by
    have hm : maxChannels = 16 := rfl
    have rd : ∀ ch, 6 ≤ ch → ch < 12 → ∃ s, adcGet y.st ch = .ok (s, 0) := by
      intro ch h1 h2
      have hA := p.bufA ch (by omega)
      have hB := p.bufB ch (by omega)
      unfold adcGet
      rw [p.num, if_neg (by omega)]
      cases y.st.activeA <;> cases y.st.validA <;> cases y.st.validB <;>
        simp only [Bool.false_eq_true, if_false, if_true, Adc.get, hA, hB,
          if_pos (show ch < maxChannels by omega)] <;> exact ⟨_, rfl⟩
    obtain ⟨s1, e1⟩ := rd 8 (by omega) (by omega)
    obtain ⟨s2, e2⟩ := rd 9 (by omega) (by omega)
    obtain ⟨s3, e3⟩ := rd 10 (by omega) (by omega)
    obtain ⟨s4, e4⟩ := rd 11 (by omega) (by omega)
    have ht : tickAdc c y.st b a d = .ok (tick c ⟨(s1, 0), (s2, 0), (s3, 0), (s4, 0), b, a⟩ d) := by
      rw [tickAdc, e1, e2, e3, e4]; rfl
    obtain ⟨y2, d2, h2, z⟩ := session_zero c hc es y
      (tick c ⟨(s1, 0), (s2, 0), (s3, 0), (s4, 0), b, a⟩ d) p
      (by rw [hc]; exact tick_zero ⟨(s1, 0), (s2, 0), (s3, 0), (s4, 0), b, a⟩ d h rfl rfl rfl rfl)
    exact ⟨y2, d2, by rw [session, ht, hc]; rw [hc] at h2; exact h2, z⟩

/-- C68, end to end: with the shipped converter set-up and default calibration, for every
history of samples, callbacks and sensor ticks, the published pedal and brake values never
leave 0, whatever the sensors deliver. -/
theorem C68_published_zero (s s' : St) (a : InitArgs) (es : List Ev)
    (hi : init s a = (.ok, s')) (hn : a.numChannelsUsed = 12) :
    ∃ y d, session shippedHw (cfgOf Config.default) ⟨s', 0⟩ VData.zero es = .ok (y, d) ∧
      AllZero d.inputs := by
  have f := init_fresh hi
  have e : a.numChannelsUsed.toNat = 12 := by rw [hn]; rfl
  rw [e] at f
  exact session_zero _ rfl es ⟨s', 0⟩ VData.zero
    ⟨f.num, by norm_num, f.bound, f.halfLen, f.cpltOff, f.cpltLen, fun j _ => f.dma j,
      fun j _ => f.bufA j, fun j _ => f.bufB j⟩ (by simp [AllZero, VData.zero, Verif.f0])

-- pedals fully pressed: all samples are 4095, and the published pedal is a valid 0
example : ((session shippedHw (cfgOf Config.default) ⟨(init boot args12).2, 0⟩ VData.zero
    ((List.replicate 6 (Ev.adc (.sample 4095))) ++ [.adc (.half 7)] ++
      (List.replicate 6 (Ev.adc (.sample 4095))) ++ [.adc (.cplt 7), .tick false true])).map
      fun p => (p.2.inputs.accel, p.2.inputs.accelValid)) = .ok (fin 0, true) := by
  decide +kernel
-- 32-bit continuous transfers publish the full pedal
example : ((session wordHw (cfgOf Config.default) ⟨(init boot args12).2, 0⟩ VData.zero
    ((List.replicate 6 (Ev.adc (.sample 4095))) ++ [.adc (.half 7)] ++
      (List.replicate 6 (Ev.adc (.sample 4095))) ++ [.adc (.cplt 7), .tick false true])).map
      fun p => (p.2.inputs.accel, p.2.inputs.accelValid)) = .ok (fin 1, true) := by
  decide +kernel

end Verif.DiscreteSense
