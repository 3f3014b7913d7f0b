import Verif.C.Float32
import Mathlib.Tactic.Linarith
import Mathlib.Tactic.Positivity
import Mathlib.Tactic.FieldSimp
import Mathlib.Tactic.Ring
import Mathlib.Tactic.NormNum

set_option autoImplicit false

/-!
# binary32 bit patterns

`value u` is the float with bit pattern `u` (IEEE 754 interchange format), `exists_bits`
says that every float has a pattern.
-/

namespace Verif.F32

/-- The number with significand `f` and exponent field `e` (`e < 255`). For the bytes copied at
periodicupdates.c 70. -/
def magnitude (e f : Nat) : ℚ :=
  if e = 0 then (f : ℚ) * (2 : ℚ) ^ (-149 : ℤ) else ((2 ^ 23 + f : Nat) : ℚ) * (2 : ℚ) ^ ((e : ℤ) - 150)

/-- The float with bit pattern `u`: sign bit 31, exponent bits 23-30, fraction bits
0-22. For the bytes copied at periodicupdates.c 70. -/
def value (u : UInt32) : F32 :=
  let e := u.toNat / 2 ^ 23 % 256
  let f := u.toNat % 2 ^ 23
  let neg := 2 ^ 31 ≤ u.toNat
  if e = 255 then
    if f = 0 then (if neg then ninf else pinf) else nan
  else if neg then fin (- magnitude e f) else fin (magnitude e f)

/-- The number whose pattern, as an integer below the infinity pattern, is `n`. -/
theorem magnitude_of (k : ℤ) (m : ℤ) (hk : -126 ≤ k) (hk2 : k ≤ 127) (hm0 : 0 ≤ m) (hm : m < 2 ^ 24)
    (hn : -126 < k → 2 ^ 23 ≤ m) :
    ∃ n : Nat, n < 255 * 2 ^ 23 ∧ magnitude (n / 2 ^ 23 % 256) (n % 2 ^ 23) = (m : ℚ) * (2 : ℚ) ^ (k - 23) := by
  obtain ⟨a, rfl⟩ := Int.eq_ofNat_of_zero_le hm0
  obtain ⟨j, hj⟩ := Int.eq_ofNat_of_zero_le (show 0 ≤ k + 126 by omega)
  have hj' : k = (j : ℤ) - 126 := by omega
  subst hj'
  have ha : a < 2 ^ 24 := by exact_mod_cast hm
  have hj2 : j ≤ 253 := by omega
  refine ⟨j * 2 ^ 23 + a, by omega, ?_⟩
  by_cases hb : a < 2 ^ 23
  · have hj0 : j = 0 := by
      by_contra hc
      have := hn (by omega)
      omega
    subst hj0
    have e1 : (0 * 2 ^ 23 + a) / 2 ^ 23 % 256 = 0 := by omega
    have e2 : (0 * 2 ^ 23 + a) % 2 ^ 23 = a := by omega
    rw [e1, e2]
    unfold magnitude
    rw [if_pos rfl]
    norm_num
  · have e1 : (j * 2 ^ 23 + a) / 2 ^ 23 % 256 = j + 1 := by omega
    have e2 : (j * 2 ^ 23 + a) % 2 ^ 23 = a - 2 ^ 23 := by omega
    rw [e1, e2]
    unfold magnitude
    rw [if_neg (by omega), show 2 ^ 23 + (a - 2 ^ 23) = a by omega]
    push_cast
    congr 2
    ring

theorem exists_magnitude (q : ℚ) (hq : 0 ≤ q) (hr : rnd q = q) (hb : q < 2 ^ 128) :
    ∃ n : Nat, n < 255 * 2 ^ 23 ∧ magnitude (n / 2 ^ 23 % 256) (n % 2 ^ 23) = q := by
  by_cases h0 : q = 0
  · subst h0
    exact ⟨0, by norm_num, by simp [magnitude]⟩
  have hpos : 0 < q := lt_of_le_of_ne hq (Ne.symm h0)
  have habs : |q| = q := abs_of_pos hpos
  have hp : (0 : ℚ) < (2 : ℚ) ^ (fexp q - 23) := two_zpow_pos _
  have hq2 : q = (rne (q / (2 : ℚ) ^ (fexp q - 23)) : ℚ) * (2 : ℚ) ^ (fexp q - 23) := by
    conv_lhs => rw [← hr]
    unfold rnd
    rw [if_neg h0]
  generalize hm : rne (q / (2 : ℚ) ^ (fexp q - 23)) = m at hq2
  have hlow : -126 ≤ fexp q := le_max_right _ _
  have hup : q < (2 : ℚ) ^ (fexp q + 1) := by
    have := abs_lt_two_fexp (x := q)
    rwa [habs] at this
  have hsplit : (2 : ℚ) ^ (fexp q + 1) = 2 ^ 24 * (2 : ℚ) ^ (fexp q - 23) := by
    rw [show fexp q + 1 = 24 + (fexp q - 23) by ring, zpow_add₀ (by norm_num)]
    norm_num
  have hm24 : m < 2 ^ 24 := by
    have h1 : (m : ℚ) * (2 : ℚ) ^ (fexp q - 23) < 2 ^ 24 * (2 : ℚ) ^ (fexp q - 23) := by
      rw [← hq2, ← hsplit]; exact hup
    have := lt_of_mul_lt_mul_right h1 hp.le
    exact_mod_cast this
  have hm0 : 0 ≤ m := by
    have h1 : (0 : ℚ) * (2 : ℚ) ^ (fexp q - 23) ≤ (m : ℚ) * (2 : ℚ) ^ (fexp q - 23) := by
      rw [← hq2, zero_mul]; exact hq
    have := le_of_mul_le_mul_right h1 hp
    exact_mod_cast this
  have hn : -126 < fexp q → 2 ^ 23 ≤ m := by
    intro h
    have h1 := two_fexp_le h0 h
    rw [habs] at h1
    have h2 : (2 : ℚ) ^ (fexp q) = 2 ^ 23 * (2 : ℚ) ^ (fexp q - 23) := by
      rw [show fexp q = 23 + (fexp q - 23) by ring, zpow_add₀ (by norm_num)]
      norm_num
    rw [h2, hq2] at h1
    have hfx : fexp ((m : ℚ) * (2 : ℚ) ^ (fexp q - 23)) = fexp q := by rw [← hq2]
    rw [hfx] at h1
    have := le_of_mul_le_mul_right h1 hp
    exact_mod_cast this
  have hk : fexp q ≤ 127 := by
    by_contra hc
    have h1 := two_fexp_le h0 (by omega)
    rw [habs] at h1
    have h2 : (2 : ℚ) ^ (128 : ℤ) ≤ (2 : ℚ) ^ (fexp q) := zpow_le_zpow_right₀ (by norm_num) (by omega)
    have h3 : (2 : ℚ) ^ (128 : ℤ) = 2 ^ 128 := by norm_cast
    linarith
  obtain ⟨n, h1, h2⟩ := magnitude_of (fexp q) m hlow hk hm0 hm24 hn
  exact ⟨n, h1, by rw [h2]; exact hq2.symm⟩

/-- Every float has a bit pattern. -/
theorem exists_bits (x : F32) (h : IsFloat x) : ∃ u, value u = x := by
  cases x with
  | nan => exact ⟨0x7FC00000, rfl⟩
  | pinf => exact ⟨0x7F800000, rfl⟩
  | ninf => exact ⟨0xFF800000, rfl⟩
  | fin q =>
    obtain ⟨h1, h2⟩ := h
    by_cases hq : 0 ≤ q
    · rw [abs_of_nonneg hq] at h2
      obtain ⟨n, g1, g2⟩ := exists_magnitude q hq h1 h2
      refine ⟨UInt32.ofNat n, ?_⟩
      have hn : (UInt32.ofNat n).toNat = n := UInt32.toNat_ofNat_of_lt' (by show n < 2 ^ 32; omega)
      unfold value
      rw [hn]
      dsimp only
      rw [if_neg (by omega), if_neg (by omega), g2]
    · have hq' : 0 ≤ -q := by linarith
      rw [abs_of_neg (by linarith)] at h2
      obtain ⟨n, g1, g2⟩ := exists_magnitude (-q) hq' (by rw [rnd_neg, h1]) h2
      refine ⟨UInt32.ofNat (n + 2 ^ 31), ?_⟩
      have hn : (UInt32.ofNat (n + 2 ^ 31)).toNat = n + 2 ^ 31 := UInt32.toNat_ofNat_of_lt' (by show n + 2 ^ 31 < 2 ^ 32; omega)
      have e1 : (n + 2 ^ 31) / 2 ^ 23 % 256 = n / 2 ^ 23 % 256 := by omega
      have e2 : (n + 2 ^ 31) % 2 ^ 23 = n % 2 ^ 23 := by omega
      unfold value
      rw [hn]
      dsimp only
      rw [e1, e2, if_neg (by omega), if_pos (by omega), g2, neg_neg]

example : value 0x40490FDB = .fin (13176795 / 4194304) := by decide +kernel

end Verif.F32
