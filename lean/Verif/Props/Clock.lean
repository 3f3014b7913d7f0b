import Verif.Model.Clock
import Mathlib.Tactic.Ring
import Mathlib.Tactic.FieldSimp
import Mathlib.Tactic.Linarith
import Mathlib.Tactic.NormNum
import Mathlib.Algebra.Order.Field.Basic
import Mathlib.Algebra.Order.AbsoluteValue.Basic

set_option autoImplicit false

/-!
# C118: intervals have their nominal length
-/

namespace Verif.Clock

theorem hclk_val (f : ℚ) : hclk f shippedPll shippedCfgr = f * 27 / 2 := by
  have h1 : field shippedPll 0 6 = 8 := by decide +kernel
  have h2 : field shippedPll 6 9 = 216 := by decide +kernel
  have h3 : field shippedPll 16 2 = 0 := by decide +kernel
  have h4 : ahbDiv (field shippedCfgr 4 4) = 1 := by decide +kernel
  rw [hclk, sysClock, h1, h2, h3, h4]
  push_cast
  ring

theorem apb1_val : apbDiv (field shippedCfgr 10 3) = 4 := by decide +kernel
theorem apb2_val : apbDiv (field shippedCfgr 13 3) = 2 := by decide +kernel

/-- **C118, intervals.** For every crystal frequency: the kernel tick, the period of the task timer, of the
wheel-speed sampling and of the vendor library's clock are 16000, 160000, 8000 and 16000 crystal periods,
and a CAN bit is 16. -/
theorem C118_intervals (f : ℚ) (hf : 0 < f) :
    tick f = 16000 / f ∧ taskTimer f = 160000 / f ∧ wheelSample f = 8000 / f ∧ halTick f = 16000 / f ∧
    canBit f = 16 / f := by
  have hf' : f ≠ 0 := ne_of_gt hf
  have hr : sysTickReload = 215999 := by decide +kernel
  have hp : halTickPsc = 215 := by decide +kernel
  have b1 : field btr 16 4 = 14 := by decide +kernel
  have b2 : field btr 20 3 = 1 := by decide +kernel
  have b3 : field btr 0 10 = 2 := by decide +kernel
  have n4 : (4 : Nat) ≠ 1 := by decide
  have n2 : (2 : Nat) ≠ 1 := by decide
  refine ⟨?_, ?_, ?_, ?_, ?_⟩
  · rw [tick, hclk_val, hr]; field_simp; norm_num
  · simp only [taskTimer, overflow, timClk1, pclk1, apb1_val, hclk_val, if_neg n4]
    push_cast; field_simp; norm_num
  · simp only [wheelSample, overflow, timClk1, pclk1, apb1_val, hclk_val, if_neg n4]
    push_cast; field_simp; norm_num
  · simp only [halTick, overflow, timClk2, pclk2, apb2_val, hclk_val, if_neg n2, hp]
    push_cast; field_simp; norm_num
  · simp only [canBit, pclk1, apb1_val, hclk_val, b1, b2, b3]
    push_cast; field_simp; norm_num

/-- With the 16 MHz crystal: 1 ms, 10 ms (100 Hz), 0.5 ms (2000 samples a second), 1 ms, 1 µs (1 Mbit/s). -/
theorem C118_nominal : tick 16000000 = 1 / 1000 ∧ taskTimer 16000000 = 1 / 100 ∧
    2000 * wheelSample 16000000 = 1 ∧ halTick 16000000 = 1 / 1000 ∧ canBit 16000000 = 1 / 1000000 ∧
    samplePoint = 16 / 18 := by
  obtain ⟨h1, h2, h3, h4, h5⟩ := C118_intervals 16000000 (by norm_num)
  rw [h1, h2, h3, h4, h5]
  have b1 : field btr 16 4 = 14 := by decide +kernel
  have b2 : field btr 20 3 = 1 := by decide +kernel
  refine ⟨by norm_num, by norm_num, by norm_num, by norm_num, by norm_num, ?_⟩
  rw [samplePoint, b1, b2]; norm_num

/-- **C118, no drift.** Whatever the crystal really does, `n` periods of the task timer last exactly `10 n`
kernel ticks, and 20 wheel-speed samples one. -/
theorem C118_no_drift (f : ℚ) (hf : 0 < f) (n : ℕ) :
    n * taskTimer f = (10 * n : ℕ) * tick f ∧ (20 * n : ℕ) * wheelSample f = n * taskTimer f := by
  obtain ⟨h1, h2, h3, -, -⟩ := C118_intervals f hf
  have hf' : f ≠ 0 := ne_of_gt hf
  rw [h1, h2, h3]
  push_cast
  constructor <;> field_simp <;> ring

/-- **C118, tolerance.** A crystal that is off by at most the fraction `e` makes every interval off by at most
the fraction `e / (1 - e)`; here for the kernel tick. -/
theorem C118_tolerance (f e : ℚ) (he : 0 ≤ e) (he1 : e < 1)
    (hf : |f - 16000000| ≤ e * 16000000) : |tick f - 1 / 1000| ≤ e / (1 - e) * (1 / 1000) := by
  obtain ⟨h1, h2⟩ := abs_le.mp hf
  have hlow : 16000000 * (1 - e) ≤ f := by linarith
  have h1e : 0 < 1 - e := by linarith
  have hpos : 0 < f := by nlinarith
  obtain ⟨ht, -, -, -, -⟩ := C118_intervals f hpos
  rw [ht]
  have hd : 16000 / f - 1 / 1000 = (16000000 - f) / (1000 * f) := by
    field_simp; ring
  have hb : (0 : ℚ) < 1000 * f := by linarith
  rw [hd, abs_div, abs_of_pos hb, div_le_iff₀ hb]
  have ha : |16000000 - f| ≤ e * 16000000 := by rw [abs_sub_comm]; exact hf
  calc |16000000 - f| ≤ e * 16000000 := ha
    _ = e / (1 - e) * (1 / 1000) * (1000 * (16000000 * (1 - e))) := by field_simp
    _ ≤ e / (1 - e) * (1 / 1000) * (1000 * f) := by
      apply mul_le_mul_of_nonneg_left
      · linarith
      · apply mul_nonneg (div_nonneg he (le_of_lt h1e)); norm_num

/-- **C118, serial ports.** For every peripheral clock and every baud rate: if the vendor driver accepts it, the
number of cycles per bit differs from the exact quotient by at most (baud+1)/(2 baud) and is at least 16, so
the error of the line rate is at most (1 + 1/baud)/32. -/
theorem C118_uart (pclk baud d : Nat) (hb : 0 < baud) (h : brr pclk baud = some d) :
    2 * (d * baud) ≤ 2 * pclk + baud ∧ 2 * pclk ≤ 2 * (d * baud) + baud + 1 ∧ 16 ≤ d ∧ d ≤ 65535 := by
  unfold brr at h
  dsimp only at h
  split_ifs at h with hc
  cases h
  generalize hx : pclk + baud / 2 = x at hc
  have h1 : x / baud * baud ≤ x := Nat.div_mul_le_self x baud
  have h2 : x < (x / baud + 1) * baud := by
    rw [Nat.add_mul, Nat.one_mul]; exact Nat.lt_div_mul_add hb
  rw [Nat.add_mul, Nat.one_mul] at h2
  refine ⟨?_, ?_, hc.1, hc.2⟩ <;> omega

/-- The three serial ports: error below 0.06 % for the PC ports and below 0.001 % for the GPS receiver. -/
theorem C118_uart_shipped :
    brr (halPclk2 shippedPll shippedCfgr) 115200 = some 938 ∧ |108000000 / 938 / 115200 - (1 : ℚ)| < 6 / 10000 ∧
    brr (halPclk1 shippedPll shippedCfgr) 115200 = some 469 ∧ |54000000 / 469 / 115200 - (1 : ℚ)| < 6 / 10000 ∧
    brr (halPclk2 shippedPll shippedCfgr) 9600 = some 11250 ∧ |108000000 / 11250 / 9600 - (1 : ℚ)| < 1 / 100000 := by
  refine ⟨by decide +kernel, ?_, by decide +kernel, ?_, by decide +kernel, ?_⟩ <;> rw [abs_lt] <;>
    constructor <;> norm_num

theorem or_shift (a b k : Nat) (h : a < 2 ^ k) : a ||| b <<< k = a + b * 2 ^ k := by
  rw [Nat.or_comm, ← Nat.shiftLeft_add_eq_or_of_lt h, Nat.shiftLeft_eq, Nat.add_comm]

/-- **C118, the vendor library's idea of the clock is right.** For every permitted PLL setting the frequency
`HAL_RCC_GetSysClockFreq` reads back from the registers is the real one for a 16 MHz crystal, rounded down
twice (so at most 1 Hz less). -/
theorem C118_readback (m n p q r : Nat) (hm : 2 ≤ m ∧ m ≤ 63) (hn : 50 ≤ n ∧ n ≤ 432)
    (hp : p = 2 ∨ p = 4 ∨ p = 6 ∨ p = 8) (hq : q ≤ 15) (hr : r ≤ 7) :
    halSysClock (pllcfgr m n p q r) = 16000000 * n / m / p ∧
    sysClock 16000000 (pllcfgr m n p q r) = 16000000 * n / m / p := by
  have hk : ∃ k, k ≤ 3 ∧ p >>> 1 - 1 = k ∧ p = 2 * (k + 1) := by
    rcases hp with rfl | rfl | rfl | rfl
    · exact ⟨0, by decide, rfl, rfl⟩
    · exact ⟨1, by decide, rfl, rfl⟩
    · exact ⟨2, by decide, rfl, rfl⟩
    · exact ⟨3, by decide, rfl, rfl⟩
  obtain ⟨k, hk1, hk2, rfl⟩ := hk
  have hreg : pllcfgr m n (2 * (k + 1)) q r = m + n * 2 ^ 6 + k * 2 ^ 16 + 2 ^ 22 + q * 2 ^ 24 + r * 2 ^ 28 := by
    have e0 : pllcfgr m n (2 * (k + 1)) q r =
        m ||| n <<< 6 ||| k <<< 16 ||| 1 <<< 22 ||| q <<< 24 ||| r <<< 28 := by
      unfold pllcfgr
      rw [hk2]
      have : (2 : Nat) ^ 22 = 1 <<< 22 := rfl
      rw [this]
      have hl : ∀ a b c : Nat, a ||| (b ||| c) = b ||| (a ||| c) := by
        intro a b c; rw [← Nat.or_assoc, Nat.or_comm a b, Nat.or_assoc]
      simp only [Nat.or_assoc]
      rw [hl (1 <<< 22) m, hl (1 <<< 22) (n <<< 6), hl (1 <<< 22) (k <<< 16)]
    rw [e0, or_shift m n 6 (by omega), or_shift _ k 16 (by omega), or_shift _ 1 22 (by omega),
      or_shift _ q 24 (by omega), or_shift _ r 28 (by omega), Nat.one_mul]
  have f1 : field (pllcfgr m n (2 * (k + 1)) q r) 0 6 = m := by rw [hreg, field]; omega
  have f2 : field (pllcfgr m n (2 * (k + 1)) q r) 6 9 = n := by rw [hreg, field]; omega
  have f3 : field (pllcfgr m n (2 * (k + 1)) q r) 16 2 = k := by rw [hreg, field]; omega
  constructor
  · rw [halSysClock, f1, f2, f3, hseValue, Nat.mul_comm (k + 1) 2]
  · rw [sysClock, f1, f2, f3]
    push_cast
    ring

/-- Concrete: other settings of the PLL and of the ports; too high a rate is refused. -/
example : halSysClock (pllcfgr 7 200 4 9 2) = 114285714 ∧ brr 54000000 3375000 = some 16 ∧
    brr 54000000 3600000 = none ∧ brr 108000000 921600 = some 117 := by decide +kernel

end Verif.Clock
