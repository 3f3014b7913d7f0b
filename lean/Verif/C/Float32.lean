import Mathlib.Data.Int.Log
import Mathlib.Data.Rat.Floor
import Mathlib.Tactic.Linarith
import Mathlib.Tactic.Ring
import Mathlib.Tactic.FieldSimp
import Mathlib.Tactic.Positivity
import Mathlib.Tactic.NormNum

set_option autoImplicit false

/-!
# IEEE-754 binary32 arithmetic (C `float` on the target)

C `float` values are modelled by their numeric value: NaN, the two infinities,
or a rational number.  Every arithmetic operation computes the exact rational
result and rounds it to binary32 with round-to-nearest, ties-to-even
(the Cortex-M7 FPU's default mode).

Simplifications: no signed zero (a zero divisor is taken as `+0`, which is what
the code produces: `x - x` and `(float)0`), no NaN payloads, and no contraction
of `a*b+c` into a fused multiply-add.
-/

namespace Verif

/-- Round a rational to an integer, ties to even. Used by every `float` operation below. adc.c 190. -/
def rne (x : ℚ) : ℤ :=
  let f := ⌊x⌋
  let r := x - f
  if r < 1/2 then f else if 1/2 < r then f + 1 else if f % 2 = 0 then f else f + 1

/-- Exponent of the binary32 binade of `x` (subnormals share the exponent -126). For the `float` operations of adc.c 190, dataConversions.h 14-98. -/
def fexp (x : ℚ) : ℤ := max (Int.log 2 |x|) (-126)

/-- Round to 24 significant bits (unbounded upper exponent, gradual underflow). For the `float` operations of adc.c 190,
dataConversions.h 14-98. -/
def rnd (x : ℚ) : ℚ :=
  if x = 0 then 0 else
  (rne (x / (2:ℚ)^(fexp x - 23)) : ℚ) * (2:ℚ)^(fexp x - 23)

/-- Numeric value of a C `float`, e.g. the result of adc.c 182-201. -/
inductive F32 where
  | nan
  | pinf
  | ninf
  | fin (q : ℚ)
deriving DecidableEq, Repr

namespace F32

/-- Round a rational to binary32, overflow goes to the infinities. For the `float` operations of adc.c 190. -/
def round (x : ℚ) : F32 :=
  if (2:ℚ)^(128:ℕ) ≤ rnd x then pinf
  else if rnd x ≤ -(2:ℚ)^(128:ℕ) then ninf
  else fin (rnd x)

/-- Conversion from an integer type (adc.c 190, dataConversions.h 16). -/
def ofInt (i : ℤ) : F32 := round i

/-- C `-a`, part of the subtraction (faultManager.c 65). -/
def neg : F32 → F32
  | nan => nan | pinf => ninf | ninf => pinf | fin q => fin (-q)

/-- `fabsf` (faultManager.c 65). -/
def abs : F32 → F32
  | nan => nan | pinf => pinf | ninf => pinf | fin q => fin |q|

/-- C `a + b`, part of the subtraction (faultManager.c 65). -/
def add : F32 → F32 → F32
  | nan, _ | _, nan => nan
  | pinf, ninf | ninf, pinf => nan
  | pinf, _ | _, pinf => pinf
  | ninf, _ | _, ninf => ninf
  | fin a, fin b => round (a + b)

/-- C `a - b` (faultManager.c 65). -/
def sub (a b : F32) : F32 := add a (neg b)

/-- C `a * b` (dataConversions.h 88). -/
def mul : F32 → F32 → F32
  | nan, _ | _, nan => nan
  | fin a, fin b => round (a * b)
  | fin a, pinf | pinf, fin a => if a = 0 then nan else if 0 < a then pinf else ninf
  | fin a, ninf | ninf, fin a => if a = 0 then nan else if 0 < a then ninf else pinf
  | pinf, pinf | ninf, ninf => pinf
  | pinf, ninf | ninf, pinf => ninf

/-- Division; a zero divisor is `+0` (adc.c 190, dataConversions.h 17). -/
def div : F32 → F32 → F32
  | nan, _ | _, nan => nan
  | fin a, fin b =>
      if b = 0 then (if a = 0 then nan else if 0 < a then pinf else ninf)
      else round (a / b)
  | fin _, pinf | fin _, ninf => fin 0
  | pinf, fin b => if 0 ≤ b then pinf else ninf
  | ninf, fin b => if 0 ≤ b then ninf else pinf
  | pinf, pinf | pinf, ninf | ninf, pinf | ninf, ninf => nan

/-- C `a < b` on floats (adc.c 195). -/
def lt : F32 → F32 → Bool
  | nan, _ | _, nan => false
  | fin a, fin b => decide (a < b)
  | ninf, ninf => false
  | ninf, _ => true
  | _, ninf => false
  | pinf, _ => false
  | _, pinf => true

/-- C `a <= b` on floats, the converse of adc.c 193. -/
def le : F32 → F32 → Bool
  | nan, _ | _, nan => false
  | fin a, fin b => decide (a ≤ b)
  | ninf, _ => true
  | _, ninf => false
  | _, pinf => true
  | pinf, _ => false

/-- C `a > b` (adc.c 193). -/
def gt (a b : F32) : Bool := lt b a
/-- C `a >= b`, the converse of adc.c 195. -/
def ge (a b : F32) : Bool := le b a

/-- Truncation towards zero (dataConversions.h 88). -/
def trunc (q : ℚ) : ℤ := if 0 ≤ q then ⌊q⌋ else ⌈q⌉

/-- C conversion `(int16_t)x` (dataConversions.h 88): undefined (`none`) if the truncated value is not
representable. -/
def toInt16? : F32 → Option ℤ
  | fin q => if -32768 ≤ trunc q ∧ trunc q ≤ 32767 then some (trunc q) else none
  | _ => none

/-- `x` is a value a C `float` object (vehicleStateTypes.h) can hold: NaN, an infinity, or a rational
that binary32 represents exactly. -/
def IsFloat : F32 → Prop
  | fin q => rnd q = q ∧ |q| < 2^128
  | _ => True

@[simp] theorem lt_fin (a b : ℚ) : lt (fin a) (fin b) = decide (a < b) := rfl
@[simp] theorem le_fin (a b : ℚ) : le (fin a) (fin b) = decide (a ≤ b) := rfl
@[simp] theorem gt_fin (a b : ℚ) : gt (fin a) (fin b) = decide (b < a) := rfl
@[simp] theorem ge_fin (a b : ℚ) : ge (fin a) (fin b) = decide (b ≤ a) := rfl
@[simp] theorem add_fin (a b : ℚ) : add (fin a) (fin b) = round (a + b) := rfl
@[simp] theorem mul_fin (a b : ℚ) : mul (fin a) (fin b) = round (a * b) := rfl
@[simp] theorem sub_fin (a b : ℚ) : sub (fin a) (fin b) = round (a - b) := by
  show round (a + -b) = _; rw [← sub_eq_add_neg]
theorem div_fin (a b : ℚ) (h : b ≠ 0) : div (fin a) (fin b) = round (a / b) := by
  show (if b = 0 then _ else _) = _; rw [if_neg h]

end F32

/-! ### Rounding lemmas -/

theorem rne_mono {x y : ℚ} (h : x ≤ y) : rne x ≤ rne y := by
  have hf : ⌊x⌋ ≤ ⌊y⌋ := Int.floor_le_floor h
  have hx0 := Int.floor_le x
  have hx1 := Int.lt_floor_add_one x
  have hy0 := Int.floor_le y
  have hy1 := Int.lt_floor_add_one y
  rcases lt_or_eq_of_le hf with hlt | heq
  · have h1 : rne x ≤ ⌊x⌋ + 1 := by unfold rne; simp only; split_ifs <;> omega
    have h2 : ⌊y⌋ ≤ rne y := by unfold rne; simp only; split_ifs <;> omega
    omega
  · unfold rne; simp only
    rw [heq] at *
    split_ifs <;> first | omega | (exfalso; linarith)

theorem rne_int (n : ℤ) : rne (n : ℚ) = n := by
  unfold rne; simp

theorem rne_neg (x : ℚ) : rne (-x) = - rne x := by
  by_cases hint : x = (⌊x⌋ : ℚ)
  · rw [hint]; rw [show -((⌊x⌋:ℤ):ℚ) = ((-⌊x⌋ : ℤ) : ℚ) by push_cast; ring]
    rw [rne_int, rne_int]
  · have hlt : (⌊x⌋ : ℚ) < x := lt_of_le_of_ne (Int.floor_le x) (fun h => hint h.symm)
    have hx1 := Int.lt_floor_add_one x
    have hfl : ⌊-x⌋ = -⌊x⌋ - 1 := by
      rw [Int.floor_eq_iff]; push_cast; constructor <;> linarith
    unfold rne; simp only [hfl]; push_cast
    split_ifs <;> first | omega | (exfalso; linarith)

theorem rne_le_of_le_int {x : ℚ} {n : ℤ} (h : x ≤ n) : rne x ≤ n := by
  simpa [rne_int] using rne_mono h
theorem le_rne_of_int_le {x : ℚ} {n : ℤ} (h : (n:ℚ) ≤ x) : n ≤ rne x := by
  simpa [rne_int] using rne_mono h

/-- The rounding error to an integer is at most one half. -/
theorem rne_error (x : ℚ) : |(rne x : ℚ) - x| ≤ 1/2 := by
  have hx0 := Int.floor_le x
  have hx1 := Int.lt_floor_add_one x
  unfold rne; simp only
  rw [abs_le]
  split_ifs <;> push_cast <;> constructor <;> linarith

theorem rnd_zero : rnd 0 = 0 := by simp [rnd]

theorem fexp_neg (x : ℚ) : fexp (-x) = fexp x := by simp [fexp]

theorem rnd_neg (x : ℚ) : rnd (-x) = - rnd x := by
  unfold rnd
  by_cases h : x = 0
  · simp [h]
  · rw [if_neg (by simpa using h), if_neg h, fexp_neg, neg_div, rne_neg]; push_cast; ring

theorem two_zpow_pos (k : ℤ) : (0:ℚ) < (2:ℚ)^k := zpow_pos (by norm_num) k

theorem abs_lt_two_fexp {x : ℚ} : |x| < (2:ℚ)^(fexp x + 1) := by
  have h1 : |x| < ((2:ℕ):ℚ)^(Int.log 2 |x| + 1) := Int.lt_zpow_succ_log_self (by norm_num) |x|
  have h2 : ((2:ℕ):ℚ)^(Int.log 2 |x| + 1) ≤ (2:ℚ)^(fexp x + 1) := by
    push_cast
    apply zpow_le_zpow_right₀ (by norm_num)
    unfold fexp; have := le_max_left (Int.log 2 |x|) (-126); omega
  exact lt_of_lt_of_le h1 h2

theorem two_fexp_le {x : ℚ} (hx : x ≠ 0) (h : -126 < fexp x) : (2:ℚ)^(fexp x) ≤ |x| := by
  have h1 : fexp x = Int.log 2 |x| := by
    unfold fexp at *; rcases max_choice (Int.log 2 |x|) (-126) with h' | h' <;> omega
  rw [h1]
  have := Int.zpow_log_le_self (b := 2) (r := |x|) (by norm_num) (abs_pos.mpr hx)
  simpa using this

theorem fexp_mono {x y : ℚ} (hx : 0 < x) (h : x ≤ y) : fexp x ≤ fexp y := by
  unfold fexp
  apply max_le_max _ le_rfl
  rw [abs_of_pos hx, abs_of_pos (lt_of_lt_of_le hx h)]
  exact Int.log_mono_right hx h

theorem rnd_pos_le_pow {x : ℚ} (hx : 0 < x) : rnd x ≤ (2:ℚ)^(fexp x + 1) := by
  unfold rnd; rw [if_neg hx.ne']
  have hu := two_zpow_pos (fexp x - 23)
  have h1 : x / (2:ℚ)^(fexp x - 23) ≤ ((2^24 : ℤ) : ℚ) := by
    rw [div_le_iff₀ hu]
    have := abs_lt_two_fexp (x := x)
    rw [abs_of_pos hx] at this
    have e : ((2^24 : ℤ):ℚ) * (2:ℚ)^(fexp x - 23) = (2:ℚ)^(fexp x + 1) := by
      push_cast
      rw [show (16777216:ℚ) = (2:ℚ)^(24:ℤ) by norm_num, ← zpow_add₀ (by norm_num)]
      congr 1; ring
    rw [e]; exact this.le
  have h2 := rne_le_of_le_int h1
  have e : (2:ℚ)^(fexp x + 1) = ((2^24 : ℤ):ℚ) * (2:ℚ)^(fexp x - 23) := by
      push_cast
      rw [show (16777216:ℚ) = (2:ℚ)^(24:ℤ) by norm_num, ← zpow_add₀ (by norm_num)]
      congr 1; ring
  rw [e]
  exact mul_le_mul_of_nonneg_right (by exact_mod_cast h2) hu.le

theorem pow_le_rnd {x : ℚ} (hx : 0 < x) (h : -126 < fexp x) : (2:ℚ)^(fexp x) ≤ rnd x := by
  unfold rnd; rw [if_neg hx.ne']
  have hu := two_zpow_pos (fexp x - 23)
  have e : (2:ℚ)^(fexp x) = ((2^23 : ℤ):ℚ) * (2:ℚ)^(fexp x - 23) := by
      push_cast
      rw [show (8388608:ℚ) = (2:ℚ)^(23:ℤ) by norm_num, ← zpow_add₀ (by norm_num)]
      congr 1; ring
  have h1 : ((2^23 : ℤ) : ℚ) ≤ x / (2:ℚ)^(fexp x - 23) := by
    rw [le_div_iff₀ hu, ← e]
    have := two_fexp_le hx.ne' h
    rwa [abs_of_pos hx] at this
  have h2 := le_rne_of_int_le h1
  rw [e]
  exact mul_le_mul_of_nonneg_right (by exact_mod_cast h2) hu.le

theorem rnd_nonneg {x : ℚ} (hx : 0 ≤ x) : 0 ≤ rnd x := by
  unfold rnd; split_ifs
  · exact le_rfl
  · apply mul_nonneg _ (two_zpow_pos _).le
    have : (0:ℤ) ≤ rne (x / (2:ℚ)^(fexp x - 23)) := by
      apply le_rne_of_int_le; push_cast; exact div_nonneg hx (two_zpow_pos _).le
    exact_mod_cast this

theorem rnd_nonpos {x : ℚ} (hx : x ≤ 0) : rnd x ≤ 0 := by
  have := rnd_nonneg (x := -x) (by linarith)
  rw [rnd_neg] at this; linarith

theorem rnd_mono_pos {x y : ℚ} (hx : 0 < x) (h : x ≤ y) : rnd x ≤ rnd y := by
  have hy := lt_of_lt_of_le hx h
  have he := fexp_mono hx h
  rcases lt_or_eq_of_le he with hlt | heq
  · have h1 := rnd_pos_le_pow hx
    have hm : -126 < fexp y := by
      have : -126 ≤ fexp x := le_max_right _ _
      omega
    have h2 := pow_le_rnd hy hm
    have h3 : (2:ℚ)^(fexp x + 1) ≤ (2:ℚ)^(fexp y) := zpow_le_zpow_right₀ (by norm_num) (by omega)
    linarith
  · unfold rnd
    rw [if_neg hx.ne', if_neg hy.ne', heq]
    have hu := two_zpow_pos (fexp y - 23)
    apply mul_le_mul_of_nonneg_right _ hu.le
    exact_mod_cast rne_mono (div_le_div_of_nonneg_right h hu.le)

/-- Rounding to binary32 precision is monotone. -/
theorem rnd_mono {x y : ℚ} (h : x ≤ y) : rnd x ≤ rnd y := by
  rcases lt_trichotomy x 0 with hx | hx | hx
  · rcases lt_or_ge y 0 with hy | hy
    · have := rnd_mono_pos (x := -y) (y := -x) (by linarith) (by linarith)
      rw [rnd_neg, rnd_neg] at this; linarith
    · have := rnd_nonpos hx.le; have := rnd_nonneg hy; linarith
  · subst hx; rw [rnd_zero]; exact rnd_nonneg h
  · exact rnd_mono_pos hx h

/-- Values with at most 24 significant bits and exponent at least -149 are
exactly representable. -/
theorem rnd_exact (m k : ℤ) (hm : |m| ≤ 2^24) (hk : -149 ≤ k) :
    rnd ((m:ℚ) * (2:ℚ)^k) = (m:ℚ) * (2:ℚ)^k := by
  wlog hpos : 0 < m generalizing m
  · rcases eq_or_lt_of_le (not_lt.mp hpos) with h | h
    · simp [h, rnd_zero]
    · have := this (-m) (by simpa using hm) (by omega)
      push_cast at this
      rw [neg_mul, rnd_neg] at this
      linarith
  have hmq : (0:ℚ) < m := by exact_mod_cast hpos
  have hx : 0 < (m:ℚ) * (2:ℚ)^k := mul_pos hmq (two_zpow_pos k)
  set x := (m:ℚ) * (2:ℚ)^k with hxdef
  have hle : m ≤ 2^24 := by rwa [abs_of_pos hpos] at hm
  rcases eq_or_lt_of_le hle with heq | hlt
  · -- m = 2^24
    have hxe : x = (2:ℚ)^(k+24) := by
      rw [hxdef, heq]; push_cast
      rw [show (16777216:ℚ) = (2:ℚ)^(24:ℤ) by norm_num, ← zpow_add₀ (by norm_num)]
      congr 1; ring
    have hlog : Int.log 2 |x| = k + 24 := by
      rw [abs_of_pos hx, hxe]
      have := Int.log_zpow (R := ℚ) (b := 2) (by norm_num) (k+24)
      simpa using this
    have hfe : fexp x = k + 24 := by unfold fexp; rw [hlog]; omega
    unfold rnd; rw [if_neg hx.ne', hfe]
    have : x / (2:ℚ)^(k+24-23) = ((2^23 : ℤ):ℚ) := by
      rw [hxe, ← zpow_sub₀ (by norm_num), show k + 24 - (k+24-23) = (23:ℤ) by ring]
      norm_num
    rw [this, rne_int, hxe]
    push_cast
    rw [show (8388608:ℚ) = (2:ℚ)^(23:ℤ) by norm_num, ← zpow_add₀ (by norm_num)]
    congr 1; ring
  · have hxlt : x < (2:ℚ)^(k+24) := by
      have : (m:ℚ) < (2:ℚ)^(24:ℤ) := by norm_num; exact_mod_cast hlt
      calc x < (2:ℚ)^(24:ℤ) * (2:ℚ)^k := mul_lt_mul_of_pos_right this (two_zpow_pos k)
        _ = (2:ℚ)^(k+24) := by rw [← zpow_add₀ (by norm_num)]; congr 1; ring
    have hfe : fexp x - 23 ≤ k := by
      unfold fexp
      have : Int.log 2 |x| < k + 24 := by
        by_contra hcon
        push Not at hcon
        have h1 := Int.zpow_log_le_self (b := 2) (r := |x|) (by norm_num) (abs_pos.mpr hx.ne')
        have h2 : (2:ℚ)^(k+24) ≤ (2:ℚ)^(Int.log 2 |x|) := zpow_le_zpow_right₀ (by norm_num) hcon
        rw [abs_of_pos hx] at h1 h2
        push_cast at h1
        linarith
      omega
    unfold rnd; rw [if_neg hx.ne']
    obtain ⟨d, hd⟩ : ∃ d : ℕ, k = fexp x - 23 + d := ⟨(k - (fexp x - 23)).toNat, by omega⟩
    have : x / (2:ℚ)^(fexp x - 23) = ((m * 2^d : ℤ):ℚ) := by
      rw [div_eq_iff (two_zpow_pos _).ne', hxdef]
      conv_lhs => rw [hd, zpow_add₀ (by norm_num)]
      push_cast
      rw [zpow_natCast]; ring
    rw [this, rne_int, ← this]
    field_simp

theorem rnd_int (n : ℤ) (h : |n| ≤ 2^24) : rnd (n:ℚ) = n := by
  have := rnd_exact n 0 h (by norm_num); simpa using this

theorem rnd_one : rnd 1 = 1 := by simpa using rnd_int 1 (by norm_num)

/-- The half-ulp bound: relative to the binade of `x`. -/
theorem rnd_error (x : ℚ) : |rnd x - x| ≤ (2:ℚ)^(fexp x - 24) := by
  unfold rnd
  split_ifs with h
  · subst h; simp; exact (two_zpow_pos _).le
  · have hu := two_zpow_pos (fexp x - 23)
    have e := rne_error (x / (2:ℚ)^(fexp x - 23))
    have : (rne (x / (2:ℚ)^(fexp x - 23)) : ℚ) * (2:ℚ)^(fexp x - 23) - x
        = ((rne (x / (2:ℚ)^(fexp x - 23)) : ℚ) - x / (2:ℚ)^(fexp x - 23)) * (2:ℚ)^(fexp x - 23) := by
      field_simp
    rw [this, abs_mul, abs_of_pos hu]
    calc _ ≤ 1/2 * (2:ℚ)^(fexp x - 23) := mul_le_mul_of_nonneg_right e hu.le
      _ = (2:ℚ)^(fexp x - 24) := by
        rw [show fexp x - 23 = fexp x - 24 + 1 by ring, zpow_add₀ (by norm_num), zpow_one]; ring

/-- Rounding stays within representable bounds. -/
theorem rnd_le_int {x : ℚ} {n : ℤ} (hn : |n| ≤ 2^24) (h : x ≤ n) : rnd x ≤ n := by
  have := rnd_mono h; rwa [rnd_int n hn] at this
theorem int_le_rnd {x : ℚ} {n : ℤ} (hn : |n| ≤ 2^24) (h : (n:ℚ) ≤ x) : (n:ℚ) ≤ rnd x := by
  have := rnd_mono h; rwa [rnd_int n hn] at this

/-- Half-ulp bound in terms of a power of two above `|x|`. -/
theorem rnd_err_le {x : ℚ} {k : ℤ} (h : |x| ≤ (2:ℚ)^k) (hk : -125 ≤ k) :
    |rnd x - x| ≤ (2:ℚ)^(k - 25) := by
  by_cases hx : x = 0
  · subst hx; rw [rnd_zero]; simpa using (two_zpow_pos _).le
  rcases lt_or_eq_of_le h with h | h
  · refine (rnd_error x).trans ?_
    apply zpow_le_zpow_right₀ (by norm_num)
    by_contra hc
    have hf : k ≤ fexp x := by omega
    have := two_fexp_le hx (by omega)
    have h2 : (2:ℚ)^k ≤ (2:ℚ)^(fexp x) := zpow_le_zpow_right₀ (by norm_num) hf
    linarith
  · have hr : rnd x = x := by
      rcases abs_choice x with hx | hx
      · have := rnd_exact 1 k (by norm_num) (by omega)
        rw [hx] at h; rw [h]; simpa using this
      · have := rnd_exact (-1) k (by norm_num) (by omega)
        have hx' : x = (-1) * (2:ℚ)^k := by rw [← h, hx]; ring
        rw [hx']; simpa using this
    rw [hr]; simpa using (two_zpow_pos _).le

namespace F32

/-- No overflow for moderately sized values. -/
theorem round_eq {x : ℚ} (h : |x| ≤ 2^24) : round x = fin (rnd x) := by
  have ⟨h1, h2⟩ := abs_le.mp h
  have a : rnd x ≤ ((2^24:ℤ):ℚ) := rnd_le_int (by norm_num) (by push_cast; exact h2)
  have b : ((-2^24:ℤ):ℚ) ≤ rnd x := int_le_rnd (by norm_num) (by push_cast; exact h1)
  push_cast at a b
  unfold round
  rw [if_neg (by norm_num at *; linarith), if_neg (by norm_num at *; linarith)]

theorem ofInt_eq {n : ℤ} (h : |n| ≤ 2^24) : ofInt n = fin n := by
  unfold ofInt
  rw [round_eq (by exact_mod_cast h), rnd_int n h]

theorem round_mono_le {x y : ℚ} (h : x ≤ y) : le (round x) (round y) = true := by
  have hm := rnd_mono h
  unfold round
  split_ifs <;> simp [le] <;> linarith

end F32
end Verif
