import Verif.Spec.CanLine
import Verif.Props.Clock
import Verif.Model.CanBus
import Verif.Model.CanRx
import Mathlib.Tactic.Linarith
import Mathlib.Tactic.Positivity
import Mathlib.Tactic.FieldSimp
import Mathlib.Tactic.Push
import Mathlib.Data.Nat.Find

set_option autoImplicit false

/-!
# C152: frames on the CAN bus are read as sent
-/

namespace Verif.CanLine
open Verif.CanRegs

/-! ## Edges and their distances -/

/-- Bit `i` begins with an edge from recessive to dominant. -/
def Falling (l : List Bool) (i : Nat) : Prop :=
  l.getD i true = false ∧ (i = 0 ∨ l.getD (i - 1) true = true)

/-- Every bit up to the first after the end is at most `g` bits after such an edge. -/
def Lively (g : Nat) (l : List Bool) : Prop :=
  ∀ k ≤ l.length, ∃ j ≤ k, k ≤ j + g ∧ Falling l j

theorem getD_out {l : List Bool} {i : Nat} (h : l.length ≤ i) : l.getD i true = true := by
  rw [List.getD_eq_getElem?_getD, List.getElem?_eq_none h]
  rfl

theorem falling_lt {l : List Bool} {i : Nat} (h : Falling l i) : i < l.length := by
  by_contra hn
  have := h.1
  rw [getD_out (by omega)] at this
  cases this

/-- The timing all three controllers have. -/
def tm : Timing := ⟨15, 2, 1⟩

section
variable (τ t0 : ℚ)

/-- When bit `k` begins, in quanta of the receiver. -/
def T (k : Nat) : ℚ := t0 + k * τ

/-- The quantum in which its first level is seen. -/
def E (k : Nat) : ℤ := ⌈T τ t0 k⌉

variable {τ t0}

theorem level_at (hτ : 0 < τ) {l : List Bool} {t : ℚ} {k : Nat} (h1 : T τ t0 k ≤ t) (h2 : t < T τ t0 (k + 1)) :
    level τ t0 l t = l.getD k true := by
  unfold T at h1 h2
  push_cast at h2
  have hk : (0 : ℚ) ≤ k * τ := by positivity
  unfold level
  rw [if_neg (by linarith)]
  have : ⌊(t - t0) / τ⌋ = (k : ℤ) := by
    rw [Int.floor_eq_iff]
    push_cast
    constructor
    · rw [le_div_iff₀ hτ]; linarith
    · rw [div_lt_iff₀ hτ]; linarith
  rw [this]
  rfl

theorem level_index (hτ : 0 < τ) {t : ℚ} (h : t0 ≤ t) : ∃ k, T τ t0 k ≤ t ∧ t < T τ t0 (k + 1) := by
  have h0 : 0 ≤ (t - t0) / τ := div_nonneg (by linarith) hτ.le
  have hk : ((⌊(t - t0) / τ⌋.toNat : Nat) : ℚ) = (⌊(t - t0) / τ⌋ : ℤ) := by
    have := Int.toNat_of_nonneg (Int.floor_nonneg.mpr h0)
    exact_mod_cast this
  refine ⟨⌊(t - t0) / τ⌋.toNat, ?_, ?_⟩
  · unfold T
    have := Int.floor_le ((t - t0) / τ)
    rw [← hk, le_div_iff₀ hτ] at this
    linarith
  · unfold T
    have := Int.lt_floor_add_one ((t - t0) / τ)
    rw [← hk, div_lt_iff₀ hτ] at this
    push_cast
    linarith

/-- After the last bit the bus is recessive. -/
theorem level_after (hτ : 0 < τ) {l : List Bool} {t : ℚ} (h : T τ t0 l.length ≤ t) : level τ t0 l t = true := by
  have hl : (0 : ℚ) ≤ l.length * τ := by positivity
  have h0 : t0 ≤ t := by unfold T at h; linarith
  obtain ⟨k, h1, h2⟩ := level_index hτ h0
  rw [level_at hτ h1 h2]
  have : l.length < k + 1 := by
    by_contra hn
    have : ((k + 1 : Nat) : ℚ) ≤ l.length := by exact_mod_cast Nat.le_of_not_lt hn
    have : ((k + 1 : Nat) : ℚ) * τ ≤ l.length * τ := mul_le_mul_of_nonneg_right this hτ.le
    unfold T at h h2
    linarith
  exact getD_out (by omega)

theorem E_iff {k : Nat} {n : ℤ} : E τ t0 k ≤ n ↔ T τ t0 k ≤ n := Int.ceil_le

theorem E_lo (k : Nat) : T τ t0 k ≤ E τ t0 k := Int.le_ceil _
theorem E_hi (k : Nat) : (E τ t0 k : ℚ) < T τ t0 k + 1 := Int.ceil_lt_add_one _

theorem T_step (j d : Nat) : T τ t0 (j + d) = T τ t0 j + d * τ := by
  unfold T; push_cast; ring

/-- Bits are longer than a quantum, so their first quanta differ. -/
theorem E_lt (hτ : 1 < τ) {i j : Nat} (h : i < j) : E τ t0 i < E τ t0 j := by
  obtain ⟨d, rfl⟩ := Nat.exists_eq_add_of_lt h
  have h1 : T τ t0 (i + d + 1) = T τ t0 i + (d + 1 : Nat) * τ := by
    rw [Nat.add_assoc]; exact T_step i (d + 1)
  have h2 : (1 : ℚ) ≤ (d + 1 : Nat) := by push_cast; linarith [Nat.cast_nonneg (α := ℚ) d]
  have h3 : τ ≤ (d + 1 : Nat) * τ := by nlinarith
  have h4 := E_hi (τ := τ) (t0 := t0) i
  have h5 := E_lo (τ := τ) (t0 := t0) (i + d + 1)
  have : (E τ t0 i : ℚ) < E τ t0 (i + d + 1) := by linarith
  exact_mod_cast this

theorem E_le_iff (hτ : 1 < τ) {i j : Nat} : E τ t0 i < E τ t0 j ↔ i < j := by
  constructor
  · intro h
    by_contra hn
    rcases Nat.lt_or_eq_of_le (Nat.le_of_not_lt hn) with h' | h'
    · have := E_lt (t0 := t0) hτ h'; omega
    · rw [h'] at h; omega
  · exact E_lt hτ

/-- The tolerance: thirteen bits of the sender and of the receiver differ by at most one quantum. -/
def Close (τ : ℚ) : Prop := 13 * (18 - τ) ≤ 1 ∧ 13 * (τ - 18) ≤ 1

theorem Close.lo {τ : ℚ} (h : Close τ) : 17 + 12/13 ≤ τ := by have := h.1; linarith
theorem Close.hi {τ : ℚ} (h : Close τ) : τ ≤ 18 + 1/13 := by have := h.2; linarith

theorem drift (h : Close τ) (j d : Nat) (hd : d ≤ 13) :
    T τ t0 (j + d) - 1 ≤ E τ t0 j + 18 * d ∧ (E τ t0 j : ℚ) + 18 * d < T τ t0 (j + d) + 2 := by
  have h1 := E_lo (τ := τ) (t0 := t0) j
  have h2 := E_hi (τ := τ) (t0 := t0) j
  have h3 : (d : ℚ) ≤ 13 := by exact_mod_cast hd
  have h4 : (0 : ℚ) ≤ d := Nat.cast_nonneg _
  have h5 := h.lo
  have h6 := h.hi
  rw [T_step]
  constructor <;> nlinarith

theorem near (h : Close τ) (j d : Nat) (hd : d ≤ 13) :
    E τ t0 (j + d) ≤ E τ t0 j + 18 * d + 1 ∧ E τ t0 j + 18 * d ≤ E τ t0 (j + d) + 1 := by
  obtain ⟨h1, h2⟩ := drift (t0 := t0) h j d hd
  have h3 := E_lo (τ := τ) (t0 := t0) (j + d)
  have h4 := E_hi (τ := τ) (t0 := t0) (j + d)
  constructor
  · have : (E τ t0 (j + d) : ℚ) < ((E τ t0 j + 18 * d + 2 : ℤ) : ℚ) := by push_cast; linarith
    have : E τ t0 (j + d) < E τ t0 j + 18 * d + 2 := by exact_mod_cast this
    omega
  · have : ((E τ t0 j + 18 * d : ℤ) : ℚ) < ((E τ t0 (j + d) + 2 : ℤ) : ℚ) := by push_cast; linarith
    have : E τ t0 j + 18 * d < E τ t0 (j + d) + 2 := by exact_mod_cast this
    omega

theorem inside (h : Close τ) (j d : Nat) (hd : d ≤ 13) (n : Nat) (hn : (n : ℤ) = E τ t0 j + 18 * d + 15) :
    T τ t0 (j + d) ≤ n ∧ (n : ℚ) < T τ t0 (j + d + 1) := by
  obtain ⟨h1, h2⟩ := drift (t0 := t0) h j d hd
  have e : (n : ℚ) = E τ t0 j + 18 * d + 15 := by exact_mod_cast hn
  have h5 := h.lo
  rw [e, T_step (j + d) 1]
  push_cast
  constructor <;> linarith

/-! ## The receiver follows the sender -/

/-- The signal the receiver sees. -/
def sigOf (τ t0 : ℚ) (l : List Bool) (n : Nat) : Bool := level τ t0 l n

/-- An edge between two quanta is the beginning of a bit. -/
theorem edge_bit (hτ : 1 < τ) {l : List Bool} {n : Nat} (h0 : t0 ≤ n) (h1 : sigOf τ t0 l n = true)
    (h2 : sigOf τ t0 l (n + 1) = false) : ∃ i, Falling l i ∧ E τ t0 i = n + 1 := by
  have hp : 0 < τ := by linarith
  obtain ⟨a, a1, a2⟩ := level_index hp h0
  have hle : t0 ≤ ((n + 1 : Nat) : ℚ) := by push_cast; linarith
  obtain ⟨b, b1, b2⟩ := level_index hp hle
  unfold sigOf at h1 h2
  rw [level_at hp a1 a2] at h1
  rw [level_at hp b1 b2] at h2
  have hab : a ≠ b := by
    rintro rfl; rw [h1] at h2; cases h2
  have hab' : a < b := by
    by_contra hn
    have : b + 1 ≤ a := by omega
    obtain ⟨d, rfl⟩ := Nat.exists_eq_add_of_le this
    have h3 := T_step (τ := τ) (t0 := t0) (b + 1) d
    have : (0 : ℚ) ≤ d * τ := by positivity
    push_cast at b2
    linarith
  have hba : b = a + 1 := by
    by_contra hn
    obtain ⟨d, hd⟩ := Nat.exists_eq_add_of_le (show a + 2 ≤ b by omega)
    subst hd
    have h3 := T_step (τ := τ) (t0 := t0) (a + 1) (d + 1)
    have h4 : (0 : ℚ) ≤ d * τ := by positivity
    rw [show a + 1 + (d + 1) = a + 2 + d by omega] at h3
    push_cast at b1 h3
    linarith
  subst hba
  refine ⟨a + 1, ⟨h2, Or.inr (by simpa using h1)⟩, ?_⟩
  unfold E
  rw [Int.ceil_eq_iff]
  push_cast at b1 ⊢
  constructor <;> linarith

/-- The receiver is in step: `j` is the last edge seen, all bits before the present one have been read as sent, and the
present bit is taken to begin 18 quanta per bit after that edge. -/
structure Step (τ t0 : ℚ) (l : List Bool) (n : Nat) (r : Rx) (j : Nat) : Prop where
  falling : Falling l j
  seen : E τ t0 j < n
  last : ∀ i, Falling l i → E τ t0 i < n → i ≤ j
  le : j ≤ r.heard.length
  pos : (r.pos ≤ 15 ∧ (n : ℤ) - r.pos = E τ t0 j + 18 * (r.heard.length - j)) ∨
    (16 ≤ r.pos ∧ r.pos < 18 ∧ (n : ℤ) + 18 - r.pos = E τ t0 j + 18 * (r.heard.length - j))
  sampled : r.sampled = if r.heard.length = 0 then true else l.getD (r.heard.length - 1) true
  prev : ∀ m, n = m + 1 → r.prev = sigOf τ t0 l m
  done : r.done = true → r.heard.length = j
  heard : ∀ i < r.heard.length, r.heard[i]? = some (l.getD i true)

/-- The next edge comes within thirteen bits. -/
theorem next_edge {l : List Bool} (hl : Lively 12 l) {j i : Nat} (hi : Falling l i) (hji : j < i)
    (hno : ∀ k, j < k → k < i → ¬ Falling l k) : i ≤ j + 13 := by
  obtain ⟨k, k1, k2, k3⟩ := hl (i - 1) (by have := falling_lt hi; omega)
  by_contra hn
  exact hno k (by omega) (by omega) k3

/-- All edges up to the present bit have been seen when it is sampled. -/
theorem seen_edges (h : Close τ) {l : List Bool} (hl : Lively 12 l) {n : Nat} {r : Rx} {j : Nat}
    (s : Step τ t0 l n r j) (hp : r.pos = 15) (i : Nat) (hi : Falling l i) (hik : i ≤ r.heard.length) : i ≤ j := by
  by_contra hn
  have hex : ∃ i, Falling l i ∧ j < i := ⟨i, hi, by omega⟩
  classical
  have ha := Nat.find_spec hex
  have hmin : ∀ m < Nat.find hex, ¬ (Falling l m ∧ j < m) := fun m hm => Nat.find_min hex hm
  have hle : Nat.find hex ≤ i := Nat.find_min' hex ⟨hi, by omega⟩
  generalize Nat.find hex = a at ha hmin hle
  have h13 : a ≤ j + 13 := next_edge hl ha.1 ha.2 (fun k k1 k2 k3 => hmin k k2 ⟨k3, k1⟩)
  obtain ⟨d, rfl⟩ := Nat.exists_eq_add_of_le (Nat.le_of_lt ha.2)
  have hnear := (near (t0 := t0) h j d (by omega)).1
  have hpos := s.pos
  rw [hp] at hpos
  have hlt : E τ t0 (j + d) < n := by omega
  have := s.last _ ha.1 hlt
  omega

theorem step_quantum (h : Close τ) (ht0 : 0 ≤ t0) {l : List Bool} (hl : Lively 12 l) {n : Nat} {r : Rx} {j : Nat}
    (s : Step τ t0 l n r j) : ∃ j', Step τ t0 l (n + 1) (quantum tm r (sigOf τ t0 l n)) j' := by
  have hτ : 1 < τ := by have := h.lo; linarith
  have hp : 0 < τ := by linarith
  by_cases hedge : ∃ i, Falling l i ∧ E τ t0 i = n
  · -- an edge arrives
    obtain ⟨i, hi, hE⟩ := hedge
    have hji : j < i := (E_le_iff (t0 := t0) hτ).mp (by rw [hE]; exact s.seen)
    have hno : ∀ k, j < k → k < i → ¬ Falling l k := by
      intro k k1 k2 k3
      have := E_lt (t0 := t0) hτ k2
      have := s.last k k3 (by omega)
      omega
    have h13 := next_edge hl hi hji hno
    obtain ⟨d, rfl⟩ := Nat.exists_eq_add_of_le (Nat.le_of_lt hji)
    have hnear := near (t0 := t0) h j d (by omega)
    have hpos := s.pos
    have hlen : r.heard.length = j + d := by omega
    have hcase : r.pos = 0 ∨ r.pos = 1 ∨ r.pos = 17 := by omega
    -- the receiver recognises the edge
    have hd0 : 0 < d := by omega
    have hn : 0 < n := by have := s.seen; have := E_lt (t0 := t0) hτ hji; have h0 : 0 ≤ E τ t0 j := by
                            unfold E; apply Int.ceil_nonneg; unfold T; positivity
                          omega
    obtain ⟨m, rfl⟩ : ∃ m, n = m + 1 := ⟨n - 1, by omega⟩
    have hT1 : T τ t0 (j + d) ≤ ((m + 1 : Nat) : ℚ) := by
      have := E_lo (τ := τ) (t0 := t0) (j + d); rw [hE] at this; exact_mod_cast this
    have hT2 : ((m + 1 : Nat) : ℚ) < T τ t0 (j + d) + 1 := by
      have := E_hi (τ := τ) (t0 := t0) (j + d); rw [hE] at this; exact_mod_cast this
    have hv : sigOf τ t0 l (m + 1) = false := by
      unfold sigOf
      rw [level_at hp hT1 (by rw [T_step (j + d) 1]; push_cast at hT2 ⊢; linarith)]
      exact hi.1
    have hb : l.getD (j + d - 1) true = true := by
      rcases hi.2 with h' | h'
      · omega
      · exact h'
    have hprev : r.prev = true := by
      rw [s.prev m rfl]
      unfold sigOf
      obtain ⟨e, rfl⟩ : ∃ e, d = e + 1 := ⟨d - 1, by omega⟩
      have hT3 : T τ t0 (j + (e + 1)) = T τ t0 (j + e) + τ := by
        rw [← Nat.add_assoc, T_step (j + e) 1]; push_cast; ring
      rw [level_at hp (k := j + e) (by push_cast at hT1 hT2 ⊢; linarith)
        (by rw [Nat.add_assoc, hT3]; push_cast at hT1 hT2 ⊢; linarith)]
      simpa using hb
    have hs : r.sampled = true := by
      rw [s.sampled, if_neg (by omega), hlen]; exact hb
    have hdone : r.done = false := by
      cases hd : r.done
      · rfl
      · have := s.done hd; omega
    have hq : quantum tm r (sigOf τ t0 l (m + 1)) = ⟨1, true, false, true, r.heard⟩ := by
      unfold quantum
      rw [hv, hprev, hs, hdone]
      rcases hcase with h' | h' | h' <;> rw [h'] <;> rfl
    rw [hq]
    refine ⟨j + d, hi, by omega, ?_, by simp [hlen], Or.inl ⟨by dsimp only; omega, ?_⟩, ?_, ?_, fun _ => hlen, s.heard⟩
    · intro i' hi' hlt
      by_contra hn'
      have := E_lt (t0 := t0) hτ (show j + d < i' by omega)
      omega
    · dsimp only
      rw [hlen]
      push_cast
      omega
    · dsimp only
      rw [if_neg (by omega), hlen, hb]
    · intro m' hm'
      dsimp only
      rw [show m' = m + 1 by omega, hv]
  · -- no edge
    have hnosync : (r.prev && !(sigOf τ t0 l n) && r.sampled && !r.done) = false := by
      cases hv : sigOf τ t0 l n
      · cases hpr : r.prev
        · rfl
        · exfalso
          have hn : 0 < n := by
            have := s.seen
            have h0 : 0 ≤ E τ t0 j := by unfold E; apply Int.ceil_nonneg; unfold T; positivity
            omega
          obtain ⟨m, rfl⟩ : ∃ m, n = m + 1 := ⟨n - 1, by omega⟩
          have hm := s.prev m rfl
          rw [hpr] at hm
          have ht : t0 ≤ m := by
            have h1 : E τ t0 j ≤ m := by have := s.seen; push_cast at this; omega
            have h2 := E_iff.mp h1
            have : (0 : ℚ) ≤ j * τ := by positivity
            unfold T at h2
            push_cast at h2
            linarith
          obtain ⟨i, hi, hE⟩ := edge_bit hτ ht hm.symm hv
          exact hedge ⟨i, hi, by rw [hE]; push_cast; ring⟩
      · simp
    have hlast : ∀ i, Falling l i → E τ t0 i < ((n + 1 : Nat) : ℤ) → i ≤ j := by
      intro i hi hlt
      rcases Int.lt_or_eq_of_le (show E τ t0 i ≤ n by push_cast at hlt; omega) with h' | h'
      · exact s.last i hi h'
      · exact absurd ⟨i, hi, h'⟩ hedge
    have hseen : E τ t0 j < ((n + 1 : Nat) : ℤ) := by have := s.seen; push_cast; omega
    have hpos := s.pos
    refine ⟨j, ?_⟩
    unfold quantum
    dsimp only
    rw [hnosync]
    simp only [Bool.false_eq_true, if_false, Bool.or_false]
    by_cases h15 : r.pos = tm.seg1
    · rw [if_pos h15]
      have h15' : r.pos = 15 := h15
      -- the sample
      have hv : sigOf τ t0 l n = l.getD r.heard.length true := by
        have hse := fun i => seen_edges h hl s h15' i
        obtain ⟨d, hd⟩ := Nat.exists_eq_add_of_le s.le
        have e1 : (n : ℤ) = E τ t0 j + 18 * d + 15 := by
          rw [hd] at hpos
          rcases hpos with ⟨-, h'⟩ | ⟨h', -⟩
          · rw [h15'] at h'; push_cast at h'; linarith
          · omega
        by_cases hk : r.heard.length ≤ l.length
        · obtain ⟨k, k1, k2, k3⟩ := hl _ hk
          have := hse k k3 k1
          have hin := inside (t0 := t0) h j d (by omega) n e1
          rw [hd]
          exact level_at hp hin.1 hin.2
        · obtain ⟨k, k1, k2, k3⟩ := hl _ (le_refl l.length)
          have hkj := hse k k3 (by omega)
          have hjl := falling_lt s.falling
          obtain ⟨e, he⟩ := Nat.exists_eq_add_of_le (Nat.le_of_lt hjl)
          have hin := drift (t0 := t0) h j e (by omega)
          rw [getD_out (by omega)]
          apply level_after hp
          rw [he]
          have e2 : (n : ℚ) = E τ t0 j + 18 * d + 15 := by exact_mod_cast e1
          have e3 : (e : ℚ) ≤ d := by exact_mod_cast (show e ≤ d by omega)
          linarith [hin.1]
      refine ⟨s.falling, hseen, hlast, ?_, ?_, ?_, ?_, ?_, ?_⟩
      · have := s.le; simp; omega
      · right
        rw [h15'] at hpos ⊢
        refine ⟨by show 16 ≤ 16; omega, by show 16 < 18; omega, ?_⟩
        show ((n + 1 : Nat) : ℤ) + 18 - ((16 : Nat) : ℤ) = _
        simp only [List.length_append, List.length_singleton]
        push_cast
        omega
      · dsimp only; simp; rw [hv, List.getD_eq_getElem?_getD]
      · intro m hm; dsimp only; rw [show m = n by omega]
      · intro hh; cases hh
      · intro i hi
        simp only [List.length_append, List.length_singleton] at hi
        dsimp only
        by_cases hi' : i < r.heard.length
        · rw [List.getElem?_append_left hi']; exact s.heard i hi'
        · have : i = r.heard.length := by omega
          rw [List.getElem?_append_right (by omega), this]
          simp [hv]
    · rw [if_neg h15]
      have h15' : r.pos ≠ 15 := h15
      have hb : tm.bit = 18 := rfl
      refine ⟨s.falling, hseen, hlast, s.le, ?_, s.sampled, ?_, s.done, s.heard⟩
      · rw [hb]
        dsimp only
        by_cases h17 : r.pos = 17
        · left
          rw [h17] at hpos ⊢
          refine ⟨by decide, ?_⟩
          push_cast
          omega
        · have hlt : r.pos < 18 := by omega
          rw [Nat.mod_eq_of_lt (by omega)]
          push_cast
          omega
      · intro m hm; dsimp only; rw [show m = n by omega]

/-- Before the frame the receiver waits. -/
theorem listen_idle (ht0 : 0 ≤ t0) (l : List Bool) :
    ∀ n : Nat, (n : ℤ) ≤ ⌈t0⌉ → listen tm (sigOf τ t0 l) n = none
  | 0, _ => rfl
  | n + 1, hn => by
    have hlt : (n : ℚ) < t0 := by
      by_contra hh
      have : ⌈t0⌉ ≤ (n : ℤ) := Int.ceil_le.mpr (by push_cast; linarith)
      push_cast at hn
      omega
    have ih := listen_idle ht0 l n (by push_cast at hn; omega)
    unfold listen
    rw [ih]
    have : sigOf τ t0 l n = true := by unfold sigOf level; rw [if_pos hlt]
    simp [this]

theorem listen_step (h : Close τ) (ht0 : 0 ≤ t0) {l : List Bool} (hl : Lively 12 l) :
    ∀ n : Nat, ⌈t0⌉ < n → ∃ r j, listen tm (sigOf τ t0 l) n = some r ∧ Step τ t0 l n r j := by
  have hτ : 1 < τ := by have := h.lo; linarith
  have hp : 0 < τ := by linarith
  have hc : 0 ≤ ⌈t0⌉ := Int.ceil_nonneg ht0
  have hE0 : E τ t0 0 = ⌈t0⌉ := by unfold E T; simp
  have hf : Falling l 0 := by
    obtain ⟨k, k1, -, k3⟩ := hl 0 (by omega)
    rwa [show k = 0 by omega] at k3
  intro n
  induction n with
  | zero => intro hn; push_cast at hn; omega
  | succ n ih =>
    intro hn
    by_cases h' : ⌈t0⌉ < (n : ℤ)
    · obtain ⟨r, j, hr, hs⟩ := ih h'
      obtain ⟨j', hs'⟩ := step_quantum h ht0 hl hs
      refine ⟨_, j', ?_, hs'⟩
      unfold listen
      rw [hr]
    · have hn' : (n : ℤ) = ⌈t0⌉ := by push_cast at hn; omega
      have hi := listen_idle (τ := τ) ht0 l n (by omega)
      have ht : t0 ≤ n := by
        have := Int.le_ceil t0; rw [← hn'] at this; exact_mod_cast this
      have ht' : (n : ℚ) < t0 + 1 := by
        have := Int.ceil_lt_add_one t0; rw [← hn'] at this; exact_mod_cast this
      have hv : sigOf τ t0 l n = false := by
        unfold sigOf
        rw [level_at hp (k := 0) (by unfold T; push_cast; linarith) (by unfold T; push_cast; linarith)]
        exact hf.1
      refine ⟨⟨1, true, false, true, []⟩, 0, ?_, hf, ?_, ?_, by simp, ?_, by simp, ?_, fun _ => rfl, ?_⟩
      · unfold listen
        rw [hi]
        simp [hv]
        rfl
      · rw [hE0]; push_cast; omega
      · intro i hi' hlt
        by_contra hne
        have := E_lt (t0 := t0) hτ (show 0 < i by omega)
        push_cast at hlt
        omega
      · left; simp; omega
      · intro m hm; dsimp only; rw [show m = n by omega, hv]
      · intro i hi'; simp at hi'

/-- Progress: a bit takes at most twenty quanta. -/
theorem heard_much {l : List Bool} {n : Nat} {r : Rx} {j : Nat} (h : Close τ) (hl : Lively 12 l)
    (s : Step τ t0 l n r j) : (n : ℤ) ≤ E τ t0 0 + 20 * (r.heard.length + 1) := by
  have hj : E τ t0 j ≤ E τ t0 0 + 20 * j := by
    have h1 := E_hi (τ := τ) (t0 := t0) j
    have h2 := E_lo (τ := τ) (t0 := t0) 0
    have h3 := T_step (τ := τ) (t0 := t0) 0 j
    have h4 := h.hi
    rw [Nat.zero_add] at h3
    rcases Nat.eq_zero_or_pos j with rfl | hj
    · simp
    · have h5 : (1 : ℚ) ≤ j := by exact_mod_cast hj
      have : (E τ t0 j : ℚ) < ((E τ t0 0 + 20 * j : ℤ) : ℚ) := by push_cast; nlinarith
      exact_mod_cast this.le
  have := s.pos
  have := s.le
  omega

end

/-! ## Stuffing -/

/-- `Lively`, read from left to right: `d` bits since the last edge. -/
def Lv (g : Nat) : Nat → Bool → List Bool → Prop
  | d, _, [] => d ≤ g
  | d, prev, b :: rest => if prev && !b then Lv g 1 b rest else d ≤ g ∧ Lv g (d + 1) b rest

theorem lv_lively {g : Nat} (full : List Bool) : ∀ (l : List Bool) (i d : Nat) (prev : Bool),
    full.drop i = l → i ≤ full.length → (∃ j, j + d = i ∧ Falling full j) → (0 < i → prev = full.getD (i - 1) true) →
    0 < i → Lv g d prev l → ∀ k, i ≤ k → k ≤ full.length → ∃ j ≤ k, k ≤ j + g ∧ Falling full j
  | [], i, d, prev, hd, hle, ⟨j, hj, hf⟩, _, _, hlv, k, hik, hk => by
    have : full.length ≤ i := List.drop_eq_nil_iff.mp hd
    unfold Lv at hlv
    exact ⟨j, by omega, by omega, hf⟩
  | b :: rest, i, d, prev, hd, hle, ⟨j, hj, hf⟩, hprev, hi0, hlv, k, hik, hk => by
    have hlt : i < full.length := by
      by_contra hn
      rw [List.drop_eq_nil_of_le (by omega)] at hd
      cases hd
    have hb : full.getD i true = b := by
      have := congrArg List.head? hd
      simp only [List.head?_drop, List.head?_cons] at this
      rw [List.getD_eq_getElem?_getD, this]; rfl
    have hrest : full.drop (i + 1) = rest := by
      have := congrArg List.tail hd
      simpa [List.tail_drop] using this
    unfold Lv at hlv
    by_cases he : (prev && !b) = true
    · rw [if_pos he] at hlv
      simp only [Bool.and_eq_true, Bool.not_eq_true'] at he
      have hfall : Falling full i := ⟨by rw [hb]; exact he.2, Or.inr (by rw [← hprev hi0]; exact he.1)⟩
      rcases Nat.lt_or_ge k (i + 1) with hk' | hk'
      · exact ⟨i, by omega, by omega, hfall⟩
      · exact lv_lively full rest (i + 1) 1 b hrest (by omega) ⟨i, rfl, hfall⟩ (fun _ => by simpa using hb.symm) (by omega)
          hlv k hk' hk
    · rw [if_neg he] at hlv
      rcases Nat.lt_or_ge k (i + 1) with hk' | hk'
      · exact ⟨j, by omega, by omega, hf⟩
      · exact lv_lively full rest (i + 1) (d + 1) b hrest (by omega) ⟨j, by omega, hf⟩ (fun _ => by simpa using hb.symm)
          (by omega) hlv.2 k hk' hk

/-- Stuffing keeps the edges close together. -/
theorem lv_stuff (ack : Bool) : ∀ (l : List Bool) (run d : Nat) (last : Bool), run ≤ 4 →
    (last = false → d ≤ run) → (last = true → d ≤ 5 + run) →
    Lv 12 d last (stuffFrom run last l ++ [true, ack])
  | [], run, d, last, hr, hf, ht => by
    cases last <;> cases ack <;> simp [stuffFrom, Lv] <;> first
      | (have := hf rfl; omega)
      | (have := ht rfl; omega)
  | b :: rest, run, d, last, hr, hf, ht => by
    unfold stuffFrom
    by_cases hb : b = last
    · rw [if_pos hb]
      subst hb
      by_cases h5 : run + 1 = 5
      · rw [if_pos h5]
        cases b
        · have := hf rfl
          simp only [List.cons_append, Lv, Bool.not_false, Bool.false_and, Bool.false_eq_true, if_false]
          exact ⟨by omega, by omega, lv_stuff ack rest 1 _ true (by omega) (fun h => by cases h) (fun _ => by omega)⟩
        · have := ht rfl
          simp only [List.cons_append, Lv, Bool.not_true, Bool.and_false, Bool.false_eq_true, if_false, Bool.not_false,
            Bool.and_self, if_true]
          exact ⟨by omega, lv_stuff ack rest 1 1 false (by omega) (fun _ => le_refl _) (fun h => by cases h)⟩
      · rw [if_neg h5]
        have hd : d ≤ 9 := by
          cases b
          · have := hf rfl; omega
          · have := ht rfl; omega
        have : (b && !b) = false := by cases b <;> rfl
        simp only [List.cons_append, Lv, this, Bool.false_eq_true, if_false]
        refine ⟨by omega, lv_stuff ack rest (run + 1) (d + 1) b (by omega) ?_ ?_⟩
        · intro h'; have := hf h'; omega
        · intro h'; have := ht h'; omega
    · rw [if_neg hb]
      cases b
      · have hl : last = true := by cases last <;> simp_all
        subst hl
        simp only [List.cons_append, Lv, Bool.not_false, Bool.and_self, if_true]
        exact lv_stuff ack rest 1 1 false (by omega) (fun _ => le_refl _) (fun h => by cases h)
      · have hl : last = false := by cases last <;> simp_all
        subst hl
        have := hf rfl
        simp only [List.cons_append, Lv, Bool.false_and, Bool.false_eq_true, if_false]
        exact ⟨by omega, lv_stuff ack rest 1 (d + 1) true (by omega) (fun h => by cases h) (fun _ => by omega)⟩

theorem lively_wire (rest : List Bool) (ack : Bool) : Lively 12 (wire (false :: rest) ack) := by
  have e : wire (false :: rest) ack = false :: (stuffFrom 1 false rest ++ [true, ack]) := by
    unfold wire stuff; rw [stuffFrom]; simp
  have h0 : Falling (wire (false :: rest) ack) 0 := by rw [e]; exact ⟨rfl, Or.inl rfl⟩
  intro k hk
  rcases Nat.eq_zero_or_pos k with rfl | hk0
  · exact ⟨0, le_refl _, by omega, h0⟩
  · refine lv_lively (wire (false :: rest) ack) (stuffFrom 1 false rest ++ [true, ack]) 1 1 false (by rw [e]; rfl) (by rw [e]; simp)
      ⟨0, rfl, h0⟩ (fun _ => by rw [e]; rfl) (by omega) ?_ k hk0 hk
    exact lv_stuff ack rest 1 1 false (by omega) (fun _ => le_refl _) (fun h => by cases h)

/-- Removing the stuffing gives back the stream. -/
theorem unstuff_stuffFrom : ∀ (l : List Bool) (run : Nat) (last : Bool), run ≤ 4 →
    unstuffFrom run last (stuffFrom run last l) = some l
  | [], run, last, _ => by unfold stuffFrom unstuffFrom; rfl
  | b :: rest, run, last, hr => by
    unfold stuffFrom
    by_cases hb : b = last
    · rw [if_pos hb]
      subst hb
      by_cases h5 : run + 1 = 5
      · rw [if_pos h5]
        rw [unstuffFrom, if_neg (by omega), if_pos rfl, h5, unstuffFrom, if_pos rfl, if_neg (by cases b <;> simp),
          unstuff_stuffFrom rest 1 (!b) (by omega)]
        rfl
      · rw [if_neg h5]
        rw [unstuffFrom, if_neg (by omega), if_pos rfl, unstuff_stuffFrom rest (run + 1) b (by omega)]
        rfl
    · rw [if_neg hb]
      rw [unstuffFrom, if_neg (by omega), if_neg hb, unstuff_stuffFrom rest 1 b (by omega)]
      rfl

/-! ## The property -/

/-- **C152, settings.** Whatever the registers held before, after `HAL_CAN_Init` with the settings of `main` and
`HAL_CAN_Start` each of the three controllers takes part in the traffic with bits of 18 time quanta, sampled after 16
and corrected by at most one; a quantum is three periods of its clock. The switches for retransmission, bus-off,
transmit order and the receive memory stand as C114 to C117 take them to stand. -/
theorem C152_settings (r : Regs) (i : Init) (hi : i ∈ [can1, can2, can3]) :
    let q := canStart (canInit r i)
    Working q ∧ timing q = ⟨15, 2, 1⟩ ∧ (∀ pclk, quantumTime q pclk = 3 / pclk) ∧
    q.mcr.getLsbD 4 = CanBus.shipped.nart ∧ q.mcr.getLsbD 6 = CanBus.shipped.abom ∧
    q.mcr.getLsbD 2 = CanBus.shipped.txfp ∧ q.mcr.getLsbD 3 = CanRx.locked ∧ q.mcr.getLsbD 7 = false := by
  have hi' : i = can1 := by
    simp only [List.mem_cons, List.not_mem_nil, or_false] at hi
    rcases hi with h | h | h <;> rw [h] <;> rfl
  subst hi'
  have hb : (canStart (canInit r can1)).btr = 0x1E0002#32 := by
    show (0#32 ||| 0#32 ||| 0xE0000#32 ||| 0x100000#32 ||| (3#32 - 1#32)) = _
    decide
  refine ⟨⟨?_, ?_, by rw [hb]; decide, by rw [hb]; decide⟩, by unfold timing; rw [hb]; decide,
    fun pclk => ?_, ?_, ?_, ?_, ?_, ?_⟩
  · simp [canStart, canInit, can1, putBit]
  · simp [canStart, canInit, can1, putBit]
  · unfold quantumTime
    rw [hb]
    have : bits (0x1E0002#32) 0 10 = 2 := by decide +kernel
    rw [this]
    norm_num
  · simp [canStart, canInit, can1, putBit, CanBus.shipped, CanBus.Init.mcr, CanBus.shippedInit]
  · simp [canStart, canInit, can1, putBit, CanBus.shipped, CanBus.Init.mcr, CanBus.shippedInit]
  · simp [canStart, canInit, can1, putBit, CanBus.shipped, CanBus.Init.mcr, CanBus.shippedInit]
  · simp [canStart, canInit, can1, putBit, CanRx.locked]
  · simp [canStart, canInit, can1, putBit]

/-- The receiver looks at the bus at the times `t0 + n * q`. -/
def look (q t0 : ℚ) (b start : ℚ) (l : List Bool) (n : Nat) : Bool := level b start l (t0 + n * q)

theorem look_scaled {q : ℚ} (hq : 0 < q) (t0 b start : ℚ) (l : List Bool) (n : Nat) :
    look q t0 b start l n = sigOf (b / q) ((start - t0) / q) l n := by
  unfold look sigOf level
  have h1 : (t0 + n * q < start) ↔ ((n : ℚ) < (start - t0) / q) := by
    rw [lt_div_iff₀ hq]; constructor <;> intro h <;> linarith
  have h2 : ((n : ℚ) - (start - t0) / q) / (b / q) = (t0 + n * q - start) / b := by
    field_simp; ring
  simp only [h1, h2]

/-- **C152, the line.** A receiver with these settings and any quantum `q`, beginning at any moment `t0` when the bus is
idle, and a sender whose bits have the length of 18 quanta up to one part in 234: whatever stream the sender stuffs and
sends, acknowledged or not, the receiver reads its bits and then only recessive ones, one at least every twenty quanta,
and finds in them the stream. -/
theorem C152_line (q b : ℚ) (hq : 0 < q) (h1 : 18 * q * (1 - 1/234) ≤ b) (h2 : b ≤ 18 * q * (1 + 1/234))
    (t0 start : ℚ) (ht : t0 ≤ start) (rest : List Bool) (ack : Bool) (n : Nat) :
    let body := false :: rest
    let h := heard ⟨15, 2, 1⟩ (look q t0 b start (wire body ack)) n
    (∀ k < h.length, h[k]? = some ((wire body ack).getD k true)) ∧
    (start - t0) / q + 20 * (h.length + 2) > n ∧
    ((stuff body).length ≤ h.length → unstuff (h.take (stuff body).length) = some body) := by
  intro body h
  have hc : Close (b / q) := by
    constructor
    · have : 18 - 1/13 ≤ b / q := by rw [le_div_iff₀ hq]; linarith
      linarith
    · have : b / q ≤ 18 + 1/13 := by rw [div_le_iff₀ hq]; linarith
      linarith
  have ht0 : 0 ≤ (start - t0) / q := div_nonneg (by linarith) hq.le
  have hl := lively_wire rest ack
  have hsig : look q t0 b start (wire body ack) = sigOf (b / q) ((start - t0) / q) (wire body ack) :=
    funext fun n => look_scaled hq t0 b start _ n
  have main : (∀ k < h.length, h[k]? = some ((wire body ack).getD k true)) ∧
      (start - t0) / q + 20 * (h.length + 2) > n := by
    by_cases hn : (n : ℤ) ≤ ⌈(start - t0) / q⌉
    · have hh : h = [] := by
        show heard tm _ n = []
        unfold heard
        rw [hsig, listen_idle ht0 _ n hn]
      rw [hh]
      refine ⟨fun k hk => by simp at hk, ?_⟩
      have h3 := Int.ceil_lt_add_one ((start - t0) / q)
      have h4 : ((n : ℤ) : ℚ) ≤ ⌈(start - t0) / q⌉ := by exact_mod_cast hn
      push_cast at h4
      simp only [List.length_nil]
      push_cast
      linarith
    · obtain ⟨r, j, hr, hs⟩ := listen_step hc ht0 hl n (by omega)
      have hh : h = r.heard := by
        show heard tm _ n = _
        unfold heard
        rw [hsig, hr]
      rw [hh]
      refine ⟨hs.heard, ?_⟩
      have h3 := heard_much hc hl hs
      have h4 := E_hi (τ := b / q) (t0 := (start - t0) / q) 0
      have h5 : T (b / q) ((start - t0) / q) 0 = (start - t0) / q := by unfold T; simp
      rw [h5] at h4
      have h6 : ((n : ℤ) : ℚ) ≤ ((E (b / q) ((start - t0) / q) 0 + 20 * (r.heard.length + 1) : ℤ) : ℚ) := by
        exact_mod_cast h3
      push_cast at h6
      linarith
  refine ⟨main.1, main.2, fun hle => ?_⟩
  have : h.take (stuff body).length = stuff body := by
    apply List.ext_getElem?
    intro k
    by_cases hk : k < (stuff body).length
    · rw [List.getElem?_take_of_lt hk, main.1 k (by omega)]
      unfold wire
      rw [List.getD_eq_getElem?_getD, List.getElem?_append_left hk, List.getElem?_eq_getElem hk]
      rfl
    · rw [List.getElem?_eq_none (by simp; omega), List.getElem?_eq_none (by omega)]
  rw [this]
  exact unstuff_stuffFrom body 0 true (by omega)

/-- **C152.** With a crystal within 0.1 % of 16 MHz: each of the three controllers reads every frame of a node that
sends 1 Mbit/s up to 0.3 %, and a controller set in the same way, with time quanta of a node 0.3 % off, reads every
frame the VCU sends — bit by bit as sent, whatever the frame and the moment. -/
theorem C152_links (r : Regs) (i : Init) (hi : i ∈ [can1, can2, can3]) (f : ℚ) (hf : 16000000 * (1 - 1/1000) ≤ f)
    (hf' : f ≤ 16000000 * (1 + 1/1000)) (rate : ℚ) (hr : 1000000 * (1 - 3/1000) ≤ rate)
    (hr' : rate ≤ 1000000 * (1 + 3/1000)) (t0 start : ℚ) (ht : t0 ≤ start) (rest : List Bool) (ack : Bool) (n : Nat) :
    let v := canStart (canInit r i)
    let q := quantumTime v (clock f)
    let body := false :: rest
    (let h := heard (timing v) (look q t0 (1 / rate) start (wire body ack)) n
     (∀ k < h.length, h[k]? = some ((wire body ack).getD k true)) ∧ (start - t0) / q + 20 * (h.length + 2) > n ∧
     ((stuff body).length ≤ h.length → unstuff (h.take (stuff body).length) = some body)) ∧
    (let q' := 1 / (18 * rate)
     let h := heard (timing v) (look q' t0 ((timing v).bit * q) start (wire body ack)) n
     (∀ k < h.length, h[k]? = some ((wire body ack).getD k true)) ∧ (start - t0) / q' + 20 * (h.length + 2) > n ∧
     ((stuff body).length ≤ h.length → unstuff (h.take (stuff body).length) = some body)) := by
  intro v q body
  obtain ⟨-, htm, hqt, -⟩ := C152_settings r i hi
  have hq : q = 3 / clock f := hqt _
  have hc : clock f = f * (27 / 8) := by
    simp only [clock, Clock.pclk1, Clock.apb1_val, Clock.hclk_val]; push_cast; ring
  have hfp : 0 < f := by linarith
  have hrp : 0 < rate := by linarith
  have hq' : q = 8 / (9 * f) := by rw [hq, hc]; field_simp; norm_num
  have hqp : 0 < q := by rw [hq']; positivity
  have htm' : timing v = ⟨15, 2, 1⟩ := htm
  have hbit : (((timing v).bit : Nat) : ℚ) = 18 := by rw [htm']; norm_num [Timing.bit]
  constructor
  · rw [htm']
    refine C152_line q (1 / rate) hqp ?_ ?_ t0 start ht rest ack n
    · rw [le_div_iff₀ hrp, hq']
      rw [show 18 * (8 / (9 * f)) * (1 - 1 / 234) * rate = 16 * (233/234) * rate / f by field_simp; ring]
      rw [div_le_iff₀ hfp]; linarith
    · rw [div_le_iff₀ hrp, hq']
      rw [show 18 * (8 / (9 * f)) * (1 + 1 / 234) * rate = 16 * (235/234) * rate / f by field_simp; ring]
      rw [le_div_iff₀ hfp]; linarith
  · rw [hbit, htm']
    refine C152_line (1 / (18 * rate)) (18 * q) (by positivity) ?_ ?_ t0 start ht rest ack n
    · rw [hq']
      rw [show 18 * (1 / (18 * rate)) * (1 - 1 / 234) = (233/234) / rate by field_simp; ring]
      rw [div_le_iff₀ hrp, show 18 * (8 / (9 * f)) * rate = 16 * rate / f by field_simp; ring, le_div_iff₀ hfp]
      linarith
    · rw [hq']
      rw [show 18 * (1 / (18 * rate)) * (1 + 1 / 234) = (235/234) / rate by field_simp; ring]
      rw [le_div_iff₀ hrp, show 18 * (8 / (9 * f)) * rate = 16 * rate / f by field_simp; ring, div_le_iff₀ hfp]
      linarith

/-- A stream with runs of more than five bits, sent 0.4 % slow from between two quanta on, is read as sent. -/
example :
    let body := List.replicate 7 false ++ List.replicate 11 true ++ [false, true, false]
    heard ⟨15, 2, 1⟩ (look 1 0 (18072/1000) (33/10) (wire body false)) 490 = wire body false ++ [true] ∧
    wire body false ≠ body ++ [true, false] := by decide +kernel

/-- With bits 4 % too long it is not: one bit is read twice. -/
example :
    let body := List.replicate 7 false ++ List.replicate 11 true ++ [false, true, false]
    (heard ⟨15, 2, 1⟩ (look 1 0 (1872/100) (33/10) (wire body false)) 490).take 25 ≠ wire body false := by
  decide +kernel

/-- Without the corrections (jump width 0) an error of 1 % adds up over the frame, and a bit is lost; with them it is
made good at every edge. -/
example :
    let body := false :: (List.replicate 12 [true, false]).flatten
    heard ⟨15, 2, 0⟩ (look 1 0 (1782/100) (33/10) (wire body false)) 500 ≠ wire body false ∧
    heard ⟨15, 2, 1⟩ (look 1 0 (1782/100) (33/10) (wire body false)) 500 = wire body false := by
  decide +kernel

end Verif.CanLine
