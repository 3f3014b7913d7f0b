import Verif.Spec.ClockLimits
import Mathlib.Tactic.Linarith
import Mathlib.Tactic.NormNum
import Mathlib.Tactic.FieldSimp
import Mathlib.Tactic.Positivity
import Mathlib.Tactic.Ring
import Mathlib.Algebra.Order.Field.Basic
import Mathlib.Data.Rat.Cast.Order

set_option autoImplicit false

/-!
# C155: the clocks are set up without ever leaving what the processor stands
-/

namespace Verif.ClockStart

/-- What is known at a point of the program: the registers, and some of the flags. -/
structure Know where
  r : Regs
  hse : Option Bool
  pll : Option Bool
  od : Option Bool
  odSw : Option Bool
  sws : Option Src

def At (a : Know) (s : Hw) : Prop :=
  s.r = a.r ∧ (∀ b, a.hse = some b → s.h.hse = b) ∧ (∀ b, a.pll = some b → s.h.pll = b) ∧
  (∀ b, a.od = some b → s.h.od = b) ∧ (∀ b, a.odSw = some b → s.h.odSw = b) ∧
  (∀ b, a.sws = some b → s.h.sws = b) ∧ (s.h.sws = .hsi ∨ s.h.sws = a.r.sw)

/-- The hardware cannot change what is known. -/
def Know.firm (a : Know) : Bool :=
  (a.hse != some false || !a.r.hseOn) && (a.pll != some false || !a.r.pllOn) &&
  (a.pll != some true || a.r.pllOn) && (a.od != some false || !a.r.odEn) &&
  (a.odSw != some false || !a.r.odSwEn) &&
  match a.sws with
  | none => true
  | some x => x == a.r.sw

theorem At.hw {a : Know} (hf : a.firm = true) {s : Hw} (h : At a s) (e : Ev) : At a (hw s e) := by
  obtain ⟨r, a1, a2, a3, a4, a5⟩ := a
  obtain ⟨h0, h1, h2, h3, h4, h5, h6⟩ := h
  obtain ⟨sr, sh⟩ := s
  simp only at h0
  subst h0
  simp only [Know.firm, Bool.and_eq_true, Bool.or_eq_true, bne_iff_ne, ne_eq,
    Bool.not_eq_eq_eq_not, Bool.not_true] at hf
  obtain ⟨⟨⟨⟨⟨f1, f2⟩, f3⟩, f4⟩, f5⟩, f6⟩ := hf
  cases e <;> simp only [ClockStart.hw]
  case hseUp =>
    split_ifs with g
    · refine ⟨rfl, ?_, h2, h3, h4, h5, h6⟩
      rintro (_ | _) hb
      · rcases f1 with f1 | f1
        · exact absurd hb f1
        · simp [f1] at g
      · rfl
    · exact ⟨rfl, h1, h2, h3, h4, h5, h6⟩
  case lsiUp =>
    split_ifs with g <;> exact ⟨rfl, h1, h2, h3, h4, h5, h6⟩
  case pllLock =>
    split_ifs with g
    · refine ⟨rfl, h1, ?_, h3, h4, h5, h6⟩
      rintro (_ | _) hb
      · rcases f2 with f2 | f2
        · exact absurd hb f2
        · simp [f2] at g
      · rfl
    · exact ⟨rfl, h1, h2, h3, h4, h5, h6⟩
  case pllStop =>
    split_ifs with g
    · exact ⟨rfl, h1, h2, h3, h4, h5, h6⟩
    · refine ⟨rfl, h1, ?_, h3, h4, h5, h6⟩
      rintro (_ | _) hb
      · rfl
      · rcases f3 with f3 | f3
        · exact absurd hb f3
        · exact absurd f3 g
  case odUp =>
    split_ifs with g
    · refine ⟨rfl, h1, h2, ?_, h4, h5, h6⟩
      rintro (_ | _) hb
      · rcases f4 with f4 | f4
        · exact absurd hb f4
        · simp [f4] at g
      · rfl
    · exact ⟨rfl, h1, h2, h3, h4, h5, h6⟩
  case odSwUp =>
    split_ifs with g
    · refine ⟨rfl, h1, h2, h3, ?_, h5, h6⟩
      rintro (_ | _) hb
      · rcases f5 with f5 | f5
        · exact absurd hb f5
        · simp [f5] at g
      · rfl
    · exact ⟨rfl, h1, h2, h3, h4, h5, h6⟩
  case swap =>
    split_ifs with g
    · refine ⟨rfl, h1, h2, h3, h4, ?_, Or.inr rfl⟩
      intro b hb
      simp only at hb
      rw [hb] at f6
      simp only [beq_iff_eq] at f6
      exact f6.symm
    · exact ⟨rfl, h1, h2, h3, h4, h5, h6⟩

/-- A proof outline: at the start of the program `a` is known, and every point that can be reached from there
has `G` of its knowledge; a change of PLLCFGR happens only with the PLL off; the end has `E`. -/
inductive Ok (G E : Know → Prop) : Know → Prog → Prop
  | done {a : Know} : a.firm = true → G a → E a → Ok G E a .done
  | error {a : Know} : a.firm = true → G a → Ok G E a .error
  | act {a b : Know} {g : Regs → Regs} {k : Prog} : a.firm = true → G a →
      (∀ s, At a s → At b { s with r := g s.r }) →
      ((g a.r).pll = a.r.pll ∨ (a.r.pllOn = false ∧ a.pll = some false)) → Ok G E b k →
      Ok G E a (.act g k)
  | wait {a b : Know} {c : Hw → Bool} {k : Prog} : a.firm = true → G a →
      (∀ s, At a s → c s = true → At b s) → Ok G E b k → Ok G E a (.wait c k)
  | yes {a : Know} {c : Hw → Bool} {k l : Prog} : a.firm = true → G a →
      (∀ s, At a s → c s = true) → Ok G E a k → Ok G E a (.test c k l)
  | no {a : Know} {c : Hw → Bool} {k l : Prog} : a.firm = true → G a →
      (∀ s, At a s → c s = false) → Ok G E a l → Ok G E a (.test c k l)

theorem Ok.good {G E : Know → Prop} {a : Know} {p : Prog} (h : Ok G E a p) : a.firm = true ∧ G a := by
  cases h <;> exact ⟨by assumption, by assumption⟩

theorem Ok.step {G E : Know → Prop} {a : Know} {s t : Hw} {p q : Prog} (h : Ok G E a p) (hs : At a s)
    (st : Step (s, p) (t, q)) : ∃ b, Ok G E b q ∧ At b t := by
  cases st with
  | hw s p e => exact ⟨a, h, hs.hw h.good.1 e⟩
  | act s g k =>
    cases h with
    | act h1 h2 h3 h4 h5 => exact ⟨_, h5, h3 _ hs⟩
  | go s c k hc =>
    cases h with
    | wait h1 h2 h3 h4 => exact ⟨_, h4, h3 _ hs hc⟩
  | timeout s c k hc =>
    cases h with
    | wait h1 h2 h3 h4 => exact ⟨a, .error h1 h2, hs⟩
  | yes s c k l hc =>
    cases h with
    | yes h1 h2 h3 h4 => exact ⟨a, h4, hs⟩
    | no h1 h2 h3 h4 => rw [h3 _ hs] at hc; exact absurd hc (by decide)
  | no s c k l hc =>
    cases h with
    | yes h1 h2 h3 h4 => rw [h3 _ hs] at hc; exact absurd hc (by decide)
    | no h1 h2 h3 h4 => exact ⟨a, h4, hs⟩

/-! ## The outline -/

/-- Registers along the way. -/
def rg (hse lsi on : Bool) (pll cfgr : Nat) (sw : Src) (lat : Nat) (od odSw : Bool) : Regs :=
  ⟨hse, lsi, on, pll, cfgr, sw, lat, 3, od, odSw⟩

/-- Bounds that hold while the internal oscillator drives the system, and those once the PLL may. -/
def Fine (a : Know) : Prop :=
  a.r.vos = 3 ∧
  (a.r.pllOn = true → a.r.pll = Clock.shippedPll) ∧
  ((a.sws = some .hsi) ∨
   (a.r.sw = .pll ∧ a.r.pllOn = true ∧ a.r.hseOn = true ∧ a.hse = some true ∧ a.pll = some true ∧
    a.odSw = some true ∧ a.r.latency = 7 ∧ Clock.ahbDiv (Clock.field a.r.cfgr 4 4) = 1 ∧
    4 ≤ Clock.apbDiv (Clock.field a.r.cfgr 10 3) ∧ 2 ≤ Clock.apbDiv (Clock.field a.r.cfgr 13 3)))

def Ended (a : Know) : Prop :=
  a.sws = some .pll ∧ a.odSw = some true ∧
  a.r = rg true true true Clock.shippedPll Clock.shippedCfgr .pll 7 true true

def P : Nat := Clock.shippedPll
def P0 : Nat := 0x24003010

macro "upd" : tactic => `(tactic|
  (rintro ⟨sr, sh⟩ ⟨h0, h1, h2, h3, h4, h5, h6⟩
   simp only at h0
   subst h0
   refine ⟨by first | rfl | (dsimp only [rg]; decide +kernel), ?_, ?_, ?_, ?_, ?_, ?_⟩ <;>
   simp_all [rg]))

macro "wt" : tactic => `(tactic|
  (rintro ⟨sr, sh⟩ ⟨h0, h1, h2, h3, h4, h5, h6⟩ hc
   simp only at h0
   subst h0
   refine ⟨rfl, ?_, ?_, ?_, ?_, ?_, ?_⟩ <;>
   simp_all [rg]))

macro "br" : tactic => `(tactic|
  (rintro ⟨sr, sh⟩ ⟨h0, h1, h2, h3, h4, h5, h6⟩
   simp only at h0
   subst h0
   simp_all [rg]))

macro "fine" : tactic => `(tactic|
  (refine ⟨rfl, ?_, ?_⟩
   · first
     | exact fun h => absurd h (by decide)
     | exact fun _ => rfl
   · first
     | exact Or.inl rfl
     | exact Or.inr ⟨rfl, rfl, rfl, rfl, rfl, rfl, rfl, by decide +kernel, by decide +kernel,
         by decide +kernel⟩))

theorem outline : Ok Fine Ended ⟨reset.r, some false, some false, some false, some false, some .hsi⟩ setup := by
  refine .act (b := ⟨rg false false false P0 0 .hsi 0 false false, some false, some false, some false,
    some false, some .hsi⟩) rfl (by fine) (by upd) (Or.inl rfl) ?_
  refine .no rfl (by fine) (by br) ?_
  refine .act (b := ⟨rg true false false P0 0 .hsi 0 false false, none, some false, some false,
    some false, some .hsi⟩) rfl (by fine) (by upd) (Or.inl rfl) ?_
  refine .wait (b := ⟨rg true false false P0 0 .hsi 0 false false, some true, some false, some false,
    some false, some .hsi⟩) rfl (by fine) (by wt) ?_
  refine .act (b := ⟨rg true true false P0 0 .hsi 0 false false, some true, some false, some false,
    some false, some .hsi⟩) rfl (by fine) (by upd) (Or.inl rfl) ?_
  refine .wait (b := ⟨rg true true false P0 0 .hsi 0 false false, some true, some false, some false,
    some false, some .hsi⟩) rfl (by fine) (by wt) ?_
  refine .yes rfl (by fine) (by br) ?_
  refine .act (b := ⟨rg true true false P0 0 .hsi 0 false false, some true, some false, some false,
    some false, some .hsi⟩) rfl (by fine) (by upd) (Or.inl rfl) ?_
  refine .wait (b := ⟨rg true true false P0 0 .hsi 0 false false, some true, some false, some false,
    some false, some .hsi⟩) rfl (by fine) (by wt) ?_
  refine .act (b := ⟨rg true true false P 0 .hsi 0 false false, some true, some false, some false,
    some false, some .hsi⟩) rfl (by fine) (by upd) (Or.inr ⟨rfl, rfl⟩) ?_
  refine .act (b := ⟨rg true true true P 0 .hsi 0 false false, some true, none, some false,
    some false, some .hsi⟩) rfl (by fine) (by upd) (Or.inl rfl) ?_
  refine .wait (b := ⟨rg true true true P 0 .hsi 0 false false, some true, some true, some false,
    some false, some .hsi⟩) rfl (by fine) (by wt) ?_
  refine .act (b := ⟨rg true true true P 0 .hsi 0 true false, some true, some true, none,
    some false, some .hsi⟩) rfl (by fine) (by upd) (Or.inl rfl) ?_
  refine .wait (b := ⟨rg true true true P 0 .hsi 0 true false, some true, some true, some true,
    some false, some .hsi⟩) rfl (by fine) (by wt) ?_
  refine .act (b := ⟨rg true true true P 0 .hsi 0 true true, some true, some true, some true,
    none, some .hsi⟩) rfl (by fine) (by upd) (Or.inl rfl) ?_
  refine .wait (b := ⟨rg true true true P 0 .hsi 0 true true, some true, some true, some true,
    some true, some .hsi⟩) rfl (by fine) (by wt) ?_
  refine .yes rfl (by fine) (by br) ?_
  refine .act (b := ⟨rg true true true P 0 .hsi 7 true true, some true, some true, some true,
    some true, some .hsi⟩) rfl (by fine) (by upd) (Or.inl rfl) ?_
  refine .yes rfl (by fine) (by br) ?_
  refine .act (b := ⟨rg true true true P 0x1C00 .hsi 7 true true, some true, some true, some true,
    some true, some .hsi⟩) rfl (by fine) (by upd) (Or.inl rfl) ?_
  refine .act (b := ⟨rg true true true P 0xFC00 .hsi 7 true true, some true, some true, some true,
    some true, some .hsi⟩) rfl (by fine) (by upd) (Or.inl rfl) ?_
  refine .act (b := ⟨rg true true true P 0xFC00 .hsi 7 true true, some true, some true, some true,
    some true, some .hsi⟩) rfl (by fine) (by upd) (Or.inl rfl) ?_
  refine .yes rfl (by fine) (by br) ?_
  refine .act (b := ⟨rg true true true P 0xFC00 .pll 7 true true, some true, some true, some true,
    some true, none⟩) rfl (by fine) (by upd) (Or.inl rfl) ?_
  refine .wait (b := ⟨rg true true true P 0xFC00 .pll 7 true true, some true, some true, some true,
    some true, some .pll⟩) rfl (by fine) (by wt) ?_
  refine .act (b := ⟨rg true true true P 0xFC00 .pll 7 true true, some true, some true, some true,
    some true, some .pll⟩) rfl (by fine) (by upd) (Or.inl rfl) ?_
  refine .act (b := ⟨rg true true true P 0xF400 .pll 7 true true, some true, some true, some true,
    some true, some .pll⟩) rfl (by fine) (by upd) (Or.inl rfl) ?_
  refine .act (b := ⟨rg true true true P 0x9400 .pll 7 true true, some true, some true, some true,
    some true, some .pll⟩) rfl (by fine) (by upd) (Or.inl rfl) ?_
  exact .done rfl (by fine) ⟨rfl, rfl, by decide +kernel⟩

theorem reach_ok {x : Hw × Prog} (h : Reach x) : ∃ a, Ok Fine Ended a x.2 ∧ At a x.1 := by
  induction h with
  | init =>
    refine ⟨_, outline, rfl, ?_, ?_, ?_, ?_, ?_, Or.inl rfl⟩ <;> intro b hb <;> cases hb <;> rfl
  | step _ st ih =>
    obtain ⟨a, ha, hat⟩ := ih
    exact ha.step hat st


/-! ## Numbers -/

theorem div_le_of_one {x b : ℚ} {d : Nat} (hx : 0 ≤ x) (hxb : x ≤ b) : x / d ≤ b := by
  rcases Nat.eq_zero_or_pos d with h | h
  · subst h; simp only [Nat.cast_zero, div_zero]; linarith
  · have h1 : (1 : ℚ) ≤ d := by exact_mod_cast h
    rw [div_le_iff₀ (by linarith)]
    nlinarith

theorem div_le_of_le {x b : ℚ} {d k : Nat} (hx : 0 ≤ x) (hk : 0 < k) (hd : k ≤ d) (hxb : x / k ≤ b) :
    x / d ≤ b := by
  have hk' : (0 : ℚ) < k := by exact_mod_cast hk
  have hd' : (k : ℚ) ≤ d := by exact_mod_cast hd
  exact le_trans (div_le_div_of_nonneg_left hx hk' hd') hxb

/-- **C155, never outside.** Take oscillators that are off by a factor of at most `t`. At every moment of the
set-up of the clocks, whenever the oscillators, the PLL, the regulator and the clock switch respond, and also
when one of them does not respond and the set-up gives up: the processor clock is one that the flash can
serve with the wait states set at that moment, and that the core supply allows; both peripheral buses are
within their limits; the system runs from the PLL only while that is locked; the PLL runs within its range;
and over-drive is not switched while the PLL drives the system. -/
theorem C155_within_limits (f h t : ℚ) (ht : 1 ≤ t) (hf1 : 16000000 ≤ f * t) (hf2 : f ≤ 16000000 * t)
    (hh0 : 0 < h) (hh2 : h ≤ 16000000 * t) (s : Hw) (p : Prog) (hr : Reach (s, p)) : Safe f h t s := by
  obtain ⟨a, ha, hat⟩ := reach_ok hr
  obtain ⟨-, g1, g2, g3⟩ := ha.good
  obtain ⟨e0, e1, e2, e3, e4, e5, e6⟩ := hat
  simp only at e0 e1 e2 e3 e4 e5 e6
  have hf0 : 0 < f := by
    by_contra hn
    nlinarith
  have q1 : Clock.field Clock.shippedPll 0 6 = 8 := by decide +kernel
  have q2 : Clock.field Clock.shippedPll 6 9 = 216 := by decide +kernel
  have q3 : Clock.field Clock.shippedPll 16 2 = 0 := by decide +kernel
  have q4 : Clock.field Clock.shippedPll 22 1 = 1 := by decide +kernel
  have hpll : s.r.pllOn = true →
      let i := (if Clock.field s.r.pll 22 1 = 1 then f else h) / Clock.field s.r.pll 0 6
      let v := i * Clock.field s.r.pll 6 9
      1000000 ≤ i * t ∧ i ≤ 2000000 * t ∧ 100000000 ≤ v * t ∧ v ≤ 432000000 * t := by
    intro hon
    rw [e0] at hon ⊢
    have := g2 hon
    simp only [this, q1, q2, q4, if_true]
    push_cast
    refine ⟨?_, ?_, ?_, ?_⟩ <;> linarith
  have hvos : ∀ o, 180000000 ≤ coreMax s.r.vos o := by
    intro o
    rw [e0, g1]
    cases o <;> norm_num [coreMax]
  -- the internal oscillator
  have hsi : s.h.sws = .hsi → Safe f h t s := by
    intro hs
    have hc0 : sysclk f h s = h := by simp only [sysclk, hs]
    have hcn : 0 ≤ core f h s := by
      unfold core; rw [hc0]; positivity
    have hc : core f h s ≤ 16000000 * t := by
      unfold core; rw [hc0]
      exact div_le_of_one (le_of_lt hh0) hh2
    refine ⟨?_, ?_, ?_, ?_, ?_, hpll, ?_⟩
    · have : (0 : ℚ) ≤ s.r.latency := by positivity
      nlinarith
    · have := hvos s.h.odSw
      nlinarith
    · refine div_le_of_one hcn (le_trans hc ?_)
      split_ifs <;> nlinarith
    · refine div_le_of_one hcn (le_trans hc ?_)
      split_ifs <;> nlinarith
    · intro h'; rw [hs] at h'; exact absurd h' (by decide)
    · intro _ _ h'; rw [hs] at h'; exact absurd h' (by decide)
  rcases g3 with g3 | ⟨k1, k2, k3, k4, k5, k6, k7, k8, k9, k10⟩
  · exact hsi (e5 _ g3)
  · rcases e6 with e6 | e6
    · exact hsi e6
    · rw [k1] at e6
      have hon : s.r.pllOn = true := by rw [e0]; exact k2
      have hP : s.r.pll = Clock.shippedPll := by rw [e0]; exact g2 k2
      have hod : s.h.odSw = true := e4 _ k6
      have hc : core f h s = f * 27 / 2 := by
        simp only [core, sysclk, e6, hP, q4, if_true, Clock.sysClock, q1, q2, q3]
        rw [e0, k8]
        push_cast
        ring
      have hcn : 0 ≤ core f h s := by rw [hc]; positivity
      refine ⟨?_, ?_, ?_, ?_, ?_, hpll, ?_⟩
      · rw [hc, e0, k7]; push_cast; linarith
      · rw [hc, e0, g1, hod]; simp only [coreMax, if_true]; linarith
      · unfold bus1
        rw [e0, hod]
        simp only [if_true]
        refine div_le_of_le hcn (by decide) k9 ?_
        rw [hc]; push_cast; linarith
      · unfold bus2
        rw [e0, hod]
        simp only [if_true]
        refine div_le_of_le hcn (by decide) k10 ?_
        rw [hc]; push_cast; linarith
      · intro _
        exact ⟨hon, e2 _ k5, e1 _ k4, by rw [e0]; exact k3⟩
      · intro _ h'; rw [hod] at h'; exact absurd h' (by decide)

theorem Ok.end {G E : Know → Prop} {a : Know} (h : Ok G E a .done) : E a := by
  cases h; assumption

/-- **C155, the end.** When the set-up returns, the processor runs at 27/2 of the crystal (216 MHz), from the
PLL, with the buses at a quarter and at half of that, eight cycles to a flash access, and in over-drive; it
stays so whatever the hardware does. -/
theorem C155_at_the_end (f h : ℚ) (s : Hw) (hr : Reach (s, .done)) :
    s.h.sws = .pll ∧ core f h s = f * 27 / 2 ∧ bus1 f h s = f * 27 / 8 ∧ bus2 f h s = f * 27 / 4 ∧
    s.r.latency = 7 ∧ s.h.odSw = true := by
  obtain ⟨a, ha, hat⟩ := reach_ok hr
  obtain ⟨k1, k2, k3⟩ := ha.end
  obtain ⟨e0, e1, e2, e3, e4, e5, e6⟩ := hat
  simp only at e0 e1 e2 e3 e4 e5 e6
  have hs := e5 _ k1
  have hR : s.r = rg true true true Clock.shippedPll Clock.shippedCfgr .pll 7 true true := e0.trans k3
  have q1 : Clock.field Clock.shippedPll 0 6 = 8 := by decide +kernel
  have q2 : Clock.field Clock.shippedPll 6 9 = 216 := by decide +kernel
  have q3 : Clock.field Clock.shippedPll 16 2 = 0 := by decide +kernel
  have q4 : Clock.field Clock.shippedPll 22 1 = 1 := by decide +kernel
  have d1 : Clock.ahbDiv (Clock.field Clock.shippedCfgr 4 4) = 1 := by decide +kernel
  have d2 : Clock.apbDiv (Clock.field Clock.shippedCfgr 10 3) = 4 := by decide +kernel
  have d3 : Clock.apbDiv (Clock.field Clock.shippedCfgr 13 3) = 2 := by decide +kernel
  have hc : core f h s = f * 27 / 2 := by
    simp only [core, sysclk, hs, hR, rg, q4, if_true, Clock.sysClock, q1, q2, q3, d1]
    push_cast
    ring
  refine ⟨hs, hc, ?_, ?_, by rw [hR]; rfl, e4 _ k2⟩
  · simp only [bus1, hc, hR, rg, d2]; push_cast; ring
  · simp only [bus2, hc, hR, rg, d3]; push_cast; ring

/-- **C155, the PLL is left alone while it runs.** The registers that set the frequency of the PLL change only
while the PLL is switched off and has stopped. -/
theorem C155_pll_set_while_off (s s' : Hw) (p p' : Prog) (hr : Reach (s, p)) (st : Step (s, p) (s', p'))
    (hne : s'.r.pll ≠ s.r.pll) : s.r.pllOn = false ∧ s.h.pll = false := by
  obtain ⟨a, ha, hat⟩ := reach_ok hr
  cases st with
  | hw s p e =>
    exfalso; apply hne
    cases e <;> simp only [hw] <;> split_ifs <;> rfl
  | act s g k =>
    cases ha with
    | act h1 h2 h3 h4 h5 =>
      obtain ⟨e0, e1, e2, e3, e4, e5, e6⟩ := hat
      simp only at e0 e2 hne
      rcases h4 with h4 | ⟨h4, h4'⟩
      · rw [e0] at hne; exact absurd h4 hne
      · exact ⟨by rw [e0]; exact h4, e2 _ h4'⟩
  | go | timeout | yes | no => exact absurd rfl hne

/-! ## A concrete start -/

/-- Runs the set-up with the hardware events listed; a wait whose condition does not hold yet takes the next
event. -/
def play : Nat → List Ev → Hw → Prog → Hw × Prog
  | 0, _, s, p => (s, p)
  | _ + 1, _, s, .done => (s, .done)
  | _ + 1, _, s, .error => (s, .error)
  | n + 1, es, s, .act g k => play n es { s with r := g s.r } k
  | n + 1, es, s, .test c a b => play n es s (if c s then a else b)
  | n + 1, es, s, .wait c k =>
    if c s then play n es s k
    else match es with
      | [] => (s, .error)
      | e :: es => play n es (hw s e) (.wait c k)

theorem play_reach (n : Nat) : ∀ (es : List Ev) (s : Hw) (p : Prog), Reach (s, p) → Reach (play n es s p) := by
  induction n with
  | zero => intro es s p h; exact h
  | succ n ih =>
    intro es s p h
    cases p with
    | done => exact h
    | error => exact h
    | act g k => exact ih _ _ _ (h.step (.act s g k))
    | test c a b =>
      rw [play]
      cases hc : c s
      · simpa [hc] using ih es s b (h.step (.no s c a b hc))
      · simpa [hc] using ih es s a (h.step (.yes s c a b hc))
    | wait c k =>
      rw [play.eq_def]
      dsimp only
      cases hc : c s
      · cases es with
        | nil => exact h.step (.timeout s c k hc)
        | cons e es => exact ih _ _ _ (h.step (.hw s _ e))
      · simpa [hc] using ih es s k (h.step (.go s c k hc))

/-- Everything answers: the set-up ends at 216 MHz. -/
example : (play 60 [.hseUp, .lsiUp, .pllLock, .odUp, .odSwUp, .swap] reset setup).1.h.sws = .pll ∧
    core 16000000 16000000 (play 60 [.hseUp, .lsiUp, .pllLock, .odUp, .odSwUp, .swap] reset setup).1
      = 216000000 := by
  constructor
  · decide +kernel
  · have := (play_reach 60 [.hseUp, .lsiUp, .pllLock, .odUp, .odSwUp, .swap] reset setup .init)
    have hd : (play 60 [.hseUp, .lsiUp, .pllLock, .odUp, .odSwUp, .swap] reset setup).2 = .done := rfl
    generalize hx : play 60 [.hseUp, .lsiUp, .pllLock, .odUp, .odSwUp, .swap] reset setup = x at *
    obtain ⟨s, p⟩ := x
    simp only at hd
    subst hd
    rw [(C155_at_the_end 16000000 16000000 s this).2.1]
    norm_num

/-- The crystal does not start: the set-up gives up with the processor at 16 MHz. -/
example : (play 60 [.lsiUp, .swap] reset setup).1.h.sws = .hsi ∧
    (play 60 [.lsiUp, .swap] reset setup).1.r.hseOn = true := by
  decide +kernel

/-- The limits are not empty words: with no wait state the flash could not serve 216 MHz. -/
example : ¬ Safe 16000000 16000000 1
    { (play 60 [.hseUp, .lsiUp, .pllLock, .odUp, .odSwUp, .swap] reset setup).1 with
      r := rg true true true Clock.shippedPll Clock.shippedCfgr .pll 0 true true } := by
  intro hS
  have h1 := hS.flash
  have hs : (play 60 [.hseUp, .lsiUp, .pllLock, .odUp, .odSwUp, .swap] reset setup).1.h.sws = .pll := by
    decide +kernel
  have q1 : Clock.field Clock.shippedPll 0 6 = 8 := by decide +kernel
  have q2 : Clock.field Clock.shippedPll 6 9 = 216 := by decide +kernel
  have q3 : Clock.field Clock.shippedPll 16 2 = 0 := by decide +kernel
  have q4 : Clock.field Clock.shippedPll 22 1 = 1 := by decide +kernel
  have d1 : Clock.ahbDiv (Clock.field Clock.shippedCfgr 4 4) = 1 := by decide +kernel
  simp only [core, sysclk, hs, rg, q4, if_true, Clock.sysClock, q1, q2, q3, d1] at h1
  norm_num at h1

end Verif.ClockStart
