import Verif.Model.RtcRate
import Verif.Props.Rtc
import Mathlib.Tactic.SplitIfs
import Mathlib.Tactic.Ring
import Mathlib.Tactic.Linarith

set_option autoImplicit false

/-!
# C160: a second of the clock is a second, and a restart keeps the moment

The clock is connected to the internal oscillator (32 kHz nominally) and divides by 128 · 256 = 32768, the number for a
watch crystal. So its second is 1.024 seconds even at the nominal frequency: the claim is false, and how the clock
really counts is shown for every frequency.
-/

namespace Verif.RtcRate

open Rtc RtcSpec

/-- Cycles per second of the clock. -/
def period (d : Dom) : Nat := (d.predA + 1) * (d.predS + 1)

/-- Cycles since the calendar last advanced. -/
def phase (d : Dom) : Nat := d.cntS * (d.predA + 1) + d.cntA

/-- The clock is on and its counters are within the prescalers. -/
structure Running (d : Dom) : Prop where
  on : d.on = true
  cntA : d.cntA ≤ d.predA
  cntS : d.cntS ≤ d.predS

theorem phase_lt {d : Dom} (h : Running d) : phase d < period d := by
  have h1 : d.cntS * (d.predA + 1) ≤ d.predS * (d.predA + 1) := Nat.mul_le_mul_right _ h.cntS
  have h2 := h.cntA
  have h3 : period d = d.predS * (d.predA + 1) + (d.predA + 1) := by unfold period; ring
  unfold phase
  omega

/-- One cycle: one more, or a second. -/
theorem cycle_spec {d : Dom} (h : Running d) (hi : d.cal.init = false) :
    Running (cycle d) ∧ (cycle d).predA = d.predA ∧ (cycle d).predS = d.predS ∧
      ((phase d + 1 < period d ∧ phase (cycle d) = phase d + 1 ∧ (cycle d).cal = d.cal) ∨
       (phase d + 1 = period d ∧ phase (cycle d) = 0 ∧ (cycle d).cal = d.cal.ev .tick)) := by
  obtain ⟨h1, h2, h3⟩ := h
  have hc : ¬ (d.on = false ∨ d.cal.init = true) := by simp [h1, hi]
  have hp : period d = d.predS * (d.predA + 1) + (d.predA + 1) := by unfold period; ring
  have hm : d.cntS * (d.predA + 1) ≤ d.predS * (d.predA + 1) := Nat.mul_le_mul_right _ h3
  unfold cycle
  rw [if_neg hc]
  split_ifs with c1 c2
  · refine ⟨⟨h1, c1, h3⟩, rfl, rfl, .inl ⟨?_, ?_, rfl⟩⟩
    · unfold phase; omega
    · show d.cntS * (d.predA + 1) + (d.cntA + 1) = _
      unfold phase; omega
  · have e : d.cntA = d.predA := by omega
    refine ⟨⟨h1, Nat.zero_le _, c2⟩, rfl, rfl, .inl ⟨?_, ?_, rfl⟩⟩
    · have : (d.cntS + 1) * (d.predA + 1) ≤ d.predS * (d.predA + 1) := Nat.mul_le_mul_right _ c2
      rw [Nat.succ_mul] at this
      unfold phase; omega
    · show (d.cntS + 1) * (d.predA + 1) + 0 = _
      rw [Nat.succ_mul]
      unfold phase; omega
  · have e : d.cntA = d.predA := by omega
    have e' : d.cntS = d.predS := by omega
    refine ⟨⟨h1, Nat.zero_le _, Nat.zero_le _⟩, rfl, rfl, .inr ⟨?_, ?_, rfl⟩⟩
    · unfold phase; rw [e', e, hp]; omega
    · show 0 * (d.predA + 1) + 0 = 0
      omega

/-- **C160, counting.** Whatever the prescalers and wherever the counters stand: after any number `n` of cycles of the
oscillator the calendar has moved on by exactly the whole seconds of `period` cycles contained in them. -/
theorem C160_counts (x : Moment) (n : Nat) : ∀ (d : Dom) (k : Nat), Running d → CalRuns x k d.cal →
    CalRuns x (k + (phase d + n) / period d) (cycles n d).cal := by
  induction n with
  | zero =>
    intro d k h hc
    rw [Nat.add_zero, Nat.div_eq_of_lt (phase_lt h)]
    exact hc
  | succ n ih =>
    intro d k h hc
    obtain ⟨h1, hA, hS, h2⟩ := cycle_spec h hc.1
    have hp : period (cycle d) = period d := by unfold period; rw [hA, hS]
    have pos : 0 < period d := Nat.mul_pos (Nat.succ_pos _) (Nat.succ_pos _)
    rcases h2 with ⟨a, b, c⟩ | ⟨a, b, c⟩
    · have := ih (cycle d) k h1 (by rw [c]; exact hc)
      rw [b, hp] at this
      have e : phase d + (n + 1) = phase d + 1 + n := by omega
      rw [e]
      exact this
    · have hc' : CalRuns x (k + 1) (cycle d).cal := by
        rw [c]
        exact cal_evs [.tick] hc (fun e he => by simp at he; exact .inl he)
      have := ih (cycle d) (k + 1) h1 hc'
      rw [b, hp, Nat.zero_add] at this
      have e : phase d + (n + 1) = n + period d := by omega
      rw [e, Nat.add_div_right _ pos]
      have e2 : k + (n / period d).succ = k + 1 + n / period d := by omega
      rw [e2]
      exact this

/-- **C160, prescalers.** From power-on, `MX_RTC_Init` connects the internal oscillator and divides by 32768. -/
theorem C160_power_on : (mxRtcInit powerOn).sel = .lsi ∧ period (mxRtcInit powerOn) = 32768 ∧
    Running (mxRtcInit powerOn) ∧ phase (mxRtcInit powerOn) = 0 ∧
    CalRuns ⟨0, 0, 0, 1, 1, 1, 0⟩ 0 (mxRtcInit powerOn).cal := by
  refine ⟨by decide, by decide, ⟨by decide, by decide, by decide⟩, by decide, by decide, ?_⟩
  exact ⟨⟨0, 0, 0, 1, 1, 1, 0⟩, ⟨⟨by decide, by decide, by decide, by decide, by decide, by decide, by decide⟩,
    by decide, by decide, by decide⟩, by decide, by decide⟩

/-- **C160, rate.** With the prescalers of `MX_RTC_Init` and an oscillator of `f` cycles per second, `t` seconds
move the calendar on by `f t / 32768` seconds (counted from an instant at which it advanced). -/
theorem C160_rate (x : Moment) (d : Dom) (f t : Nat) (h : Running d) (hA : d.predA = 127) (hS : d.predS = 255)
    (h0 : phase d = 0) (hc : CalRuns x 0 d.cal) : CalRuns x (f * t / 32768) (cycles (f * t) d).cal := by
  have := C160_counts x (f * t) d 0 h hc
  rw [h0, Nat.zero_add, Nat.zero_add] at this
  have e : period d = 32768 := by unfold period; rw [hA, hS]
  rwa [e] at this

/-- **C160, exactly the watch crystal.** A frequency keeps time at every second exactly if it is 32768 Hz. -/
theorem C160_only_watch_crystal (f : Nat) : (∀ t, f * t / 32768 = t) ↔ f = lseHz := by
  constructor
  · intro h
    have := h 32768
    rw [Nat.mul_div_cancel _ (by decide : 0 < 32768)] at this
    exact this
  · rintro rfl t
    show 32768 * t / 32768 = t
    rw [Nat.mul_div_cancel_left _ (by decide : 0 < 32768)]

/-- **C160 is false.** The shipped clock runs from the internal oscillator. Even at its nominal 32000 Hz it has, after
any number of days up to a million, moved on by 2025 seconds (33 minutes 45 seconds) too little for each of them, and
does not show the moment it should. -/
theorem C160_behind (x : Moment) (d : Dom) (days : Nat) (hd : 1 ≤ days) (hd' : days ≤ 1000000) (hv : Valid x)
    (h : Running d) (hA : d.predA = 127) (hS : d.predS = 255) (h0 : phase d = 0) (hc : CalRuns x 0 d.cal) :
    CalRuns x (84375 * days) (cycles (lsiHz * (86400 * days)) d).cal ∧
    86400 * days - 84375 * days = 2025 * days ∧
    ∀ y, After x (86400 * days) y →
      ¬ ((cycles (lsiHz * (86400 * days)) d).cal.time = timeOf y ∧
         (cycles (lsiHz * (86400 * days)) d).cal.date = dateOf y) := by
  have e : lsiHz * (86400 * days) / 32768 = 84375 * days := by
    have : lsiHz * (86400 * days) = 84375 * days * 32768 := by unfold lsiHz; ring
    rw [this, Nat.mul_div_cancel _ (by decide : 0 < 32768)]
  have r := C160_rate x d lsiHz (86400 * days) h hA hS h0 hc
  rw [e] at r
  refine ⟨r, by omega, ?_⟩
  rintro y ha ⟨ht, hdt⟩
  obtain ⟨-, z, hz, zt, zd⟩ := r
  have e1 : timeOf y = timeOf z := ht.symm.trans zt
  have e2 : dateOf y = dateOf z := hdt.symm.trans zd
  have hyz : y = z := by
    cases y; cases z
    simp only [timeOf, dateOf, Time.mk.injEq, Date.mk.injEq] at e1 e2
    simp_all
  subst hyz
  have a1 := ha.time
  have a2 := ha.date
  have b1 := hz.time
  have b2 := hz.date
  have sx := secOfDay_lt x hv
  have dx := dayNo_lt x hv
  omega

/-- **C160, what holds**: connected to a watch crystal, the clock moves on by `t` seconds in `t` seconds. Missing: the
shipped clock is connected to the internal oscillator. -/
theorem C160_clock_partial (x : Moment) (d : Dom) (t : Nat) (h : Running d) (hA : d.predA = 127) (hS : d.predS = 255)
    (h0 : phase d = 0) (hc : CalRuns x 0 d.cal) : CalRuns x t (cycles (lseHz * t) d).cal := by
  have r := C160_rate x d lseHz t h hA hS h0 hc
  rwa [(C160_only_watch_crystal lseHz).2 rfl t] at r

/-- **C160, restart.** `MX_RTC_Init` after a restart of a clock that is connected to the internal oscillator leaves the
calendar as it is; if the year is not 2000 it changes nothing at all but switching the clock on. -/
theorem C160_restart (d : Dom) (h : d.sel = .lsi) :
    (mxRtcInit d).cal = d.cal ∧ (d.cal.date.year ≠ 0 → mxRtcInit d = { d with on := true }) := by
  have e : mspInit d = { d with on := true } := by
    cases d
    simp only at h
    subst h
    simp [mspInit, periphClk]
  constructor
  · show (if inits (mspInit d) then mspInit d else configure (mspInit d) 127 255).cal = _
    rw [e]
    split_ifs <;> rfl
  · intro hy
    show (if inits (mspInit d) then mspInit d else configure (mspInit d) 127 255) = _
    rw [e, if_pos]
    simpa [inits] using hy

/-- **C160, prescalers of a clock that was set.** Whatever prescalers the program asks for, a clock that shows
another year than 2000 keeps the ones it had: to correct them in the program would not be enough. -/
theorem C160_prescalers_kept (d : Dom) (a s : Nat) (h : d.sel = .lsi) (hy : d.cal.date.year ≠ 0) :
    (halInit d a s).predA = d.predA ∧ (halInit d a s).predS = d.predS := by
  have e : mspInit d = { d with on := true } := by
    cases d
    simp only at h
    subst h
    simp [mspInit, periphClk]
  have : halInit d a s = { d with on := true } := by
    show (if inits (mspInit d) then mspInit d else configure (mspInit d) a s) = _
    rw [e, if_pos]
    simpa [inits] using hy
  rw [this]
  exact ⟨rfl, rfl⟩

/-- **C160, another oscillator.** A clock that was connected to another oscillator loses its moment. -/
theorem C160_source_change (d : Dom) (h : d.sel = .lse ∨ d.sel = .hse) :
    (mxRtcInit d).cal = powerOn.cal ∧ (mxRtcInit d).sel = .lsi ∧ period (mxRtcInit d) = 32768 := by
  have hn : d.sel ≠ .none ∧ d.sel ≠ .lsi := by rcases h with h | h <;> rw [h] <;> decide
  have e : mspInit d = { powerOn with sel := .lsi, on := true } := by
    unfold mspInit periphClk
    rw [if_pos hn]
  show (if inits (mspInit d) then mspInit d else configure (mspInit d) 127 255).cal = _ ∧
    (if inits (mspInit d) then mspInit d else configure (mspInit d) 127 255).sel = _ ∧
    period (if inits (mspInit d) then mspInit d else configure (mspInit d) 127 255) = _
  rw [e]
  decide

/-- The conditions are met from power-on: after a nominal day the clock shows 23:26:15 of 1 January. -/
example : CalRuns ⟨0, 0, 0, 1, 1, 1, 0⟩ 84375 (cycles (lsiHz * (86400 * 1)) (mxRtcInit powerOn)).cal ∧
    After ⟨0, 0, 0, 1, 1, 1, 0⟩ 84375 ⟨23, 26, 15, 1, 1, 1, 0⟩ := by
  obtain ⟨-, -, h, h0, hc⟩ := C160_power_on
  refine ⟨(C160_behind _ _ 1 (by decide) (by decide) ?_ h (by decide) (by decide) h0 hc).1, ?_⟩
  · exact ⟨by decide, by decide, by decide, by decide, by decide, by decide, by decide⟩
  · exact ⟨⟨by decide, by decide, by decide, by decide, by decide, by decide, by decide⟩, by decide, by decide, by decide⟩

/-- A clock set in 2026 and a restart. -/
example : mxRtcInit { mxRtcInit powerOn with cal := { powerOn.cal with date := ⟨1, 16, 11, 26⟩ }, cntS := 99 } =
    { mxRtcInit powerOn with cal := { powerOn.cal with date := ⟨1, 16, 11, 26⟩ }, cntS := 99 } := by decide

end Verif.RtcRate
