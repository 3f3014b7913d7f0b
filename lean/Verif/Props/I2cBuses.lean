import Verif.Props.I2c
import Mathlib.Tactic.SplitIfs

set_option autoImplicit false

/-!
# C60: a completion belongs to its own bus
-/

namespace Verif.I2c

/-- **C60, the bus.** A completion interrupt leaves every bus alone that it is not from. -/
theorem C60_own_bus (s s' : St) (h : Nat) (e : irq s h = .ok s') :
    (s.dev0.handle ≠ some h → s'.dev0 = s.dev0) ∧ (s.dev1.handle ≠ some h → s'.dev1 = s.dev1) := by
  unfold irq at e
  cases hh : handleToDevice s h with
  | error x => rw [hh] at e; cases e
  | ok o =>
    rw [hh] at e
    unfold handleToDevice at hh
    cases h0 : s.dev0.handle with
    | none => rw [h0] at hh; cases hh
    | some a =>
      rw [h0] at hh
      dsimp only at hh
      by_cases ha : a = h ∧ s.dev0.inUse
      · rw [if_pos ha] at hh
        injection hh with hh
        subst hh
        simp only [getDev] at e
        cases hg : giveFromIsr s.dev0.xfer with
        | error x => rw [hg] at e; cases e
        | ok m =>
          rw [hg] at e
          injection e with e
          subst e
          exact ⟨fun hne => absurd (congrArg some ha.1) hne, fun _ => rfl⟩
      · rw [if_neg ha] at hh
        cases h1 : s.dev1.handle with
        | none => rw [h1] at hh; cases hh
        | some b =>
          rw [h1] at hh
          dsimp only at hh
          by_cases hb : b = h ∧ s.dev1.inUse
          · rw [if_pos hb] at hh
            injection hh with hh
            subst hh
            simp only [getDev] at e
            cases hg : giveFromIsr s.dev1.xfer with
            | error x => rw [hg] at e; cases e
            | ok m =>
              rw [hg] at e
              injection e with e
              subst e
              exact ⟨fun _ => rfl, fun hne => absurd (congrArg some hb.1) hne⟩
          · rw [if_neg hb] at hh
            injection hh with hh
            subst hh
            injection e with e
            subst e
            exact ⟨fun _ => rfl, fun _ => rfl⟩

/-- Two buses in use, a completion on the second one: nothing changes for the first, which is asleep. -/
example : (match irq ⟨⟨true, some 7, true, ⟨false, false⟩, []⟩, ⟨true, some 8, true, ⟨false, false⟩, []⟩⟩ 8 with
    | .ok s => decide (s.dev0.xfer.avail = false ∧ s.dev1.xfer.avail = true)
    | .error _ => false) = true := by decide +kernel

end Verif.I2c
