import Mathlib.Tactic.IntervalCases
import Verif.Spec.Context

/-!
# The stack of a task that does not have the processor

`Parked L m u c` says that the memory `m` holds everything about task `u`, which was running on the
processor state `c` when it was switched away from.  Switching away from a task parks it, nothing
another task does unparks it, and switching to it loads what was parked.
-/

set_option autoImplicit false

namespace Verif.Context

/-- The address of the frame the processor pushes. -/
def base (c : Cpu) : Nat := c.psp - frameWords c.fpca - c.psp % 2

/-- The address of the words the handler pushes. -/
def top (c : Cpu) : Nat := base c - (if c.fpca then 16 else 0) - 9

structure Parked (L : Layout) (m : Nat → Nat) (u : Nat) (c : Cpu) : Prop where
  room : Room L u c
  psr : c.psr / 512 % 2 = 0
  mask : c.basepri = 0
  ptr : m (L.tcb u) = top c
  core : ∀ i, i < 8 → m (top c + i) = c.r (4 + i)
  exc : m (top c + 8) = excReturn c.fpca
  sHigh : c.fpca = true → ∀ i, i < 16 → m (top c + 9 + i) = c.s (16 + i)
  frame : ∀ i, i < 8 → m (base c + i) = frame c (c.psp % 2) i
  sLow : c.fpca = true → ∀ i, i < 16 → m (base c + 8 + i) = c.s i
  fpscr : c.fpca = true → m (base c + 24) = c.fpscr

/-- Memory that agrees on what a task owns has it parked just the same. -/
theorem Parked.keep {L : Layout} {m m' : Nat → Nat} {u : Nat} {c : Cpu}
    (h : Parked L m u c) (k : ∀ a, Owned L u a → m' a = m a) : Parked L m' u c := by
  have hr := h.room
  have kk : ∀ a, L.lo u ≤ a → a < L.hi u → m' a = m a := fun a h1 h2 => k a (.inl ⟨h1, h2⟩)
  refine ⟨h.room, h.psr, h.mask, ?_, ?_, ?_, ?_, ?_, ?_, ?_⟩
  · rw [k _ (.inr rfl)]; exact h.ptr
  · intro i hi
    rw [← h.core i hi]
    apply kk <;> (cases hf : c.fpca <;> simp [Room, top, base, frameWords, hf] at hr ⊢ <;> omega)
  · rw [← h.exc]
    apply kk <;> (cases hf : c.fpca <;> simp [Room, top, base, frameWords, hf] at hr ⊢ <;> omega)
  · intro hf i hi
    rw [← h.sHigh hf i hi]
    apply kk <;> (simp [Room, top, base, frameWords, hf] at hr ⊢ <;> omega)
  · intro i hi
    rw [← h.frame i hi]
    apply kk <;> (cases hf : c.fpca <;> simp [Room, top, base, frameWords, hf] at hr ⊢ <;> omega)
  · intro hf i hi
    rw [← h.sLow hf i hi]
    apply kk <;> (simp [Room, top, base, frameWords, hf] at hr ⊢ <;> omega)
  · intro hf
    rw [← h.fpscr hf]
    apply kk <;> (simp [Room, top, base, frameWords, hf] at hr ⊢ <;> omega)

/-! ## Switching away -/

/-- The memory when `vTaskSwitchContext` is called. -/
theorem pendSave_mem (L : Layout) (c : Cpu) :
    (pendSave L (entry c)).mem =
      let m₀ := puts c.mem (base c) 8 (frame c (c.psp % 2))
      let m₁ := if c.fpca then
          puts (put (puts m₀ (base c + 8) 16 c.s) (base c + 8 + 16) c.fpscr) (base c - 16) 16
            (fun i => c.s (16 + i))
        else m₀
      let m₂ := puts m₁ (top c) 9 (fun i => if i < 8 then c.r (4 + i) else excReturn c.fpca)
      put (put (put m₂ (m₀ L.cur) (top c)) (c.msp - 2) (top c)) (c.msp - 1) L.cur := by
  have e2 : ∀ i, ¬(4 + i = 2) := by intro i; omega
  have e3 : ∀ i, ¬(4 + i = 3) := by intro i; omega
  have e0 : ∀ i, ¬(4 + i = 0) := by intro i; omega
  cases hf : c.fpca <;>
    simp [pendSave, entry, setR, usesFp, excReturn, fpCheck, hf, base, top, frameWords, e2, e3]

theorem pendSave_msp (L : Layout) (c : Cpu) : (pendSave L (entry c)).msp = c.msp - 2 := by
  cases hf : c.fpca <;>
    simp [pendSave, entry, setR, usesFp, excReturn, fpCheck, hf]

theorem pendSave_lazy (L : Layout) (c : Cpu) (h : c.lspact = false) :
    (pendSave L (entry c)).lspact = false := by
  cases hf : c.fpca <;>
    simp [pendSave, entry, setR, usesFp, excReturn, fpCheck, hf, h]

/-- What a switch writes: the words below the task's stack pointer, the saved stack pointer, and
two words of the main stack. -/
theorem pendSave_writes (L : Layout) (ha : L.Apart) (t : Nat) (c : Cpu) (hr : Room L t c)
    (hc : c.mem L.cur = L.tcb t) (a : Nat)
    (h₁ : ¬(top c ≤ a ∧ a < c.psp)) (h₂ : a ≠ L.tcb t) (h₃ : a ≠ c.msp - 2) (h₄ : a ≠ c.msp - 1) :
    (pendSave L (entry c)).mem a = c.mem a := by
  have hcur : puts c.mem (base c) 8 (frame c (c.psp % 2)) L.cur = L.tcb t := by
    have h := ha.cur t
    simp only [Owned, not_or] at h
    unfold puts
    rw [if_neg]
    · exact hc
    · intro hx
      apply h.1
      cases hf : c.fpca <;> simp [Room, base, frameWords, hf] at hr hx ⊢ <;> omega
  rw [pendSave_mem]
  dsimp only
  rw [hcur]
  cases hf : c.fpca <;> simp only [Room, top, base, frameWords, hf, put, puts, if_true, if_false,
      Bool.false_eq_true] at hr h₁ ⊢
  · rw [if_neg h₄, if_neg h₃, if_neg h₂, if_neg (by omega), if_neg (by omega)]
  · rw [if_neg h₄, if_neg h₃, if_neg h₂, if_neg (by omega), if_neg (by omega), if_neg (by omega),
      if_neg (by omega), if_neg (by omega)]

/-- Switching away from a task parks it. -/
theorem parks (L : Layout) (ha : L.Apart) (t : Nat) (c : Cpu) (hr : Room L t c)
    (hp : c.psr / 512 % 2 = 0) (hb : c.basepri = 0)
    (hc : c.mem L.cur = L.tcb t) (hm : L.mspLo + 2 ≤ c.msp) (hm' : c.msp ≤ L.mspHi) :
    Parked L (pendSave L (entry c)).mem t c := by
  have hcur : puts c.mem (base c) 8 (frame c (c.psp % 2)) L.cur = L.tcb t := by
    have h := ha.cur t
    simp only [Owned, not_or] at h
    unfold puts
    rw [if_neg]
    · exact hc
    · intro hx
      apply h.1
      cases hf : c.fpca <;> simp [Room, base, frameWords, hf] at hr hx ⊢ <;> omega
  have htcb := ha.own t
  have hmain : ∀ a, L.lo t ≤ a → a < L.hi t → a ≠ c.msp - 1 ∧ a ≠ c.msp - 2 ∧ a ≠ L.tcb t := by
    intro a h1 h2
    have := ha.main t a (.inl ⟨h1, h2⟩)
    refine ⟨by omega, by omega, ?_⟩
    rintro rfl
    exact htcb ⟨h1, h2⟩
  have hmt : L.tcb t ≠ c.msp - 1 ∧ L.tcb t ≠ c.msp - 2 := by
    have := ha.main t (L.tcb t) (.inr rfl)
    omega
  have hin : ∀ a, top c ≤ a → a < c.psp → L.lo t ≤ a ∧ a < L.hi t := by
    intro a h1 h2
    cases hf : c.fpca <;> simp [Room, top, base, frameWords, hf] at hr h1 ⊢ <;> omega
  -- a word of the frame or of what the handler pushes, without the last three writes
  have hlook : ∀ a, top c ≤ a → a < c.psp →
      (pendSave L (entry c)).mem a =
        puts (if c.fpca then
          puts (put (puts (puts c.mem (base c) 8 (frame c (c.psp % 2))) (base c + 8) 16 c.s)
            (base c + 8 + 16) c.fpscr) (base c - 16) 16 (fun i => c.s (16 + i))
        else puts c.mem (base c) 8 (frame c (c.psp % 2))) (top c) 9
          (fun i => if i < 8 then c.r (4 + i) else excReturn c.fpca) a := by
    intro a h1 h2
    obtain ⟨h3, h4⟩ := hin a h1 h2
    obtain ⟨h5, h6, h7⟩ := hmain a h3 h4
    rw [pendSave_mem]
    dsimp only
    rw [hcur]
    unfold put
    rw [if_neg h5, if_neg h6, if_neg h7]
  refine ⟨hr, hp, hb, ?_, ?_, ?_, ?_, ?_, ?_, ?_⟩
  · rw [pendSave_mem]
    dsimp only
    rw [hcur]
    unfold put
    rw [if_neg hmt.1, if_neg hmt.2, if_pos rfl]
  · intro i hi
    rw [hlook]
    · unfold puts
      rw [if_pos (by omega)]
      simp [hi]
    · omega
    · cases hf : c.fpca <;> simp [Room, top, base, frameWords, hf] at hr ⊢ <;> omega
  · rw [hlook]
    · unfold puts
      rw [if_pos (by omega)]
      simp
    · omega
    · cases hf : c.fpca <;> simp [Room, top, base, frameWords, hf] at hr ⊢ <;> omega
  · intro hf i hi
    rw [hlook]
    · simp only [Room, top, base, frameWords, hf, put, puts, if_true] at hr ⊢
      rw [if_neg (by omega), if_pos (by omega)]
      congr 1; omega
    · omega
    · simp [Room, top, base, frameWords, hf] at hr ⊢; omega
  · intro i hi
    rw [hlook]
    · cases hf : c.fpca <;> simp only [Room, top, base, frameWords, hf, put, puts, if_true,
        if_false, Bool.false_eq_true] at hr ⊢
      · rw [if_neg (by omega), if_pos (by omega)]
        congr 1; omega
      · rw [if_neg (by omega), if_neg (by omega), if_neg (by omega), if_neg (by omega),
          if_pos (by omega)]
        congr 1; omega
    · unfold top; omega
    · cases hf : c.fpca <;> simp [Room, base, frameWords, hf] at hr ⊢ <;> omega
  · intro hf i hi
    rw [hlook]
    · simp only [Room, top, base, frameWords, hf, put, puts, if_true] at hr ⊢
      rw [if_neg (by omega), if_neg (by omega), if_neg (by omega), if_pos (by omega)]
      congr 1; omega
    · unfold top; omega
    · simp [Room, base, frameWords, hf] at hr ⊢; omega
  · intro hf
    rw [hlook]
    · simp only [Room, top, base, frameWords, hf, put, puts, if_true] at hr ⊢
      rw [if_neg (by omega), if_neg (by omega)]
    · unfold top; omega
    · simp [Room, base, frameWords, hf] at hr ⊢; omega

/-! ## Switching to -/

/-- The part common to both ways of giving a task the processor: the handler has fetched the
handler's words into the registers and set the stack pointer to the frame. -/
theorem exit_loads (L : Layout) (u : Nat) (c₀ d : Cpu) (h : Parked L d.mem u c₀)
    (hr : ∀ i, 4 ≤ i → i < 12 → d.r i = c₀.r i) (hlr : d.lr = excReturn c₀.fpca)
    (hpsp : d.psp = base c₀) (hb : d.basepri = 0) (hl : d.lspact = false)
    (hs : c₀.fpca = true → ∀ i, 16 ≤ i → i < 32 → d.s i = c₀.s i) :
    ∃ c', exit d = some c' ∧ SameToTask c₀ c' ∧ c'.mem = d.mem ∧ c'.msp = d.msp ∧
      c'.lspact = false := by
  have hroom := h.room
  have hex : d.lr = excReturn false ∨ d.lr = excReturn true := by
    rw [hlr]; cases c₀.fpca <;> simp
  have hfp : (decide (d.lr = excReturn true)) = c₀.fpca := by
    rw [hlr]; cases c₀.fpca <;> simp [excReturn]
  have h7 := h.frame 7 (by omega)
  have hpsr : frame c₀ (c₀.psp % 2) 7 = c₀.psr + 512 * (c₀.psp % 2) := by
    simp [frame, psrWithPad, h.psr]
  rw [hpsr] at h7
  have hpad : (c₀.psr + 512 * (c₀.psp % 2)) / 512 % 2 = c₀.psp % 2 := by
    have := h.psr; omega
  have hbase : base c₀ + frameWords c₀.fpca + c₀.psp % 2 = c₀.psp := by
    cases hf : c₀.fpca <;> simp [Room, base, frameWords, hf] at hroom ⊢ <;> omega
  unfold exit
  simp only [if_pos hex]
  refine ⟨_, rfl, ?_, rfl, rfl, ?_⟩
  · refine ⟨?_, ?_, ?_, ?_, ?_, ?_, ?_, ?_, ?_⟩
    · intro i hi
      dsimp only
      rw [hpsp]
      by_cases h4 : i < 4
      · rw [if_pos h4, h.frame i (by omega)]
        interval_cases i <;> rfl
      · rw [if_neg h4]
        by_cases h12 : i = 12
        · subst h12
          rw [if_pos rfl, h.frame 4 (by omega)]; rfl
        · rw [if_neg h12]
          exact hr i (by omega) (by omega)
    · dsimp only; rw [hpsp, h.frame 5 (by omega)]; rfl
    · dsimp only; rw [hpsp, h.frame 6 (by omega)]; rfl
    · dsimp only; rw [hpsp, h7, hpad]; omega
    · dsimp only; rw [hpsp, h7, hpad, hfp]; exact hbase
    · dsimp only; rw [hb, h.mask]
    · dsimp only; exact hfp
    · intro hf i hi
      dsimp only
      rw [hfp, hf, hl, hpsp]
      by_cases h16 : i < 16
      · simp only [h16, Bool.false_eq_true, not_false_eq_true, and_self, if_true]
        exact h.sLow hf i h16
      · simp only [h16, and_false, if_false]
        exact hs hf i (by omega) hi
    · intro hf
      dsimp only
      rw [hfp, hf, hl, hpsp]
      simp only [Bool.false_eq_true, not_false_eq_true, and_self, if_true]
      exact h.fpscr hf
  · dsimp only; rw [hl]; simp

/-- Switching to a parked task gives it back what it had. -/
theorem pendLoad_loads (L : Layout) (u : Nat) (c₀ d : Cpu) (h : Parked L d.mem u c₀)
    (hc : d.mem L.cur = L.tcb u) (hs : d.mem (d.msp + 1) = L.cur) (hl : d.lspact = false) :
    ∃ c', pendLoad d = some c' ∧ SameToTask c₀ c' ∧ c'.mem = d.mem ∧ c'.msp = d.msp + 2 ∧
      c'.lspact = false := by
  have hroom := h.room
  have hu : usesFp (excReturn c₀.fpca) = c₀.fpca := by
    cases c₀.fpca <;> simp [usesFp, excReturn]
  have hbt : base c₀ = top c₀ + 9 + (if c₀.fpca then 16 else 0) := by
    cases hf : c₀.fpca <;> simp [Room, top, base, frameWords, hf] at hroom ⊢ <;> omega
  unfold pendLoad
  simp only [setR, if_true, show (3 : Nat) ≠ 0 from by decide, show (0 : Nat) ≠ 1 from by decide,
    if_false, show (1 : Nat) ≠ 0 from by decide, show (0 : Nat) ≠ 3 from by decide, hs, hc, h.ptr,
    h.exc, hu]
  cases hf : c₀.fpca
  · simp only [Bool.false_eq_true, if_false]
    refine exit_loads L u c₀ _ h ?_ ?_ ?_ rfl hl ?_
    · intro i h4 h12
      dsimp only
      rw [if_neg (by omega), if_pos ⟨h4, h12⟩, h.core (i - 4) (by omega)]
      congr 1; omega
    · rw [hf]
    · rw [hbt, hf]; rfl
    · intro hx; rw [hf] at hx; cases hx
  · simp only [if_true, fpCheck, hl, Bool.false_eq_true, if_false]
    by_cases hfc : d.fpca = true
    · rw [if_pos hfc]
      refine exit_loads L u c₀ _ h ?_ ?_ ?_ rfl rfl ?_
      · intro i h4 h12
        dsimp only
        rw [if_neg (by omega), if_neg (by omega), if_pos ⟨h4, h12⟩, h.core (i - 4) (by omega)]
        congr 1; omega
      · rw [hf]
      · rw [hbt, hf]; rfl
      · intro _ i h16 h32
        dsimp only
        rw [if_pos ⟨h16, h32⟩]
        simp only [if_true]
        rw [h.sHigh hf (i - 16) (by omega)]
        congr 1; omega
    · rw [if_neg hfc]
      refine exit_loads L u c₀ _ h ?_ ?_ ?_ rfl rfl ?_
      · intro i h4 h12
        dsimp only
        rw [if_neg (by omega), if_neg (by omega), if_pos ⟨h4, h12⟩, h.core (i - 4) (by omega)]
        congr 1; omega
      · rw [hf]
      · rw [hbt, hf]; rfl
      · intro _ i h16 h32
        dsimp only
        rw [if_pos ⟨h16, h32⟩]
        simp only [if_true]
        rw [h.sHigh hf (i - 16) (by omega)]
        congr 1; omega

/-- Starting the first task, which has not touched the floating point registers. -/
theorem svcLoad_loads (L : Layout) (u : Nat) (c₀ d : Cpu) (h : Parked L d.mem u c₀)
    (hc : d.mem L.cur = L.tcb u) (hl : d.lspact = false) (hf : c₀.fpca = false) :
    ∃ c', svcLoad L d = some c' ∧ SameToTask c₀ c' ∧ c'.mem = d.mem ∧ c'.msp = d.msp ∧
      c'.lspact = false := by
  have hroom := h.room
  have hbt : base c₀ = top c₀ + 9 := by
    simp [Room, top, base, frameWords, hf] at hroom ⊢; omega
  unfold svcLoad
  simp only [setR, if_true, show (3 : Nat) ≠ 0 from by decide, show (0 : Nat) ≠ 1 from by decide,
    if_false, show (1 : Nat) ≠ 0 from by decide, show (0 : Nat) ≠ 3 from by decide,
    show (1 : Nat) ≠ 3 from by decide, hc, h.ptr, h.exc]
  refine exit_loads L u c₀ _ h ?_ ?_ ?_ rfl hl ?_
  · intro i h4 h12
    dsimp only
    rw [if_neg (by omega), if_neg (by omega), if_pos ⟨h4, h12⟩, h.core (i - 4) (by omega)]
    congr 1; omega
  · rfl
  · exact hbt.symm
  · intro hx; rw [hf] at hx; cases hx

/-! ## New tasks -/

/-- What a task that has never run finds: the first instruction of its function, its parameter
in R0, a return address that catches its end, an empty aligned stack.  The other registers are
whatever the memory held. -/
def fresh (L : Layout) (m : Nat → Nat) (t code arg ret : Nat) : Cpu :=
  { r := fun i =>
      if i = 0 then arg
      else if i < 4 then m (stackTop L t - 8 + i)
      else if i = 12 then m (stackTop L t - 4)
      else m (stackTop L t - 17 + (i - 4))
    lr := ret
    pc := code - code % 2
    psr := 0x01000000
    psp := stackTop L t
    msp := 0
    s := fun _ => 0
    fpscr := 0
    fpca := false
    lspact := false
    fpcar := 0
    basepri := 0
    mem := m }

theorem initStack_other (L : Layout) (m : Nat → Nat) (t code arg ret a : Nat)
    (hr : L.lo t + 18 < L.hi t) (h : ¬Owned L t a) : initStack L m t code arg ret a = m a := by
  simp only [Owned, not_or] at h
  unfold initStack stackTop put
  rw [if_neg h.2, if_neg (by omega), if_neg (by omega), if_neg (by omega), if_neg (by omega),
    if_neg (by omega)]

theorem fresh_frame (L : Layout) (m : Nat → Nat) (t code arg ret : Nat) :
    frame (fresh L m t code arg ret) 0 0 = arg ∧
    frame (fresh L m t code arg ret) 0 1 = m (stackTop L t - 8 + 1) ∧
    frame (fresh L m t code arg ret) 0 2 = m (stackTop L t - 8 + 2) ∧
    frame (fresh L m t code arg ret) 0 3 = m (stackTop L t - 8 + 3) ∧
    frame (fresh L m t code arg ret) 0 4 = m (stackTop L t - 4) ∧
    frame (fresh L m t code arg ret) 0 5 = ret ∧
    frame (fresh L m t code arg ret) 0 6 = code - code % 2 ∧
    frame (fresh L m t code arg ret) 0 7 = 0x01000000 := by
  refine ⟨?_, ?_, ?_, ?_, ?_, ?_, ?_, ?_⟩ <;> simp [frame, fresh, psrWithPad]

theorem parks_new (L : Layout) (ha : L.Apart) (m : Nat → Nat) (t code arg ret : Nat)
    (hr : L.lo t + 18 < L.hi t) :
    Parked L (initStack L m t code arg ret) t (fresh L m t code arg ret) := by
  have hown := ha.own t
  have htop : stackTop L t % 2 = 0 := by unfold stackTop; omega
  have hlo : L.lo t + 17 ≤ stackTop L t := by unfold stackTop; omega
  have hhi : stackTop L t < L.hi t := by unfold stackTop; omega
  have hb : base (fresh L m t code arg ret) = stackTop L t - 8 := by
    simp [base, fresh, frameWords, htop]
  have ht : top (fresh L m t code arg ret) = stackTop L t - 17 := by
    simp only [top, hb]; simp only [fresh, Bool.false_eq_true, if_false]; omega
  have hne : ∀ a, L.lo t ≤ a → a < L.hi t → a ≠ L.tcb t := by
    rintro a h1 h2 rfl; exact hown ⟨h1, h2⟩
  refine ⟨?_, by simp [fresh], rfl, ?_, ?_, ?_, ?_, ?_, ?_, ?_⟩
  · simp only [Room, fresh, frameWords, Bool.false_eq_true, if_false]; omega
  · rw [ht]; simp [initStack, put]
  · intro i hi
    rw [ht]
    have := hne (stackTop L t - 17 + i) (by omega) (by omega)
    simp only [initStack, put]
    rw [if_neg this, if_neg (by omega), if_neg (by omega), if_neg (by omega), if_neg (by omega),
      if_neg (by omega)]
    simp only [fresh]
    rw [if_neg (by omega), if_neg (by omega), if_neg (by omega)]
    congr 1; omega
  · rw [ht]
    have := hne (stackTop L t - 17 + 8) (by omega) (by omega)
    simp only [initStack, put]
    rw [if_neg this, if_pos (by omega)]
    simp only [excReturn, fresh, Bool.false_eq_true, if_false]
  · intro h; cases h
  · intro i hi
    rw [hb]
    have := hne (stackTop L t - 8 + i) (by omega) (by omega)
    have hpad : (fresh L m t code arg ret).psp % 2 = 0 := htop
    rw [hpad]
    simp only [initStack, put]
    rw [if_neg this]
    rw [if_neg (by omega)]
    obtain ⟨e0, e1, e2, e3, e4, e5, e6, e7⟩ := fresh_frame L m t code arg ret
    have hcases : i = 0 ∨ i = 1 ∨ i = 2 ∨ i = 3 ∨ i = 4 ∨ i = 5 ∨ i = 6 ∨ i = 7 := by omega
    rcases hcases with rfl | rfl | rfl | rfl | rfl | rfl | rfl | rfl
    · rw [e0, if_pos (by omega)]
    · rw [e1, if_neg (by omega), if_neg (by omega), if_neg (by omega), if_neg (by omega)]
    · rw [e2, if_neg (by omega), if_neg (by omega), if_neg (by omega), if_neg (by omega)]
    · rw [e3, if_neg (by omega), if_neg (by omega), if_neg (by omega), if_neg (by omega)]
    · rw [e4, if_neg (by omega), if_neg (by omega), if_neg (by omega), if_neg (by omega)]
      congr 1; omega
    · rw [e5, if_neg (by omega), if_pos (by omega)]
    · rw [e6, if_neg (by omega), if_neg (by omega), if_pos (by omega)]
    · rw [e7, if_neg (by omega), if_neg (by omega), if_neg (by omega), if_pos (by omega)]
  · intro h; cases h
  · intro h; cases h

/-! ## The invariant -/

structure Inv (L : Layout) (s : St) : Prop where
  lazy : s.cpu.lspact = false
  cur : ∀ t, s.cur = some t → t ∈ s.live ∧ s.cpu.mem L.cur = L.tcb t ∧
    L.mspLo + 2 ≤ s.cpu.msp ∧ s.cpu.msp ≤ L.mspHi
  parked : ∀ u, u ∈ s.live → s.cur ≠ some u → ∃ c, Parked L s.cpu.mem u c ∧
    (s.cur = none → c.fpca = false)

/-- What the handler finds on the main stack after the call. -/
theorem chosen (L : Layout) (ha : L.Apart) (t u : Nat) (c c₁ : Cpu) (hr : Room L t c)
    (hc : c.mem L.cur = L.tcb t) (hm : L.mspLo + 2 ≤ c.msp) (hm' : c.msp ≤ L.mspHi)
    (hl : c.lspact = false) (h : Chooses L (pendSave L (entry c)) u c₁) :
    c₁.mem (c₁.msp + 1) = L.cur ∧ c₁.msp + 2 = c.msp ∧ c₁.lspact = false ∧
      (∀ v a, Owned L v a → c₁.mem a = (pendSave L (entry c)).mem a) := by
  have hl' := pendSave_lazy L c hl
  have hmsp := pendSave_msp L c
  refine ⟨?_, ?_, h.lazy hl', fun v a ho => h.owned v a ho hl'⟩
  · rw [h.msp, hmsp, h.stack _ (by omega) (by omega), pendSave_mem]
    dsimp only
    unfold put
    rw [if_pos (by omega)]
  · rw [h.msp, hmsp]; omega

/-- A switch leaves every task but the running one as it was. -/
theorem switch_keeps (L : Layout) (ha : L.Apart) (t v : Nat) (c : Cpu) (hr : Room L t c)
    (hc : c.mem L.cur = L.tcb t) (hm : L.mspLo + 2 ≤ c.msp) (hm' : c.msp ≤ L.mspHi)
    (hv : v ≠ t) (a : Nat) (ho : Owned L v a) : (pendSave L (entry c)).mem a = c.mem a := by
  have hno := ha.tasks v t a hv ho
  have hmain := ha.main v a ho
  apply pendSave_writes L ha t c hr hc
  · rintro ⟨h1, h2⟩
    apply hno; left
    cases hf : c.fpca <;> simp [Room, top, base, frameWords, hf] at hr h1 <;> omega
  · rintro rfl; exact hno (.inr rfl)
  · omega
  · omega

/-- Giving the processor to a task, as part of a switch. -/
theorem switch_loads (L : Layout) (ha : L.Apart) (s : St) (hi : Inv L s) (t u : Nat) (c₁ : Cpu)
    (ht : s.cur = some t) (hu : u ∈ s.live) (hr : Room L t s.cpu) (hp : s.cpu.psr / 512 % 2 = 0)
    (hb : s.cpu.basepri = 0) (h : Chooses L (pendSave L (entry s.cpu)) u c₁) :
    (∀ c₀, (if u = t then c₀ = s.cpu else Parked L s.cpu.mem u c₀) →
      ∃ c', pendLoad c₁ = some c' ∧ SameToTask c₀ c' ∧ c'.mem = c₁.mem ∧
        c'.msp = s.cpu.msp ∧ c'.lspact = false) ∧
      Parked L c₁.mem t s.cpu ∧
      (∀ v a, v ≠ t → Owned L v a → c₁.mem a = s.cpu.mem a) := by
  obtain ⟨-, hc, hm, hm'⟩ := hi.cur t ht
  obtain ⟨h1, h2, h3, h4⟩ := chosen L ha t u s.cpu c₁ hr hc hm hm' hi.lazy h
  have hpark : Parked L c₁.mem t s.cpu :=
    (parks L ha t s.cpu hr hp hb hc hm hm').keep (fun a ho => h4 t a ho)
  have hkeep : ∀ v a, v ≠ t → Owned L v a → c₁.mem a = s.cpu.mem a := by
    intro v a hv ho
    rw [h4 v a ho, switch_keeps L ha t v s.cpu hr hc hm hm' hv a ho]
  refine ⟨?_, hpark, hkeep⟩
  intro c₀ hc₀
  have hp' : Parked L c₁.mem u c₀ := by
    by_cases hut : u = t
    · rw [if_pos hut] at hc₀; subst hc₀; subst hut; exact hpark
    · rw [if_neg hut] at hc₀; exact hc₀.keep (fun a ho => hkeep u a hut ho)
  obtain ⟨c', e1, e2, e3, e4, e5⟩ := pendLoad_loads L u c₀ c₁ hp' h.next h1 h3
  exact ⟨c', e1, e2, e3, by rw [e4, h2], e5⟩

/-- Something is parked, or running, for every task a switch can choose. -/
theorem Inv.some_ctx {L : Layout} {s : St} (hi : Inv L s) {t u : Nat} (ht : s.cur = some t)
    (hu : u ∈ s.live) : ∃ c₀, if u = t then c₀ = s.cpu else Parked L s.cpu.mem u c₀ := by
  by_cases h : u = t
  · exact ⟨s.cpu, by rw [if_pos h]⟩
  · obtain ⟨c, hc, -⟩ := hi.parked u hu (by rw [ht]; intro hx; exact h (Option.some.inj hx).symm)
    exact ⟨c, by rw [if_neg h]; exact hc⟩

/-- Nothing a task owns is written while it does not have the processor. -/
theorem stays (L : Layout) (ha : L.Apart) (s s' : St) (hi : Inv L s) (h : Step L s s') (v : Nat)
    (hv : v ∈ s.live) (hn : s.cur ≠ some v) (a : Nat) (ho : Owned L v a) :
    s'.cpu.mem a = s.cpu.mem a := by
  cases h with
  | boot c c' live keeps lazy => exact keeps v a hv ho
  | create c cur live t code arg ret new room =>
      have hvt : v ≠ t := by rintro rfl; exact new hv
      exact initStack_other L _ t code arg ret a room (ha.tasks v t a hvt ho)
  | start c c' live t mem points loads =>
      obtain ⟨c₀, hp, hfp⟩ := hi.parked t mem (by simp)
      have hroom := ha.room
      have hsame : ∀ w b, Owned L w b → (svcEntry L c).mem b = c.mem b := by
        intro w b hb
        have := ha.main w b hb
        simp only [svcEntry, puts]
        rw [if_neg (by omega)]
      have hcur : (svcEntry L c).mem L.cur = L.tcb t := by
        have := ha.curMain
        simp only [svcEntry, puts]
        rw [if_neg (by omega)]
        exact points
      obtain ⟨c'', e1, -, e3, -⟩ := svcLoad_loads L t c₀ (svcEntry L c)
        (hp.keep (hsame t)) hcur hi.lazy (hfp rfl)
      rw [loads] at e1
      cases e1
      change c'.mem a = c.mem a
      rw [e3, hsame v a ho]
  | work c c' t live works =>
      exact works.owned v a (by rintro rfl; exact hn rfl) ho
  | switch c c₁ c' t u live room psr open_ mem chooses loads =>
      obtain ⟨h1, -, h3⟩ := switch_loads L ha ⟨c, some t, live⟩ hi t u c₁ rfl mem room psr open_
        chooses
      obtain ⟨c₀, hc₀⟩ := hi.some_ctx (t := t) (u := u) rfl mem
      obtain ⟨c'', e1, -, e3, -⟩ := h1 c₀ hc₀
      rw [loads] at e1
      cases e1
      change c'.mem a = c.mem a
      rw [e3]
      exact h3 v a (by rintro rfl; exact hn rfl) ho

theorem Inv.step {L : Layout} (ha : L.Apart) {s s' : St} (hi : Inv L s) (h : Step L s s') :
    Inv L s' := by
  have hst := stays L ha s s' hi h
  cases h with
  | boot c c' live keeps lazy =>
      refine ⟨lazy, fun t ht => (by cases ht), ?_⟩
      intro u hu hn
      obtain ⟨c₀, hp, hfp⟩ := hi.parked u hu hn
      exact ⟨c₀, hp.keep (hst u hu hn), hfp⟩
  | create c cur live t code arg ret new room =>
      refine ⟨hi.lazy, ?_, ?_⟩
      · intro v hv
        obtain ⟨h1, h2, h3⟩ := hi.cur v hv
        refine ⟨List.mem_cons_of_mem _ h1, ?_, h3⟩
        change initStack L c.mem t code arg ret L.cur = L.tcb v
        rw [initStack_other L _ t code arg ret _ room (ha.cur t)]
        exact h2
      · intro u hu hn
        by_cases hut : u = t
        · subst hut
          exact ⟨_, parks_new L ha c.mem u code arg ret room, fun _ => rfl⟩
        · have hu' : u ∈ live := by
            rcases List.mem_cons.mp hu with h | h
            · exact absurd h hut
            · exact h
          obtain ⟨c₀, hp, hfp⟩ := hi.parked u hu' hn
          exact ⟨c₀, hp.keep (hst u hu' hn), hfp⟩
  | start c c' live t mem points loads =>
      obtain ⟨c₀, hp, hfp⟩ := hi.parked t mem (by simp)
      have hroom := ha.room
      have hsame : ∀ w b, Owned L w b → (svcEntry L c).mem b = c.mem b := by
        intro w b hb
        have := ha.main w b hb
        simp only [svcEntry, puts]
        rw [if_neg (by omega)]
      have hcur : (svcEntry L c).mem L.cur = L.tcb t := by
        have := ha.curMain
        simp only [svcEntry, puts]
        rw [if_neg (by omega)]
        exact points
      obtain ⟨c'', e1, -, e3, e4, e5⟩ := svcLoad_loads L t c₀ (svcEntry L c)
        (hp.keep (hsame t)) hcur hi.lazy (hfp rfl)
      rw [loads] at e1
      cases e1
      refine ⟨e5, ?_, ?_⟩
      · rintro v hv
        cases hv
        refine ⟨mem, ?_, ?_⟩
        · change c'.mem L.cur = L.tcb t
          rw [e3, hcur]
        · change L.mspLo + 2 ≤ c'.msp ∧ c'.msp ≤ L.mspHi
          rw [e4]
          simp only [svcEntry]
          omega
      · intro u hu hn
        obtain ⟨c₂, hp₂, -⟩ := hi.parked u hu (by simp)
        exact ⟨c₂, hp₂.keep (hst u hu (by simp)), fun hx => (by cases hx)⟩
  | work c c' t live works =>
      refine ⟨works.lazy, ?_, ?_⟩
      · intro v hv
        obtain ⟨h1, h2, h3⟩ := hi.cur v hv
        refine ⟨h1, ?_, ?_⟩
        · change c'.mem L.cur = L.tcb v
          rw [works.cur]; exact h2
        · change L.mspLo + 2 ≤ c'.msp ∧ c'.msp ≤ L.mspHi
          rw [works.msp]; exact h3
      · intro u hu hn
        obtain ⟨c₂, hp₂, hfp⟩ := hi.parked u hu hn
        exact ⟨c₂, hp₂.keep (hst u hu hn), hfp⟩
  | switch c c₁ c' t u live room psr open_ mem chooses loads =>
      obtain ⟨h1, h2, h3⟩ := switch_loads L ha ⟨c, some t, live⟩ hi t u c₁ rfl mem room psr open_
        chooses
      obtain ⟨c₀, hc₀⟩ := hi.some_ctx (t := t) (u := u) rfl mem
      obtain ⟨c'', e1, -, e3, e4, e5⟩ := h1 c₀ hc₀
      rw [loads] at e1
      cases e1
      refine ⟨e5, ?_, ?_⟩
      · rintro v hv
        cases hv
        refine ⟨mem, ?_, ?_⟩
        · change c'.mem L.cur = L.tcb u
          rw [e3]; exact chooses.next
        · change L.mspLo + 2 ≤ c'.msp ∧ c'.msp ≤ L.mspHi
          rw [e4]
          exact (hi.cur t rfl).2.2
      · intro v hv hn
        by_cases hvt : v = t
        · subst hvt
          refine ⟨c, ?_, fun hx => (by cases hx)⟩
          change Parked L c'.mem v c
          rw [e3]; exact h2
        · have hn' : (⟨c, some t, live⟩ : St).cur ≠ some v := by
            intro hx; exact hvt (Option.some.inj hx).symm
          obtain ⟨c₂, hp₂, -⟩ := hi.parked v hv hn'
          exact ⟨c₂, hp₂.keep (hst v hv hn'), fun hx => (by cases hx)⟩

theorem Reached.inv {L : Layout} (ha : L.Apart) {s : St} (h : Reached L s) : Inv L s := by
  induction h with
  | init c h => exact ⟨h, fun t ht => (by cases ht), fun u hu => (by cases hu)⟩
  | step s s' _ h' ih => exact ih.step ha h'

theorem Step.live_mono {L : Layout} {s s' : St} (h : Step L s s') {v : Nat} (hv : v ∈ s.live) :
    v ∈ s'.live := by
  cases h with
  | create => exact List.mem_cons_of_mem _ hv
  | _ => exact hv

theorem Away.reached {L : Layout} {t : Nat} {s s' : St} (hs : Reached L s) (h : Away L t s s') :
    Reached L s' := by
  induction h with
  | refl h => exact hs
  | step s' s'' _ h' _ ih => exact .step s' s'' ih h'

/-- A parked task stays parked, with everything it owns, while others run. -/
theorem Away.keeps {L : Layout} (ha : L.Apart) {t : Nat} {s s' : St} (hs : Reached L s)
    (ht : t ∈ s.live) (h : Away L t s s') :
    t ∈ s'.live ∧ s'.cur ≠ some t ∧ ∀ a, Owned L t a → s'.cpu.mem a = s.cpu.mem a := by
  induction h with
  | refl h => exact ⟨ht, h, fun _ _ => rfl⟩
  | step s' s'' h1 h' h'' ih =>
      obtain ⟨i1, i2, i3⟩ := ih
      refine ⟨h'.live_mono i1, h'', fun a ho => ?_⟩
      rw [stays L ha s' s'' ((h1.reached hs).inv ha) h' t i1 i2 a ho, i3 a ho]

/-- The task that gets the processor finds what was parked. -/
theorem gets {L : Layout} (ha : L.Apart) {s s' : St} (hi : Inv L s) (h : Step L s s') {t : Nat}
    {c₀ : Cpu} (hn : s.cur ≠ some t) (hp : Parked L s.cpu.mem t c₀)
    (hfp : s.cur = none → c₀.fpca = false) (ht : s'.cur = some t) :
    SameToTask c₀ s'.cpu := by
  cases h with
  | boot c c' live keeps lazy => cases ht
  | create c cur live t code arg ret new room => exact absurd ht hn
  | start c c' live t' mem points loads =>
      cases ht
      have hroom := ha.room
      have hsame : ∀ w b, Owned L w b → (svcEntry L c).mem b = c.mem b := by
        intro w b hb
        have := ha.main w b hb
        simp only [svcEntry, puts]
        rw [if_neg (by omega)]
      have hcur : (svcEntry L c).mem L.cur = L.tcb t := by
        have := ha.curMain
        simp only [svcEntry, puts]
        rw [if_neg (by omega)]
        exact points
      obtain ⟨c'', e1, e2, -⟩ := svcLoad_loads L t c₀ (svcEntry L c)
        (hp.keep (hsame t)) hcur hi.lazy (hfp rfl)
      rw [loads] at e1
      cases e1
      exact e2
  | work c c' t' live works => exact absurd ht hn
  | switch c c₁ c' t' u live room psr open_ mem chooses loads =>
      cases ht
      obtain ⟨h1, -, -⟩ := switch_loads L ha ⟨c, some t', live⟩ hi t' t c₁ rfl mem room psr open_
        chooses
      have hne : ¬t = t' := by rintro rfl; exact hn rfl
      obtain ⟨c'', e1, e2, -⟩ := h1 c₀ (by rw [if_neg hne]; exact hp)
      rw [loads] at e1
      cases e1
      exact e2

end Verif.Context
