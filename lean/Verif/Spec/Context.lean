import Verif.Model.Context

/-!
# What a task relies on when it loses the processor

A task does not notice that others ran: every register it can see, its stack pointer and the part
of its stack in use are as it left them.  Nothing here mentions how a switch is done.
-/

set_option autoImplicit false

namespace Verif.Context

/-- The two processor states are the same to the code running on them: core registers, stack
pointer, interrupt mask, and, if the code uses them, the floating point registers. -/
structure SameToTask (c c' : Cpu) : Prop where
  r : ∀ i, i < 13 → c'.r i = c.r i
  lr : c'.lr = c.lr
  pc : c'.pc = c.pc
  psr : c'.psr = c.psr
  sp : c'.psp = c.psp
  mask : c'.basepri = c.basepri
  uses : c'.fpca = c.fpca
  s : c.fpca = true → ∀ i, i < 32 → c'.s i = c.s i
  fpscr : c.fpca = true → c'.fpscr = c.fpscr

/-- The part of task `t`'s stack that is in use holds the same words. -/
def SameStack (L : Layout) (t : Nat) (c c' : Cpu) : Prop :=
  ∀ a, c.psp ≤ a → a < L.hi t → c'.mem a = c.mem a

/-- No two tasks' stacks and control blocks overlap, nor do they overlap the variable that says
who is running or the main stack, which has some room.  The linker sees to this: all of them are
separate static objects. -/
structure Layout.Apart (L : Layout) : Prop where
  tasks : ∀ t u a, t ≠ u → Owned L t a → ¬Owned L u a
  own : ∀ t, ¬(L.lo t ≤ L.tcb t ∧ L.tcb t < L.hi t)
  cur : ∀ t, ¬Owned L t L.cur
  main : ∀ t a, Owned L t a → ¬(L.mspLo ≤ a ∧ a < L.mspHi)
  curMain : ¬(L.mspLo ≤ L.cur ∧ L.cur < L.mspHi)
  room : L.mspLo + 10 ≤ L.mspHi

/-- States the system gets into from power-up, when no task exists. -/
inductive Reached (L : Layout) : St → Prop
  | init (c : Cpu) (h : c.lspact = false) : Reached L ⟨c, none, []⟩
  | step (s s' : St) (h : Reached L s) (h' : Step L s s') : Reached L s'

/-- The system goes from one state to another while task `t` does not have the processor. -/
inductive Away (L : Layout) (t : Nat) : St → St → Prop
  | refl (s : St) (h : s.cur ≠ some t) : Away L t s s
  | step (s s' s'' : St) (h : Away L t s s') (h' : Step L s' s'') (h'' : s''.cur ≠ some t) :
      Away L t s s''

end Verif.Context
