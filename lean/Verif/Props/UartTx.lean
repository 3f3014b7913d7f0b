import Verif.Spec.UartTx
import Mathlib.Tactic.SplitIfs
import Mathlib.Data.List.Induction

set_option autoImplicit false

/-!
# C134: a serial port keeps sending
-/

namespace Verif.UartTx

/-- The state of a transfer as registers and variables show it: how many bytes are left, and in this order `busy`,
`lock`, `dmaBusy`, `en`, `dtcie`, `tcif`, `dmat`, `tcie`. -/
def Is (r : Regs) (busy lock dmaBusy en dtcie tcif dmat tcie : Bool) : Prop :=
  r.busy = busy ∧ r.lock = lock ∧ r.dmaBusy = dmaBusy ∧ r.en = en ∧ r.dtcie = dtcie ∧ r.tcif = tcif ∧
    r.dmat = dmat ∧ r.tcie = tcie

/-- Nothing under way. -/
def Quiet (r : Regs) : Prop := Is r false false false false false false false false ∧ r.left = 0
/-- The stream moves bytes. -/
def Moving (r : Regs) : Prop := Is r true true true true true false true false ∧ 0 < r.left
/-- The stream has moved all bytes, its interrupt is still to come. -/
def Moved (r : Regs) : Prop := Is r true true true false true true true false ∧ r.left = 0
/-- The port is to interrupt when it has shifted out the last byte. -/
def Ending (r : Regs) : Prop := Is r true false false false false false false true ∧ r.left = 0
/-- The port's handler is about to make the port ready. -/
def Ended (r : Regs) : Prop := Is r true false false false false false false false ∧ r.left = 0

/-- Between calls of `HAL_UART_Transmit_DMA`, with transfers started and completed. -/
def Rest (r : Regs) (a c : Nat) : Prop :=
  (Quiet r ∧ a = c) ∨ ((Moving r ∨ Moved r ∨ Ending r) ∧ a = c + 1)

/-- Inside `HAL_UART_Transmit_DMA` after its first test. -/
def Inside (n : Nat) (r : Regs) : Tx → Prop
  | .test => False
  | .setBusy => Quiet r
  | .lockTest => Is r true false false false false false false false
  | .lock => Is r true false false false false false false false
  | .stateTest => Is r true true false false false false false false
  | .setDma => Is r true true false false false false false false
  | .config => Is r true true true false false false false false
  | .clearFlags => Is r true true true false false false false false ∧ r.left = n
  | .enableIrq => Is r true true true false false false false false ∧ r.left = n
  | .enable => Is r true true true false true false false false ∧ r.left = n
  | .clearTc => Is r true true true true true false false false ∧ r.left = n
  | .request => Is r true true true true true false false false ∧ r.left = n
  | .unlock => False
  | .failReady => False

/-- The task is not inside `HAL_UART_Transmit_DMA` after its first test. -/
def Calm : Task → Prop
  | .tx _ p => p = .test
  | _ => True

/-- What holds while the port's handler does not work on a transfer. -/
def Low (s : St) : Prop :=
  (Calm s.task ∧ Rest s.r s.started s.completed) ∨
  ∃ n p, s.task = .tx n p ∧ 0 < n ∧ Inside n s.r p ∧ s.started = s.completed

/-- The invariant. -/
def Inv (s : St) : Prop :=
  match s.isr with
  | .out => Low s
  | .readIsr => Low s
  | .readCr1 _ => Low s
  | .branch _ b => Low s ∧ (b = true → s.r.tcie = true)
  | .clearTcie => Calm s.task ∧ Ending s.r ∧ s.started = s.completed + 1
  | .ready => Calm s.task ∧ Ended s.r ∧ s.started = s.completed + 1
  | .callback => Calm s.task ∧ Quiet s.r ∧ s.started = s.completed + 1
  | .tx n p => Calm s.task ∧ 0 < n ∧ (Inside n s.r p ∨ p = .test ∧ Quiet s.r) ∧ s.started = s.completed
  | .clear => Calm s.task ∧ Quiet s.r ∧ s.started = s.completed

theorem txStep_inside {n : Nat} {r : Regs} {p : Tx} (hn : 0 < n) (h : Inside n r p) :
    (∃ q, (txStep n r p).2 = .go q ∧ Inside n (txStep n r p).1 q) ∨
      ((txStep n r p).2 = .ok ∧ Moving (txStep n r p).1) := by
  cases p <;> simp_all [Inside, txStep, Is, Quiet, Moving]

theorem txStep_test {n : Nat} {r : Regs} (hn : 0 < n) (h : Quiet r) :
    txStep n r .test = (r, .go .setBusy) := by
  have : n ≠ 0 := by omega
  simp [txStep, h.1.1, this]

/-- What the hardware and the stream's handler do to a state of a transfer. -/
theorem hw_rest {r : Regs} {a c : Nat} (h : Rest r a c) :
    Rest (moveByte r) a c ∧ Rest { r with tc := true } a c ∧ Rest { r with inProgress := false } a c ∧
      (dmaPending r = true → Rest (dmaIsr r) a c) := by
  refine ⟨?_, ?_, ?_, ?_⟩
  · rcases h with h | ⟨h | h | h, e⟩
    · left; simp_all [Quiet, Is, moveByte]
    · obtain ⟨⟨h1, h2, h3, h4, h5, h6, h7, h8⟩, h9⟩ := h
      right
      refine ⟨?_, e⟩
      cases hl : r.left with
      | zero => omega
      | succ m =>
        have e1 : moveByte r = { r with left := m, tc := false, en := decide (m ≠ 0), tcif := r.tcif || decide (m = 0) } := by
          simp [moveByte, h4, h7, hl]
        rw [e1]
        by_cases hm : m = 0
        · right; left
          simp_all [Moved, Is]
        · left
          simp_all [Moving, Is]; omega
    · right; refine ⟨Or.inr (Or.inl ?_), e⟩; simp_all [Moved, Is, moveByte]
    · right; refine ⟨Or.inr (Or.inr ?_), e⟩; simp_all [Ending, Is, moveByte]
  · simpa [Rest, Quiet, Moving, Moved, Ending, Is] using h
  · simpa [Rest, Quiet, Moving, Moved, Ending, Is] using h
  · intro hd
    rcases h with h | ⟨h | h | h, e⟩
    · simp_all [Quiet, Is, dmaPending]
    · simp_all [Moving, Is, dmaPending]
    · right; refine ⟨Or.inr (Or.inr ?_), e⟩
      simp_all [Moved, Ending, Is, dmaIsr]
    · simp_all [Ending, Is, dmaPending]

theorem hw_inside {n : Nat} {r : Regs} {p : Tx} (h : Inside n r p) :
    Inside n (moveByte r) p ∧ Inside n { r with tc := true } p ∧ Inside n { r with inProgress := false } p ∧
      dmaPending r = false := by
  cases p <;> simp_all [Inside, Is, Quiet, moveByte, dmaPending]

theorem hw_fixed {r : Regs} (h : Quiet r ∨ Ended r ∨ Ending r) :
    moveByte r = r ∧ dmaPending r = false := by
  rcases h with h | h | h <;> simp_all [Quiet, Ended, Ending, Is, moveByte, dmaPending]

/-- A change of registers that keeps each state of a transfer keeps the invariant. -/
theorem inv_hw {s : St} {r' : Regs} (h : Inv s)
    (hr : ∀ a c, Rest s.r a c → Rest r' a c) (hi : ∀ n p, Inside n s.r p → Inside n r' p)
    (hq : Quiet s.r → Quiet r') (he : Ending s.r → Ending r') (hd : Ended s.r → Ended r')
    (ht : s.r.tcie = true → r'.tcie = true) : Inv { s with r := r' } := by
  have hl : Low s → Low { s with r := r' } := by
    rintro (⟨h1, h2⟩ | ⟨n, p, h1, h2, h3, h4⟩)
    · exact Or.inl ⟨h1, hr _ _ h2⟩
    · exact Or.inr ⟨n, p, h1, h2, hi _ _ h3, h4⟩
  unfold Inv at h ⊢
  dsimp only
  split at h
  · exact hl h
  · exact hl h
  · exact hl h
  · exact ⟨hl h.1, fun hb => ht (h.2 hb)⟩
  · exact ⟨h.1, he h.2.1, h.2.2⟩
  · exact ⟨h.1, hd h.2.1, h.2.2⟩
  · exact ⟨h.1, hq h.2.1, h.2.2⟩
  · refine ⟨h.1, h.2.1, ?_, h.2.2.2⟩
    rcases h.2.2.1 with h3 | ⟨h3, h4⟩
    · exact Or.inl (hi _ _ h3)
    · exact Or.inr ⟨h3, hq h4⟩
  · exact ⟨h.1, hq h.2.1, h.2.2⟩

theorem low_task {s : St} (h : Low s) (n : Nat) : Low (taskStep s n) := by
  rcases h with ⟨hc, hr⟩ | ⟨m, p, ht, hm, hin, hac⟩
  · cases ht : s.task with
    | out => left; simp only [taskStep, ht]; exact ⟨trivial, by simpa [Rest, Quiet, Moving, Moved, Ending, Is] using hr⟩
    | check m =>
      left; simp only [taskStep, ht]
      refine ⟨?_, hr⟩
      split_ifs <;> trivial
    | queue => left; simp only [taskStep, ht]; exact ⟨trivial, hr⟩
    | mark m =>
      left; simp only [taskStep, ht]
      exact ⟨rfl, by simpa [Rest, Quiet, Moving, Moved, Ending, Is] using hr⟩
    | tx m p =>
      rw [ht] at hc
      have hp : p = .test := hc
      subst hp
      by_cases hb : s.r.busy = true
      · left; simp only [taskStep, ht, txStep, hb, if_true]
        exact ⟨trivial, hr⟩
      · by_cases hm : m = 0
        · left; simp only [taskStep, ht, txStep, hb, hm, if_true]
          exact ⟨trivial, hr⟩
        · right
          have hq : Quiet s.r ∧ s.started = s.completed := by
            rcases hr with hr | ⟨h | h | h, -⟩
            · exact hr
            · exact absurd h.1.1 hb
            · exact absurd h.1.1 hb
            · exact absurd h.1.1 hb
          simp only [taskStep, ht, txStep, hb, hm, if_false]
          exact ⟨m, .setBusy, rfl, by omega, hq.1, hq.2⟩
    | undo => left; simp only [taskStep, ht]; exact ⟨trivial, by simpa [Rest, Quiet, Moving, Moved, Ending, Is] using hr⟩
    | unmask => left; simp only [taskStep, ht]; exact ⟨trivial, by simpa [Rest, Quiet, Moving, Moved, Ending, Is] using hr⟩
  · rcases txStep_inside hm hin with ⟨q, h1, h2⟩ | ⟨h1, h2⟩
    · right
      have e : txStep m s.r p = ((txStep m s.r p).1, .go q) := Prod.ext rfl h1
      simp only [taskStep, ht]
      rw [e]
      exact ⟨m, q, rfl, hm, h2, hac⟩
    · left
      have e : txStep m s.r p = ((txStep m s.r p).1, .ok) := Prod.ext rfl h1
      simp only [taskStep, ht]
      rw [e]
      exact ⟨trivial, Or.inr ⟨Or.inl h2, by dsimp only; omega⟩⟩

theorem low_of_tcie {s : St} (h : Low s) (ht : s.r.tcie = true) :
    Calm s.task ∧ Ending s.r ∧ s.started = s.completed + 1 := by
  rcases h with ⟨hc, ⟨h, -⟩ | ⟨h | h | h, e⟩⟩ | ⟨m, p, -, -, hin, -⟩
  · simp_all [Quiet, Is]
  · simp_all [Moving, Is]
  · simp_all [Moved, Is]
  · exact ⟨hc, h, e⟩
  · cases p <;> simp_all [Inside, Is, Quiet]

theorem inv_step {s : St} (h : Inv s) (e : Ev) : Inv (step s e) := by
  cases e with
  | task n =>
    simp only [step]
    split_ifs with ho
    · have hl : Low s := by unfold Inv at h; rw [ho] at h; exact h
      have h1 := low_task hl n
      have h2 : (taskStep s n).isr = .out := by
        rw [← ho]; unfold taskStep
        split <;> first | rfl | (split <;> rfl)
      unfold Inv
      rw [h2]; exact h1
    · exact h
  | port rx n =>
    simp only [step]
    unfold Inv at h
    cases hi : s.isr with
    | out => rw [hi] at h; simp only [portStep, hi, Inv]; exact h
    | readIsr => rw [hi] at h; simp only [portStep, hi, Inv]; exact h
    | readCr1 a => rw [hi] at h; simp only [portStep, hi, Inv]; exact ⟨h, fun hb => hb⟩
    | branch a b =>
      rw [hi] at h
      simp only [portStep, hi]
      have hout : Inv { s with isr := .out } := h.1
      cases rx with
      | true => exact hout
      | false =>
        cases a with
        | false => exact hout
        | true =>
          cases b with
          | false => exact hout
          | true => exact low_of_tcie h.1 (h.2 rfl)
    | clearTcie =>
      rw [hi] at h
      simp only [portStep, hi, Inv]
      refine ⟨h.1, ?_, h.2.2⟩
      have := h.2.1
      simp_all [Ended, Ending, Is]
    | ready =>
      rw [hi] at h
      simp only [portStep, hi, Inv]
      refine ⟨h.1, ?_, h.2.2⟩
      have := h.2.1
      simp_all [Ended, Quiet, Is]
    | callback =>
      rw [hi] at h
      simp only [portStep, hi]
      by_cases hn : n = 0
      · simp only [hn, if_true, Inv]; exact ⟨h.1, h.2.1, h.2.2⟩
      · simp only [hn, if_false, Inv]
        refine ⟨h.1, by omega, Or.inr ⟨by simp, h.2.1⟩, h.2.2⟩
    | tx m p =>
      rw [hi] at h
      obtain ⟨hc, hm, hin, hac⟩ := h
      rcases hin with hin | ⟨rfl, hq⟩
      · rcases txStep_inside hm hin with ⟨q, h1, h2⟩ | ⟨h1, h2⟩
        · have e : txStep m s.r p = ((txStep m s.r p).1, .go q) := Prod.ext rfl h1
          simp only [portStep, hi]
          rw [e]
          exact ⟨hc, hm, Or.inl h2, hac⟩
        · have e : txStep m s.r p = ((txStep m s.r p).1, .ok) := Prod.ext rfl h1
          simp only [portStep, hi]
          rw [e]
          exact Or.inl ⟨hc, Or.inr ⟨Or.inl h2, by dsimp only; omega⟩⟩
      · simp only [portStep, hi]
        rw [txStep_test hm hq]
        exact ⟨hc, hm, Or.inl hq, hac⟩
    | clear =>
      rw [hi] at h
      simp only [portStep, hi]
      exact Or.inl ⟨h.1, Or.inl ⟨by simpa [Quiet, Is] using h.2.1, h.2.2⟩⟩
  | dma =>
    simp only [step]
    split_ifs with hd
    · refine inv_hw h (fun a c hr => (hw_rest hr).2.2.2 hd) (fun n p hin => ?_) (fun hq => ?_) (fun he => ?_)
        (fun he => ?_) (fun _ => rfl)
      · rw [(hw_inside hin).2.2.2] at hd; cases hd
      · rw [(hw_fixed (Or.inl hq)).2] at hd; cases hd
      · rw [(hw_fixed (Or.inr (Or.inr he))).2] at hd; cases hd
      · rw [(hw_fixed (Or.inr (Or.inl he))).2] at hd; cases hd
    · exact h
  | byte =>
    refine inv_hw h (fun a c hr => (hw_rest hr).1) (fun n p hin => (hw_inside hin).1) (fun hq => ?_) (fun he => ?_)
      (fun he => ?_) (fun ht => ?_)
    · rw [(hw_fixed (Or.inl hq)).1]; exact hq
    · rw [(hw_fixed (Or.inr (Or.inr he))).1]; exact he
    · rw [(hw_fixed (Or.inr (Or.inl he))).1]; exact he
    · unfold moveByte
      split
      · split <;> exact ht
      · exact ht
  | line =>
    exact inv_hw h (fun a c hr => (hw_rest hr).2.1) (fun n p hin => (hw_inside hin).2.1)
      (fun hq => by simpa [Quiet, Is] using hq) (fun he => by simpa [Ending, Is] using he)
      (fun he => by simpa [Ended, Is] using he) (fun ht => ht)
  | noise =>
    exact inv_hw h (fun a c hr => (hw_rest hr).2.2.1) (fun n p hin => (hw_inside hin).2.2.1)
      (fun hq => by simpa [Quiet, Is] using hq) (fun he => by simpa [Ending, Is] using he)
      (fun he => by simpa [Ended, Is] using he) (fun ht => ht)

theorem inv_boot : Inv boot :=
  Or.inl ⟨trivial, Or.inl ⟨⟨⟨rfl, rfl, rfl, rfl, rfl, rfl, rfl, rfl⟩, rfl⟩, rfl⟩⟩

theorem inv_run (es : List Ev) : Inv (run boot es) := by
  induction es using List.reverseRecOn with
  | nil => exact inv_boot
  | append_singleton es e ih =>
    have : run boot (es ++ [e]) = step (run boot es) e := by simp [run]
    rw [this]; exact inv_step ih e

/-! ## Without end -/

section
variable (e : Nat → Ev)

theorem inv_at (i : Nat) : Inv (at_ e i) := by
  induction i with
  | zero => exact inv_boot
  | succ i ih => exact inv_step ih (e i)

/-- If every event keeps `P` or leads to `Q`, and helpful ones lead to `Q` and keep coming, `Q` comes. -/
theorem ensures {P Q : St → Prop} {H : St → Ev → Prop}
    (hstay : ∀ s v, Inv s → P s → P (step s v) ∨ Q (step s v))
    (hhelp : ∀ s v, Inv s → P s → H s v → Q (step s v))
    (hfair : ∀ i, ∃ j, i ≤ j ∧ H (at_ e j) (e j)) (i : Nat) (hP : P (at_ e i)) : ∃ j, i ≤ j ∧ Q (at_ e j) := by
  obtain ⟨j, hij, hj⟩ := hfair i
  obtain ⟨d, rfl⟩ : ∃ d, j = i + d := ⟨j - i, by omega⟩
  clear hij
  induction d generalizing i with
  | zero => exact ⟨i + 1, by omega, hhelp _ _ (inv_at e i) hP hj⟩
  | succ d ih =>
    rcases hstay _ (e i) (inv_at e i) hP with h | h
    · obtain ⟨j, h1, h2⟩ := ih (i + 1) h (by rw [show i + 1 + d = i + (d + 1) by omega]; exact hj)
      exact ⟨j, by omega, h2⟩
    · exact ⟨i + 1, by omega, h⟩

/-- The port's handler is not working on a transfer. -/
def LowIsr : Isr → Prop
  | .out => True
  | .readIsr => True
  | .readCr1 _ => True
  | .branch _ _ => True
  | _ => False

/-- The counters. -/
def Acc (c : Nat) (s : St) : Prop := s.started = c + 1 ∧ s.completed = c

theorem task_keeps {s : St} (hc : Calm s.task) (hb : s.r.busy = true) (n : Nat) :
    ∃ m p t, Calm t ∧ taskStep s n =
      { s with r := { s.r with masked := m, inProgress := p }, task := t, refused := (taskStep s n).refused } := by
  cases ht : s.task with
  | out => exact ⟨true, s.r.inProgress, .check n, trivial, by simp only [taskStep, ht]⟩
  | check m =>
    refine ⟨s.r.masked, s.r.inProgress, if s.r.inProgress then .queue else .mark m, ?_, by simp only [taskStep, ht]⟩
    split_ifs <;> trivial
  | queue => exact ⟨s.r.masked, s.r.inProgress, .unmask, trivial, by simp only [taskStep, ht]⟩
  | mark m => exact ⟨s.r.masked, true, .tx m .test, rfl, by simp only [taskStep, ht]⟩
  | tx m p =>
    rw [ht] at hc
    have hp : p = .test := hc
    subst hp
    exact ⟨s.r.masked, s.r.inProgress, .undo, trivial, by
      cases s with | mk r => cases r; simp only at hb ht; subst hb; simp only [taskStep, ht, txStep, if_true]⟩
  | undo => exact ⟨s.r.masked, false, .unmask, trivial, by simp only [taskStep, ht]⟩
  | unmask => exact ⟨false, s.r.inProgress, .out, trivial, by simp only [taskStep, ht]⟩

theorem low_of_moving {s : St} (h : Inv s) (hm : Moving s.r ∨ Moved s.r) : LowIsr s.isr ∧ Calm s.task ∧
    ∀ a b, s.isr = .branch a b → b = false := by
  have hd : s.r.dmat = true ∧ s.r.tcie = false := by
    rcases hm with hm | hm <;> exact ⟨hm.1.2.2.2.2.2.2.1, hm.1.2.2.2.2.2.2.2⟩
  have hl : Low s → Calm s.task := by
    rintro (h | ⟨n, p, -, -, hin, -⟩)
    · exact h.1
    · cases p <;> simp_all [Inside, Is, Quiet]
  unfold Inv at h
  split at h
  · rename_i hi; rw [hi]; exact ⟨trivial, hl h, by simp⟩
  · rename_i hi; rw [hi]; exact ⟨trivial, hl h, by simp⟩
  · rename_i hi; rw [hi]; exact ⟨trivial, hl h, by simp⟩
  · rename_i a b hi
    rw [hi]
    refine ⟨trivial, hl h.1, ?_⟩
    intro a' b' hab
    cases hab
    cases b with
    | false => rfl
    | true => rw [hd.2] at h; exact absurd (h.2 rfl) (by simp)
  · have := h.2.1; simp_all [Ending, Is]
  · have := h.2.1; simp_all [Ended, Is]
  · have := h.2.1; simp_all [Quiet, Is]
  · rename_i n p _
    have := h.2.2.1
    cases p <;> simp_all [Inside, Is, Quiet]
  · have := h.2.1; simp_all [Quiet, Is]

/-- The port's handler leaves a transfer alone that the stream still has. -/
theorem port_low {s : St} (hl : LowIsr s.isr) (hb : ∀ a b, s.isr = .branch a b → b = false) (rx : Bool) (n : Nat) :
    ∃ i, portStep s rx n = { s with isr := i } := by
  cases hi : s.isr with
  | out => exact ⟨_, by simp only [portStep, hi]; rfl⟩
  | readIsr => exact ⟨_, by simp only [portStep, hi]; rfl⟩
  | readCr1 a => exact ⟨_, by simp only [portStep, hi]; rfl⟩
  | branch a b => exact ⟨_, by simp only [portStep, hi]; rfl⟩
  | clearTcie => rw [hi] at hl; exact absurd hl (by simp [LowIsr])
  | ready => rw [hi] at hl; exact absurd hl (by simp [LowIsr])
  | callback => rw [hi] at hl; exact absurd hl (by simp [LowIsr])
  | tx m p => rw [hi] at hl; exact absurd hl (by simp [LowIsr])
  | clear => rw [hi] at hl; exact absurd hl (by simp [LowIsr])

/-- The stream has `k + 1` bytes to move. -/
def A (c k : Nat) (s : St) : Prop := Moving s.r ∧ s.r.left = k + 1 ∧ Acc c s
/-- The stream has moved everything. -/
def B (c : Nat) (s : St) : Prop := Moved s.r ∧ Acc c s
/-- The port is to interrupt. -/
def E (c : Nat) (s : St) : Prop := Ending s.r ∧ LowIsr s.isr ∧ Acc c s
/-- The port's handler is completing the transfer. -/
def Deep (c : Nat) (s : St) : Prop := (s.isr = .clearTcie ∨ s.isr = .ready ∨ s.isr = .callback) ∧ Acc c s
/-- The port's handler has completed it. -/
def Done (c : Nat) (s : St) : Prop := s.completed = c + 1

theorem masks {r : Regs} (m p : Bool) : (Moving r → Moving { r with masked := m, inProgress := p }) ∧
    (Moved r → Moved { r with masked := m, inProgress := p }) ∧
    (Ending r → Ending { r with masked := m, inProgress := p }) := by
  refine ⟨?_, ?_, ?_⟩ <;> intro h <;> simpa [Moving, Moved, Ending, Is] using h

theorem move_A {c k : Nat} {s : St} (h : A c k s) :
    (k = 0 → B c (step s .byte)) ∧ (∀ m, k = m + 1 → A c m (step s .byte)) := by
  obtain ⟨⟨⟨h1, h2, h3, h4, h5, h6, h7, h8⟩, h9⟩, hl, hac⟩ := h
  have e1 : moveByte s.r =
      { s.r with left := k, tc := false, en := decide (k ≠ 0), tcif := s.r.tcif || decide (k = 0) } := by
    simp [moveByte, h4, h7, hl]
  constructor
  · intro hk
    subst hk
    refine ⟨?_, hac⟩
    simp only [step, e1, Moved, Is]
    simp_all
  · intro m hm
    subst hm
    refine ⟨?_, by simp only [step, e1], hac⟩
    simp only [step, e1, Moving, Is]
    simp_all

theorem stay_AB {s : St} (h : Inv s) (hm : Moving s.r ∨ Moved s.r) (v : Ev) (hv : v ≠ .byte)
    (hd : v ≠ .dma ∨ dmaPending s.r = false) :
    ∃ m p, ((step s v).r = { s.r with masked := m, inProgress := p } ∨
        (step s v).r = { s.r with masked := m, inProgress := p, tc := true }) ∧
      (step s v).started = s.started ∧ (step s v).completed = s.completed := by
  obtain ⟨hl, hc, hb⟩ := low_of_moving h hm
  have hbusy : s.r.busy = true := by rcases hm with hm | hm <;> exact hm.1.1
  cases v with
  | task n =>
    simp only [step]
    split_ifs
    · obtain ⟨m, p, t, -, e⟩ := task_keeps hc hbusy n
      rw [e]; exact ⟨m, p, Or.inl rfl, rfl, rfl⟩
    · exact ⟨_, _, Or.inl rfl, rfl, rfl⟩
  | port rx n =>
    obtain ⟨i, e⟩ := port_low hl hb rx n
    simp only [step]
    rw [e]; exact ⟨_, _, Or.inl rfl, rfl, rfl⟩
  | dma =>
    rcases hd with hd | hd
    · exact absurd rfl hd
    · simp only [step, hd]
      exact ⟨_, _, Or.inl rfl, rfl, rfl⟩
  | byte => exact absurd rfl hv
  | line => exact ⟨_, _, Or.inr rfl, rfl, rfl⟩
  | noise => exact ⟨_, _, Or.inl rfl, rfl, rfl⟩

theorem A_leads (hf : Fair e) (c k : Nat) : ∀ i, A c k (at_ e i) → ∃ j, i ≤ j ∧ B c (at_ e j) := by
  induction k with
  | zero =>
    refine ensures e (H := fun _ v => v = .byte) ?_ ?_ hf.byte
    · intro s v hi hA
      by_cases hv : v = .byte
      · subst hv; exact Or.inr ((move_A hA).1 rfl)
      · left
        obtain ⟨m, p, hr, h1, h2⟩ := stay_AB hi (Or.inl hA.1) v hv (Or.inr (by
          have := hA.1; simp_all [Moving, Is, dmaPending]))
        refine ⟨?_, ?_, ?_⟩
        · have := hA.1
          rcases hr with hr | hr <;> rw [hr] <;> simpa [Moving, Is] using this
        · rcases hr with hr | hr <;> rw [hr] <;> exact hA.2.1
        · exact ⟨h1.trans hA.2.2.1, h2.trans hA.2.2.2⟩
    · intro s v _ hA hv
      subst hv; exact (move_A hA).1 rfl
  | succ k ih =>
    intro i hA
    obtain ⟨j, h1, h2⟩ := ensures e (P := A c (k + 1)) (Q := A c k) (H := fun _ v => v = .byte) (by
      intro s v hi hA
      by_cases hv : v = .byte
      · subst hv; exact Or.inr ((move_A hA).2 k rfl)
      · left
        obtain ⟨m, p, hr, h1, h2⟩ := stay_AB hi (Or.inl hA.1) v hv (Or.inr (by
          have := hA.1; simp_all [Moving, Is, dmaPending]))
        refine ⟨?_, ?_, ?_⟩
        · have := hA.1
          rcases hr with hr | hr <;> rw [hr] <;> simpa [Moving, Is] using this
        · rcases hr with hr | hr <;> rw [hr] <;> exact hA.2.1
        · exact ⟨h1.trans hA.2.2.1, h2.trans hA.2.2.2⟩) (by
      intro s v _ hA hv
      subst hv; exact (move_A hA).2 k rfl) hf.byte i hA
    obtain ⟨j', h3, h4⟩ := ih j h2
    exact ⟨j', by omega, h4⟩

theorem B_dma {c : Nat} {s : St} (hi : Inv s) (hB : B c s) (hm : dmaPending s.r = true) : E c (step s .dma) := by
  obtain ⟨hl, -, -⟩ := low_of_moving hi (Or.inr hB.1)
  have := hB.1
  simp only [step, hm, if_true]
  refine ⟨?_, hl, hB.2⟩
  simp_all [Moved, Ending, Is, dmaIsr]

theorem B_leads (hf : Fair e) (c : Nat) : ∀ i, B c (at_ e i) → ∃ j, i ≤ j ∧ E c (at_ e j) := by
  refine ensures e (H := fun s v => s.r.masked = false ∧ v = .dma) ?_ ?_ hf.dma
  · intro s v hi hB
    by_cases hv : v = .dma ∧ dmaPending s.r = true
    · obtain ⟨rfl, hd⟩ := hv
      exact Or.inr (B_dma hi hB hd)
    · left
      by_cases hby : v = .byte
      · subst hby
        have := hB.1
        refine ⟨?_, hB.2⟩
        simp_all [step, Moved, Is, moveByte]
      · obtain ⟨m, p, hr, h1, h2⟩ := stay_AB hi (Or.inr hB.1) v hby (by
          by_cases hd : v = .dma
          · right; simpa using fun h => hv ⟨hd, h⟩
          · exact Or.inl hd)
        have := hB.1
        refine ⟨?_, h1.trans hB.2.1, h2.trans hB.2.2⟩
        rcases hr with hr | hr <;> rw [hr] <;> simpa [Moved, Is] using this
  · intro s v hi hB hv
    obtain ⟨hm, rfl⟩ := hv
    refine B_dma hi hB ?_
    have := hB.1
    simp_all [Moved, Is, dmaPending]

/-- In the last phase the handler takes the transfer up, or nothing changes but masks and its own place. -/
theorem stay_E {c : Nat} {s : St} (hi : Inv s) (hE : E c s) (v : Ev) :
    Deep c (step s v) ∨ (E c (step s v) ∧ ((step s v).r.tc = s.r.tc ∨ (step s v).r.tc = true) ∧
      ((∀ rx n, v ≠ .port rx n) → (step s v).isr = s.isr)) := by
  obtain ⟨hr, hl, hac⟩ := hE
  have ht : s.r.tcie = true := hr.1.2.2.2.2.2.2.2
  have hcalm : Calm s.task := by
    have hlow : Low s := by
      unfold Inv at hi
      cases hs : s.isr <;> rw [hs] at hi hl <;> first | exact hi | exact hi.1 | exact absurd hl (by simp [LowIsr])
    exact (low_of_tcie hlow ht).1
  cases v with
  | task n =>
    right
    simp only [step]
    split_ifs
    · obtain ⟨m, p, t, -, e⟩ := task_keeps hcalm hr.1.1 n
      rw [e]
      exact ⟨⟨(masks m p).2.2 hr, hl, hac⟩, Or.inl rfl, fun _ => rfl⟩
    · exact ⟨⟨hr, hl, hac⟩, Or.inl rfl, fun _ => rfl⟩
  | port rx n =>
    cases hs : s.isr with
    | out => right; simp only [step, portStep, hs]; exact ⟨⟨hr, trivial, hac⟩, Or.inl (by trivial), fun h => absurd rfl (h _ _)⟩
    | readIsr => right; simp only [step, portStep, hs]; exact ⟨⟨hr, trivial, hac⟩, Or.inl (by trivial), fun h => absurd rfl (h _ _)⟩
    | readCr1 a => right; simp only [step, portStep, hs]; exact ⟨⟨hr, trivial, hac⟩, Or.inl (by trivial), fun h => absurd rfl (h _ _)⟩
    | branch a b =>
      have hout : E c { s with isr := .out } := ⟨hr, trivial, hac⟩
      simp only [step, portStep, hs]
      cases rx with
      | true => right; exact ⟨hout, Or.inl (by trivial), fun h => absurd rfl (h _ _)⟩
      | false =>
        cases hab : (a && b) with
        | false => right; exact ⟨hout, Or.inl (by trivial), fun h => absurd rfl (h _ _)⟩
        | true => left; exact ⟨Or.inl rfl, hac⟩
    | clearTcie => rw [hs] at hl; exact absurd hl (by simp [LowIsr])
    | ready => rw [hs] at hl; exact absurd hl (by simp [LowIsr])
    | callback => rw [hs] at hl; exact absurd hl (by simp [LowIsr])
    | tx m p => rw [hs] at hl; exact absurd hl (by simp [LowIsr])
    | clear => rw [hs] at hl; exact absurd hl (by simp [LowIsr])
  | dma =>
    right
    simp only [step, (hw_fixed (Or.inr (Or.inr hr))).2]
    exact ⟨⟨hr, hl, hac⟩, Or.inl (by trivial), fun _ => (by trivial)⟩
  | byte =>
    right
    simp only [step, (hw_fixed (Or.inr (Or.inr hr))).1]
    exact ⟨⟨hr, hl, hac⟩, Or.inl (by trivial), fun _ => (by trivial)⟩
  | line =>
    right
    exact ⟨⟨by simpa [step, Ending, Is] using hr, hl, hac⟩, Or.inr rfl, fun _ => rfl⟩
  | noise =>
    right
    exact ⟨⟨by simpa [step, Ending, Is] using hr, hl, hac⟩, Or.inl rfl, fun _ => rfl⟩

/-- The last byte is out. -/
def L (c : Nat) (s : St) : Prop := E c s ∧ s.r.tc = true

theorem E_leads (hf : Fair e) (c : Nat) : ∀ i, E c (at_ e i) → ∃ j, i ≤ j ∧ (L c (at_ e j) ∨ Deep c (at_ e j)) := by
  refine ensures e (Q := fun s => L c s ∨ Deep c s) (H := fun _ v => v = .line) ?_ ?_ hf.line
  · intro s v hi hE
    rcases stay_E hi hE v with h | ⟨h, -, -⟩
    · exact Or.inr (Or.inr h)
    · exact Or.inl h
  · intro s v hi hE hv
    subst hv
    rcases stay_E hi hE .line with h | ⟨h, -, -⟩
    · exact Or.inr h
    · exact Or.inl ⟨h, rfl⟩

theorem stay_L {c : Nat} {s : St} (hi : Inv s) (hL : L c s) (v : Ev) :
    Deep c (step s v) ∨ (L c (step s v) ∧ ((∀ rx n, v ≠ .port rx n) → (step s v).isr = s.isr)) := by
  rcases stay_E hi hL.1 v with h | ⟨h1, h2, h3⟩
  · exact Or.inl h
  · right
    refine ⟨⟨h1, ?_⟩, h3⟩
    rcases h2 with h2 | h2
    · rw [h2]; exact hL.2
    · exact h2

/-- The handler has seen, or will see, what there is. -/
def Fresh : Isr → Prop
  | .out => True
  | .readIsr => True
  | .readCr1 a => a = true
  | .branch a b => a = true ∧ b = true
  | _ => False

def F (c : Nat) (s : St) : Prop := L c s ∧ Fresh s.isr

theorem isPort (v : Ev) : (∃ rx n, v = .port rx n) ∨ ∀ rx n, v ≠ .port rx n := by
  cases v <;> simp

theorem F_leads (hf : Fair e) (c : Nat) : ∀ i, F c (at_ e i) → ∃ j, i ≤ j ∧ Deep c (at_ e j) := by
  refine ensures e (H := fun s v => (∃ a b, s.isr = .branch a b) ∧ ∃ n, v = .port false n) ?_ ?_ hf.quiet
  · intro s v hi hF
    rcases stay_L hi hF.1 v with h | ⟨h, hk⟩
    · exact Or.inr h
    · refine Or.inl ⟨h, ?_⟩
      rcases isPort v with ⟨rx, n, rfl⟩ | hv
      · have hfr := hF.2
        have htc := hF.1.2
        have htcie : s.r.tcie = true := hF.1.1.1.1.2.2.2.2.2.2.2
        simp only [step]
        have hl := h.1.2.1
        simp only [step] at hl
        cases hs : s.isr with
        | out => simp only [portStep, hs]; trivial
        | readIsr => simp only [portStep, hs]; exact htc
        | readCr1 a => rw [hs] at hfr; simp only [portStep, hs]; exact ⟨hfr, htcie⟩
        | branch a b =>
          simp only [portStep, hs] at hl ⊢
          cases rx with
          | true => trivial
          | false =>
            rw [hs] at hfr
            obtain ⟨ha, hb⟩ : a = true ∧ b = true := hfr
            subst ha hb
            exact absurd hl (by simp [LowIsr])
        | clearTcie => rw [hs] at hfr; exact absurd hfr (by simp [Fresh])
        | ready => rw [hs] at hfr; exact absurd hfr (by simp [Fresh])
        | callback => rw [hs] at hfr; exact absurd hfr (by simp [Fresh])
        | tx m p => rw [hs] at hfr; exact absurd hfr (by simp [Fresh])
        | clear => rw [hs] at hfr; exact absurd hfr (by simp [Fresh])
      · rw [hk hv]; exact hF.2
  · intro s v hi hF hv
    obtain ⟨⟨a, b, hs⟩, n, rfl⟩ := hv
    have hfr := hF.2
    rw [hs] at hfr
    obtain ⟨ha, hb⟩ : a = true ∧ b = true := hfr
    subst ha hb
    simp only [step, portStep, hs]
    exact ⟨Or.inl rfl, hF.1.1.2.2⟩

/-- The handler is at the end of a pass that began too early. -/
theorem L1_leads (hf : Fair e) (c : Nat) : ∀ i, (L c (at_ e i) ∧ ∃ a b, (at_ e i).isr = .branch a b) →
    ∃ j, i ≤ j ∧ (F c (at_ e j) ∨ Deep c (at_ e j)) := by
  refine ensures e (P := fun s => L c s ∧ ∃ a b, s.isr = .branch a b) (Q := fun s => F c s ∨ Deep c s)
    (H := fun _ v => ∃ rx n, v = .port rx n) ?_ ?_ hf.port
  all_goals
    intro s v hi hP
  · obtain ⟨hL, a, b, hs⟩ := hP
    rcases stay_L hi hL v with h | ⟨h, hk⟩
    · exact Or.inr (Or.inr h)
    · rcases isPort v with ⟨rx, n, rfl⟩ | hv
      · right; left
        refine ⟨h, ?_⟩
        have hl := h.1.2.1
        simp only [step, portStep, hs] at hl ⊢
        cases rx with
        | true => trivial
        | false =>
          cases hab : (a && b) with
          | false => simp [Fresh]
          | true => simp [hab, LowIsr] at hl
      · exact Or.inl ⟨h, a, b, by rw [hk hv, hs]⟩
  · rintro ⟨rx, n, rfl⟩
    obtain ⟨hL, a, b, hs⟩ := hP
    rcases stay_L hi hL (.port rx n) with h | ⟨h, hk⟩
    · exact Or.inr h
    · left
      refine ⟨h, ?_⟩
      have hl := h.1.2.1
      simp only [step, portStep, hs] at hl ⊢
      cases rx with
      | true => trivial
      | false =>
        cases hab : (a && b) with
        | false => simp [Fresh]
        | true => simp [hab, LowIsr] at hl

theorem L2_leads (hf : Fair e) (c : Nat) : ∀ i, (L c (at_ e i) ∧ ∃ a, (at_ e i).isr = .readCr1 a) →
    ∃ j, i ≤ j ∧ ((L c (at_ e j) ∧ ∃ a b, (at_ e j).isr = .branch a b) ∨ Deep c (at_ e j)) := by
  refine ensures e (P := fun s => L c s ∧ ∃ a, s.isr = .readCr1 a)
    (Q := fun s => (L c s ∧ ∃ a b, s.isr = .branch a b) ∨ Deep c s)
    (H := fun _ v => ∃ rx n, v = .port rx n) ?_ ?_ hf.port
  · rintro s v hi ⟨hL, a, hs⟩
    rcases stay_L hi hL v with h | ⟨h, hk⟩
    · exact Or.inr (Or.inr h)
    · rcases isPort v with ⟨rx, n, rfl⟩ | hv
      · exact Or.inr (Or.inl ⟨h, a, s.r.tcie, by simp only [step, portStep, hs]⟩)
      · exact Or.inl ⟨h, a, by rw [hk hv, hs]⟩
  · rintro s v hi ⟨hL, a, hs⟩ ⟨rx, n, rfl⟩
    rcases stay_L hi hL (.port rx n) with h | ⟨h, -⟩
    · exact Or.inr h
    · exact Or.inl ⟨h, a, s.r.tcie, by simp only [step, portStep, hs]⟩

theorem L_leads (hf : Fair e) (c i : Nat) (hL : L c (at_ e i)) : ∃ j, i ≤ j ∧ Deep c (at_ e j) := by
  have step1 : ∀ i, (L c (at_ e i) ∧ ∃ a b, (at_ e i).isr = .branch a b) → ∃ j, i ≤ j ∧ Deep c (at_ e j) := by
    intro i h
    obtain ⟨j, h1, h2 | h2⟩ := L1_leads e hf c i h
    · obtain ⟨j', h3, h4⟩ := F_leads e hf c j h2
      exact ⟨j', by omega, h4⟩
    · exact ⟨j, h1, h2⟩
  have hl := hL.1.2.1
  cases hs : (at_ e i).isr with
  | out => exact F_leads e hf c i ⟨hL, by rw [hs]; trivial⟩
  | readIsr => exact F_leads e hf c i ⟨hL, by rw [hs]; trivial⟩
  | readCr1 a =>
    obtain ⟨j, h1, h2 | h2⟩ := L2_leads e hf c i ⟨hL, a, hs⟩
    · obtain ⟨j', h3, h4⟩ := step1 j h2
      exact ⟨j', by omega, h4⟩
    · exact ⟨j, h1, h2⟩
  | branch a b => exact step1 i ⟨hL, a, b, hs⟩
  | clearTcie => rw [hs] at hl; exact absurd hl (by simp [LowIsr])
  | ready => rw [hs] at hl; exact absurd hl (by simp [LowIsr])
  | callback => rw [hs] at hl; exact absurd hl (by simp [LowIsr])
  | tx m p => rw [hs] at hl; exact absurd hl (by simp [LowIsr])
  | clear => rw [hs] at hl; exact absurd hl (by simp [LowIsr])

/-- Outside the port's handler nothing moves the handler or the counters while it runs. -/
theorem deep_other {s : St} (h : s.isr ≠ .out) {v : Ev} (hv : ∀ rx n, v ≠ .port rx n) :
    (step s v).isr = s.isr ∧ (step s v).started = s.started ∧ (step s v).completed = s.completed := by
  cases v with
  | task n => simp only [step, if_neg h]; exact ⟨by trivial, by trivial, by trivial⟩
  | port rx n => exact absurd rfl (hv rx n)
  | dma => simp only [step]; split_ifs <;> exact ⟨rfl, rfl, rfl⟩
  | byte => exact ⟨rfl, rfl, rfl⟩
  | line => exact ⟨rfl, rfl, rfl⟩
  | noise => exact ⟨rfl, rfl, rfl⟩

/-- The handler goes from one place to the next. -/
theorem isr_leads (hf : Fair e) (c : Nat) (x : Isr) (hx : x ≠ .out) (Q : St → Prop)
    (hQ : ∀ s rx n, Inv s → s.isr = x → Acc c s → Q (step s (.port rx n))) :
    ∀ i, ((at_ e i).isr = x ∧ Acc c (at_ e i)) → ∃ j, i ≤ j ∧ Q (at_ e j) := by
  refine ensures e (P := fun s => s.isr = x ∧ Acc c s) (H := fun _ v => ∃ rx n, v = .port rx n) ?_ ?_ hf.port
  · rintro s v hi ⟨hs, hac⟩
    rcases isPort v with ⟨rx, n, rfl⟩ | hv
    · exact Or.inr (hQ s rx n hi hs hac)
    · obtain ⟨h1, h2, h3⟩ := deep_other (by rw [hs]; exact hx) hv
      exact Or.inl ⟨h1.trans hs, h2.trans hac.1, h3.trans hac.2⟩
  · rintro s v hi ⟨hs, hac⟩ ⟨rx, n, rfl⟩
    exact hQ s rx n hi hs hac

/-- Right after the callback of transfer `c + 1`. -/
def Ready (c : Nat) (s : St) : Prop := s.completed = c + 1 ∧ s.r.busy = false

theorem Deep_leads (hf : Fair e) (c i : Nat) (h : Deep c (at_ e i)) : ∃ j, i ≤ j ∧ Ready c (at_ e j) := by
  have h3 : ∀ i, ((at_ e i).isr = .callback ∧ Acc c (at_ e i)) → ∃ j, i ≤ j ∧ Ready c (at_ e j) :=
    isr_leads e hf c .callback (by simp) (Ready c) (by
      intro s rx n hi hs hac
      unfold Inv at hi
      rw [hs] at hi
      simp only [step, portStep, hs]
      exact ⟨by rw [hac.2], hi.2.1.1.1⟩)
  have h2 : ∀ i, ((at_ e i).isr = .ready ∧ Acc c (at_ e i)) → ∃ j, i ≤ j ∧ Ready c (at_ e j) := by
    intro i h
    obtain ⟨j, a, b⟩ := isr_leads e hf c .ready (by simp) (fun s => s.isr = .callback ∧ Acc c s) (by
      intro s rx n hi hs hac
      simp only [step, portStep, hs]
      exact ⟨trivial, hac⟩) i h
    obtain ⟨j', a', b'⟩ := h3 j b
    exact ⟨j', by omega, b'⟩
  rcases h with ⟨h | h | h, hac⟩
  · obtain ⟨j, a, b⟩ := isr_leads e hf c .clearTcie (by simp) (fun s => s.isr = .ready ∧ Acc c s) (by
      intro s rx n hi hs hac
      simp only [step, portStep, hs]
      exact ⟨trivial, hac⟩) i ⟨h, hac⟩
    obtain ⟨j', a', b'⟩ := h2 j b
    exact ⟨j', by omega, b'⟩
  · exact h2 i ⟨h, hac⟩
  · exact h3 i ⟨h, hac⟩

/-- What a started and not completed transfer looks like. -/
theorem started_cases {s : St} (h : Inv s) (hc : s.completed < s.started) :
    (∃ k, A s.completed k s) ∨ B s.completed s ∨ E s.completed s ∨ Deep s.completed s := by
  have hlow : Low s → LowIsr s.isr →
      (∃ k, A s.completed k s) ∨ B s.completed s ∨ E s.completed s ∨ Deep s.completed s := by
    intro hl hi
    rcases hl with ⟨-, ⟨-, e⟩ | ⟨h | h | h, e⟩⟩ | ⟨-, -, -, -, -, e⟩
    · omega
    · exact Or.inl ⟨s.r.left - 1, h, by have := h.2; omega, e, rfl⟩
    · exact Or.inr (Or.inl ⟨h, e, rfl⟩)
    · exact Or.inr (Or.inr (Or.inl ⟨h, hi, e, rfl⟩))
    · omega
  unfold Inv at h
  split at h
  · rename_i hi; exact hlow h (by rw [hi]; trivial)
  · rename_i hi; exact hlow h (by rw [hi]; trivial)
  · rename_i hi; exact hlow h (by rw [hi]; trivial)
  · rename_i hi; exact hlow h.1 (by rw [hi]; trivial)
  · rename_i hi; exact Or.inr (Or.inr (Or.inr ⟨Or.inl hi, h.2.2, rfl⟩))
  · rename_i hi; exact Or.inr (Or.inr (Or.inr ⟨Or.inr (Or.inl hi), h.2.2, rfl⟩))
  · rename_i hi; exact Or.inr (Or.inr (Or.inr ⟨Or.inr (Or.inr hi), h.2.2, rfl⟩))
  · omega
  · omega

/-- **C134** (nothing gets stuck).  In every execution in which everybody gets their turn, every transfer that was
started is completed: the callback comes, and with it the port is ready for the next one. -/
theorem C134_every_transfer_ends (hf : Fair e) (i : Nat) (hc : (at_ e i).completed < (at_ e i).started) :
    ∃ j, i ≤ j ∧ (at_ e j).completed = (at_ e i).started ∧ (at_ e j).r.busy = false := by
  have hst : (at_ e i).started = (at_ e i).completed + 1 := by
    rcases started_cases (inv_at e i) hc with ⟨k, h⟩ | h | h | h
    · exact h.2.2.1
    · exact h.2.1
    · exact h.2.2.1
    · exact h.2.1
  have hD : ∀ i', Deep (at_ e i).completed (at_ e i') → ∃ j, i' ≤ j ∧ Ready (at_ e i).completed (at_ e j) :=
    fun i' => Deep_leads e hf _ i'
  have hE : ∀ i', E (at_ e i).completed (at_ e i') → ∃ j, i' ≤ j ∧ Ready (at_ e i).completed (at_ e j) := by
    intro i' h
    obtain ⟨j, h1, h2 | h2⟩ := E_leads e hf _ i' h
    · obtain ⟨j2, h3, h4⟩ := L_leads e hf _ j h2
      obtain ⟨j3, h5, h6⟩ := hD j2 h4
      exact ⟨j3, by omega, h6⟩
    · obtain ⟨j2, h3, h4⟩ := hD j h2
      exact ⟨j2, by omega, h4⟩
  have hB : ∀ i', B (at_ e i).completed (at_ e i') → ∃ j, i' ≤ j ∧ Ready (at_ e i).completed (at_ e j) := by
    intro i' h
    obtain ⟨j, h1, h2⟩ := B_leads e hf _ i' h
    obtain ⟨j2, h3, h4⟩ := hE j h2
    exact ⟨j2, by omega, h4⟩
  have key : ∃ j, i ≤ j ∧ Ready (at_ e i).completed (at_ e j) := by
    rcases started_cases (inv_at e i) hc with ⟨k, h⟩ | h | h | h
    · obtain ⟨j, h1, h2⟩ := A_leads e hf _ k i h
      obtain ⟨j2, h3, h4⟩ := hB j h2
      exact ⟨j2, by omega, h4⟩
    · exact hB i h
    · exact hE i h
    · exact hD i h
  obtain ⟨j, h1, h2, h3⟩ := key
  exact ⟨j, h1, by rw [hst, h2], h3⟩

/-- How far from the end of `HAL_UART_Transmit_DMA`. -/
def toGo : Tx → Nat
  | .test => 12
  | .setBusy => 11
  | .lockTest => 10
  | .lock => 9
  | .stateTest => 8
  | .setDma => 7
  | .config => 6
  | .clearFlags => 5
  | .enableIrq => 4
  | .enable => 3
  | .clearTc => 2
  | .request => 1
  | .unlock => 0
  | .failReady => 0

theorem toGo_step {n : Nat} {r : Regs} {p : Tx} (h : Inside n r p) {q : Tx} (hq : (txStep n r p).2 = .go q) :
    toGo q < toGo p := by
  cases p <;> simp_all [Inside, txStep, Is, Quiet] <;> subst hq <;> decide

theorem inside_tcie {n : Nat} {r : Regs} {p : Tx} (h : Inside n r p) : r.tcie = false := by
  cases p <;> simp_all [Inside, Is, Quiet]

/-- The task has at most `k` steps of `HAL_UART_Transmit_DMA` to go. -/
def TaskIn (k : Nat) (s : St) : Prop :=
  ∃ n p, s.task = .tx n p ∧ 0 < n ∧ Inside n s.r p ∧ toGo p ≤ k ∧ LowIsr s.isr

theorem branch_tcie {s : St} (h : Inv s) {a b : Bool} (hs : s.isr = .branch a b) : b = true → s.r.tcie = true := by
  unfold Inv at h
  rw [hs] at h
  exact h.2

theorem task_in_step {s : St} {n : Nat} {p : Tx} (hs : s.task = .tx n p) (hn : 0 < n) (hi : Inside n s.r p) {k : Nat}
    (hk : toGo p ≤ k + 1) (hl : LowIsr s.isr) (m : Nat) :
    TaskIn k (taskStep s m) ∨ (taskStep s m).completed < (taskStep s m).started ∨ s.started < s.completed := by
  rcases txStep_inside hn hi with ⟨q, h1, h2⟩ | ⟨h1, h2⟩
  · left
    have e : txStep n s.r p = ((txStep n s.r p).1, .go q) := Prod.ext rfl h1
    have := toGo_step hi h1
    simp only [taskStep, hs]
    rw [e]
    exact ⟨n, q, rfl, hn, h2, by omega, hl⟩
  · right
    have e : txStep n s.r p = ((txStep n s.r p).1, .ok) := Prod.ext rfl h1
    simp only [taskStep, hs]
    rw [e]
    dsimp only
    omega

theorem low_port {s : St} (hi : Inv s) (hl : LowIsr s.isr) (ht : s.r.tcie = false) (rx : Bool) (n : Nat) :
    ∃ i, LowIsr i ∧ portStep s rx n = { s with isr := i } := by
  cases hs : s.isr with
  | out => exact ⟨.readIsr, trivial, by simp only [portStep, hs]⟩
  | readIsr => exact ⟨.readCr1 s.r.tc, trivial, by simp only [portStep, hs]⟩
  | readCr1 a => exact ⟨.branch a s.r.tcie, trivial, by simp only [portStep, hs]⟩
  | branch a b =>
    have hb : b = false := by
      cases b with
      | false => rfl
      | true => have := branch_tcie hi hs rfl; rw [ht] at this; cases this
    subst hb
    refine ⟨.out, trivial, ?_⟩
    simp only [portStep, hs, Bool.and_false]
    cases rx <;> rfl
  | clearTcie => rw [hs] at hl; exact absurd hl (by simp [LowIsr])
  | ready => rw [hs] at hl; exact absurd hl (by simp [LowIsr])
  | callback => rw [hs] at hl; exact absurd hl (by simp [LowIsr])
  | tx m p => rw [hs] at hl; exact absurd hl (by simp [LowIsr])
  | clear => rw [hs] at hl; exact absurd hl (by simp [LowIsr])

/-- Started and not completed, or ready. -/
def Good (s : St) : Prop := s.completed < s.started ∨ s.r.busy = false

theorem counts {s : St} (h : Inv s) : s.completed ≤ s.started ∧ s.started ≤ s.completed + 1 := by
  have hl : Low s → s.completed ≤ s.started ∧ s.started ≤ s.completed + 1 := by
    rintro (⟨-, ⟨-, e⟩ | ⟨-, e⟩⟩ | ⟨-, -, -, -, -, e⟩) <;> omega
  unfold Inv at h
  split at h
  · exact hl h
  · exact hl h
  · exact hl h
  · exact hl h.1
  all_goals (obtain ⟨-, h⟩ := h; omega)

theorem task_leads (hf : Fair e) (k : Nat) : ∀ i, TaskIn k (at_ e i) → ∃ j, i ≤ j ∧ Good (at_ e j) := by
  induction k with
  | zero =>
    rintro i ⟨n, p, -, -, h, hk, -⟩
    cases p <;> simp_all [toGo, Inside]
  | succ k ih =>
    intro i h
    obtain ⟨j, h1, h2⟩ := ensures e (P := TaskIn (k + 1)) (Q := fun s => TaskIn k s ∨ Good s)
      (H := fun s v => s.isr = .out ∧ ∃ n, v = .task n) (by
        rintro s v hi ⟨n, p, ht, hn, hin, hk, hl⟩
        have htc := inside_tcie hin
        cases v with
        | task m =>
          simp only [step]
          split_ifs with ho
          · right
            rcases task_in_step ht hn hin hk hl m with h | h | h
            · exact Or.inl h
            · exact Or.inr (Or.inl h)
            · have := counts hi; omega
          · exact Or.inl ⟨n, p, ht, hn, hin, hk, hl⟩
        | port rx m =>
          left
          obtain ⟨i, hl', e⟩ := low_port hi hl htc rx m
          simp only [step]
          rw [e]
          exact ⟨n, p, ht, hn, hin, hk, hl'⟩
        | dma => left; simp only [step, (hw_inside hin).2.2.2]; exact ⟨n, p, ht, hn, hin, hk, hl⟩
        | byte => left; exact ⟨n, p, ht, hn, (hw_inside hin).1, hk, hl⟩
        | line => left; exact ⟨n, p, ht, hn, (hw_inside hin).2.1, hk, hl⟩
        | noise => left; exact ⟨n, p, ht, hn, (hw_inside hin).2.2.1, hk, hl⟩) (by
        rintro s v hi ⟨n, p, ht, hn, hin, hk, hl⟩ ⟨ho, m, rfl⟩
        simp only [step, ho, if_true]
        rcases task_in_step ht hn hin hk hl m with h | h | h
        · exact Or.inl h
        · exact Or.inr (Or.inl h)
        · have := counts hi; omega) hf.task i h
    rcases h2 with h2 | h2
    · obtain ⟨j', h3, h4⟩ := ih j h2
      exact ⟨j', by omega, h4⟩
    · exact ⟨j, h1, h2⟩

/-- The port's handler has at most `k` steps of `HAL_UART_Transmit_DMA` to go. -/
def IsrIn (k : Nat) (s : St) : Prop :=
  ∃ n p, s.isr = .tx n p ∧ 0 < n ∧ Inside n s.r p ∧ toGo p ≤ k

theorem isr_in_step {s : St} {n : Nat} {p : Tx} (hs : s.isr = .tx n p) (hn : 0 < n) (hi : Inside n s.r p) {k : Nat}
    (hk : toGo p ≤ k + 1) (rx : Bool) (m : Nat) :
    IsrIn k (portStep s rx m) ∨ (portStep s rx m).completed < (portStep s rx m).started ∨
      s.started < s.completed := by
  rcases txStep_inside hn hi with ⟨q, h1, h2⟩ | ⟨h1, h2⟩
  · left
    have e : txStep n s.r p = ((txStep n s.r p).1, .go q) := Prod.ext rfl h1
    have := toGo_step hi h1
    simp only [portStep, hs]
    rw [e]
    exact ⟨n, q, rfl, hn, h2, by omega⟩
  · right
    have e : txStep n s.r p = ((txStep n s.r p).1, .ok) := Prod.ext rfl h1
    simp only [portStep, hs]
    rw [e]
    dsimp only
    omega

theorem isrin_leads (hf : Fair e) (k : Nat) : ∀ i, IsrIn k (at_ e i) → ∃ j, i ≤ j ∧ Good (at_ e j) := by
  induction k with
  | zero =>
    rintro i ⟨n, p, -, -, h, hk⟩
    cases p <;> simp_all [toGo, Inside]
  | succ k ih =>
    intro i h
    obtain ⟨j, h1, h2⟩ := ensures e (P := IsrIn (k + 1)) (Q := fun s => IsrIn k s ∨ Good s)
      (H := fun s v => ∃ rx n, v = .port rx n) (by
        rintro s v hi ⟨n, p, ht, hn, hin, hk⟩
        cases v with
        | task m =>
          left
          have ho : s.isr ≠ .out := by rw [ht]; simp
          simp only [step, if_neg ho]
          exact ⟨n, p, ht, hn, hin, hk⟩
        | port rx m =>
          right
          simp only [step]
          rcases isr_in_step ht hn hin hk rx m with h | h | h
          · exact Or.inl h
          · exact Or.inr (Or.inl h)
          · have := counts hi; omega
        | dma => left; simp only [step, (hw_inside hin).2.2.2]; exact ⟨n, p, ht, hn, hin, hk⟩
        | byte => left; exact ⟨n, p, ht, hn, (hw_inside hin).1, hk⟩
        | line => left; exact ⟨n, p, ht, hn, (hw_inside hin).2.1, hk⟩
        | noise => left; exact ⟨n, p, ht, hn, (hw_inside hin).2.2.1, hk⟩) (by
        rintro s v hi ⟨n, p, ht, hn, hin, hk⟩ ⟨rx, m, rfl⟩
        simp only [step]
        rcases isr_in_step ht hn hin hk rx m with h | h | h
        · exact Or.inl h
        · exact Or.inr (Or.inl h)
        · have := counts hi; omega) hf.port i h
    rcases h2 with h2 | h2
    · obtain ⟨j', h3, h4⟩ := ih j h2
      exact ⟨j', by omega, h4⟩
    · exact ⟨j, h1, h2⟩

/-- **C134** (nothing gets stuck).  In every execution in which everybody gets their turn, the port is ready again
and again, whatever noise there is. -/
theorem C134_ready_again (hf : Fair e) (i : Nat) : ∃ j, i ≤ j ∧ (at_ e j).r.busy = false := by
  have good : ∀ i, Good (at_ e i) → ∃ j, i ≤ j ∧ (at_ e j).r.busy = false := by
    rintro i (h | h)
    · obtain ⟨j, h1, -, h2⟩ := C134_every_transfer_ends e hf i h
      exact ⟨j, h1, h2⟩
    · exact ⟨i, Nat.le_refl _, h⟩
  have hlow : Low (at_ e i) → LowIsr (at_ e i).isr → ∃ j, i ≤ j ∧ (at_ e j).r.busy = false := by
    rintro (⟨-, ⟨h, -⟩ | ⟨-, h⟩⟩ | ⟨n, p, h1, h2, h3, -⟩) hl
    · exact ⟨i, Nat.le_refl _, h.1.1⟩
    · exact good i (Or.inl (by omega))
    · obtain ⟨j, h4, h5⟩ := task_leads e hf (toGo p) i ⟨n, p, h1, h2, h3, Nat.le_refl _, hl⟩
      obtain ⟨j', h6, h7⟩ := good j h5
      exact ⟨j', by omega, h7⟩
  have h := inv_at e i
  unfold Inv at h
  split at h
  · rename_i hi; exact hlow h (by rw [hi]; trivial)
  · rename_i hi; exact hlow h (by rw [hi]; trivial)
  · rename_i hi; exact hlow h (by rw [hi]; trivial)
  · rename_i hi; exact hlow h.1 (by rw [hi]; trivial)
  · exact good i (Or.inl (by omega))
  · exact good i (Or.inl (by omega))
  · exact good i (Or.inl (by omega))
  · rename_i n p hi
    obtain ⟨-, hn, h | ⟨-, h⟩, -⟩ := h
    · obtain ⟨j, h4, h5⟩ := isrin_leads e hf (toGo p) i ⟨n, p, hi, hn, h, Nat.le_refl _⟩
      obtain ⟨j', h6, h7⟩ := good j h5
      exact ⟨j', by omega, h7⟩
    · exact ⟨i, Nat.le_refl _, h.1.1⟩
  · exact ⟨i, Nat.le_refl _, h.2.1.1.1⟩

end

/-! ## What the layers above rely on -/

/-- **C134** (one at a time, and to the end).  However the task, the two handlers and the hardware take turns:
callbacks and transfers alternate; when the callback is called, every byte of its transfer has been handed to the
port and the port has nothing left that belongs to it; and when the port is ready with nobody inside the driver, stream
and port are as at the start. -/
theorem C134_one_at_a_time (es : List Ev) :
    (run boot es).completed ≤ (run boot es).started ∧ (run boot es).started ≤ (run boot es).completed + 1 ∧
    ((run boot es).isr = .callback →
      (run boot es).r.left = 0 ∧ (run boot es).started = (run boot es).completed + 1 ∧
        (run boot es).r.busy = false ∧ (run boot es).r.dmaBusy = false ∧ (run boot es).r.lock = false) ∧
    ((run boot es).isr = .out → (run boot es).task = .out → (run boot es).r.busy = false →
      (run boot es).started = (run boot es).completed ∧
        ∃ b c d, (run boot es).r = { boot.r with masked := b, tc := c, inProgress := d }) := by
  have h := inv_run es
  refine ⟨(counts h).1, (counts h).2, ?_, ?_⟩
  · intro hs
    unfold Inv at h
    rw [hs] at h
    have := h.2.1
    exact ⟨this.2, h.2.2, this.1.1, this.1.2.2.1, this.1.2.1⟩
  · intro hs ht hb
    unfold Inv at h
    rw [hs] at h
    rcases h with ⟨-, ⟨⟨⟨h1, h2, h3, h4, h5, h6, h7, h8⟩, h9⟩, e⟩ | ⟨h | h | h, -⟩⟩ | ⟨n, p, h, -⟩
    · refine ⟨e, (run boot es).r.masked, (run boot es).r.tc, (run boot es).r.inProgress, ?_⟩
      revert h1 h2 h3 h4 h5 h6 h7 h8 h9
      cases (run boot es).r
      simp only [boot]
      intros
      subst_vars
      rfl
    · rw [h.1.1] at hb; cases hb
    · rw [h.1.1] at hb; cases hb
    · rw [h.1.1] at hb; cases hb
    · rw [ht] at h; cases h

/-- Without errors in reception. -/
structure Inv' (s : St) : Prop where
  inv : Inv s
  idle : s.r.inProgress = false → Quiet s.r ∧ LowIsr s.isr ∧ ∀ n p, s.task ≠ .tx n p
  check : ∀ n, s.task = .check n → n ≠ 0
  mark : ∀ n, s.task = .mark n → n ≠ 0 ∧ s.r.inProgress = false
  test : ∀ n p, s.task = .tx n p → n ≠ 0 ∧ s.r.inProgress = true ∧ (p = .test → Quiet s.r ∧ LowIsr s.isr)
  undo : s.task ≠ .undo
  refused : s.refused = 0

theorem quiet_tcie {r : Regs} (h : Quiet r) : r.tcie = false := h.1.2.2.2.2.2.2.2

theorem inv'_hw {s : St} (h : Inv' s) (v : Ev) (r' : Regs) (e : step s v = { s with r := r' })
    (hp : r'.inProgress = s.r.inProgress) (hq : Quiet s.r → Quiet r') : Inv' (step s v) where
  inv := inv_step h.inv v
  idle := by
    rw [e]; dsimp only
    intro hi
    have := h.idle (hp ▸ hi)
    exact ⟨hq this.1, this.2⟩
  check := by rw [e]; exact h.check
  mark := by
    rw [e]; dsimp only
    intro n hn
    exact ⟨(h.mark n hn).1, hp.trans (h.mark n hn).2⟩
  test := by
    rw [e]; dsimp only
    intro n p hn
    have := h.test n p hn
    exact ⟨this.1, hp.trans this.2.1, fun hh => ⟨hq (this.2.2 hh).1, (this.2.2 hh).2⟩⟩
  undo := by rw [e]; exact h.undo
  refused := by rw [e]; exact h.refused

theorem inv'_step {s : St} (h : Inv' s) (v : Ev) (hv : Clean v) : Inv' (step s v) := by
  have hinv := inv_step h.inv v
  cases v with
  | task n =>
    simp only [step] at hinv ⊢
    split_ifs at hinv ⊢ with ho
    · cases ht : s.task with
      | out =>
        have e : taskStep s n = { s with r := { s.r with masked := true }, task := .check n } := by
          simp only [taskStep, ht]
        rw [e] at hinv ⊢
        refine ⟨hinv, ?_, ?_, by simp, by simp, by simp, h.refused⟩
        · intro hi
          have := h.idle hi
          exact ⟨by simpa [Quiet, Is] using this.1, this.2.1, by simp⟩
        · intro m hm
          cases hm
          exact hv
      | check m =>
        have e : taskStep s n = { s with task := if s.r.inProgress then .queue else .mark m } := by
          simp only [taskStep, ht]
        rw [e] at hinv ⊢
        cases hp : s.r.inProgress with
        | true =>
          rw [hp] at hinv
          refine ⟨hinv, ?_, by simp, by simp, by simp, by simp, h.refused⟩
          intro hi
          dsimp only at hi
          rw [hp] at hi; cases hi
        | false =>
          rw [hp] at hinv
          refine ⟨hinv, ?_, by simp, ?_, by simp, by simp, h.refused⟩
          · intro _
            have := h.idle hp
            exact ⟨this.1, this.2.1, by simp⟩
          · intro k hk
            have : m = k := by simpa using hk
            subst this
            exact ⟨h.check m ht, hp⟩
      | queue =>
        have e : taskStep s n = { s with task := .unmask } := by simp only [taskStep, ht]
        rw [e] at hinv ⊢
        refine ⟨hinv, ?_, by simp, by simp, by simp, by simp, h.refused⟩
        intro hi
        have := h.idle hi
        exact ⟨this.1, this.2.1, by simp⟩
      | mark m =>
        have e : taskStep s n = { s with r := { s.r with inProgress := true }, task := .tx m .test } := by
          simp only [taskStep, ht]
        rw [e] at hinv ⊢
        obtain ⟨hm, hp⟩ := h.mark m ht
        obtain ⟨hq, hl, -⟩ := h.idle hp
        refine ⟨hinv, by simp, by simp, by simp, ?_, by simp, h.refused⟩
        intro k p hk
        cases hk
        exact ⟨hm, rfl, fun _ => ⟨by simpa [Quiet, Is] using hq, hl⟩⟩
      | tx m p =>
        obtain ⟨hm, hp, hq⟩ := h.test m p ht
        have hin : (p = .test ∧ Quiet s.r) ∨ Inside m s.r p := by
          have hl := h.inv
          unfold Inv at hl
          rw [ho] at hl
          rcases hl with ⟨hc, -⟩ | ⟨m', p', h1, -, h2, -⟩
          · rw [ht] at hc
            have : p = .test := hc
            exact Or.inl ⟨this, (hq this).1⟩
          · rw [ht] at h1; cases h1; exact Or.inr h2
        have hprog : ∀ p', (txStep m s.r p').1.inProgress = s.r.inProgress := by intro p'; cases p' <;> rfl
        rcases hin with ⟨rfl, hq'⟩ | hin
        · have e : taskStep s n = { s with r := s.r, task := .tx m .setBusy } := by
            simp only [taskStep, ht]; rw [txStep_test (by omega) hq']
          rw [e] at hinv ⊢
          refine ⟨hinv, ?_, by simp, by simp, ?_, by simp, h.refused⟩
          · intro hi; dsimp only at hi; rw [hp] at hi; cases hi
          · intro k p hk
            cases hk
            exact ⟨hm, hp, by simp⟩
        · rcases txStep_inside (by omega) hin with ⟨q, h1, h2⟩ | ⟨h1, h2⟩
          · have e' : txStep m s.r p = ((txStep m s.r p).1, .go q) := Prod.ext rfl h1
            have e : taskStep s n = { s with r := (txStep m s.r p).1, task := .tx m q } := by
              simp only [taskStep, ht]; rw [e']
            rw [e] at hinv ⊢
            refine ⟨hinv, ?_, by simp, by simp, ?_, by simp, h.refused⟩
            · intro hi; dsimp only at hi; rw [hprog, hp] at hi; cases hi
            · intro k p' hk
              cases hk
              refine ⟨hm, (hprog p).trans hp, fun hh => ?_⟩
              subst hh; exact absurd h2 (by simp [Inside])
          · have e' : txStep m s.r p = ((txStep m s.r p).1, .ok) := Prod.ext rfl h1
            have e : taskStep s n = { s with r := (txStep m s.r p).1, task := .unmask, started := s.started + 1 } := by
              simp only [taskStep, ht]; rw [e']
            rw [e] at hinv ⊢
            refine ⟨hinv, ?_, by simp, by simp, by simp, by simp, h.refused⟩
            intro hi; dsimp only at hi; rw [hprog, hp] at hi; cases hi
      | undo => exact absurd ht h.undo
      | unmask =>
        have e : taskStep s n = { s with r := { s.r with masked := false }, task := .out } := by
          simp only [taskStep, ht]
        rw [e] at hinv ⊢
        refine ⟨hinv, ?_, by simp, by simp, by simp, by simp, h.refused⟩
        intro hi
        have := h.idle hi
        exact ⟨by simpa [Quiet, Is] using this.1, this.2.1, by simp⟩
    · exact h
  | port rx n =>
    by_cases hlt : LowIsr s.isr ∧ s.r.tcie = false
    · obtain ⟨i, hi, e⟩ := low_port h.inv hlt.1 hlt.2 rx n
      simp only [step] at hinv ⊢
      rw [e] at hinv ⊢
      refine ⟨hinv, fun hh => ?_, h.check, h.mark, fun m p hm => ?_, h.undo, h.refused⟩
      · have := h.idle hh; exact ⟨this.1, hi, this.2.2⟩
      · have := h.test m p hm; exact ⟨this.1, this.2.1, fun hp => ⟨(this.2.2 hp).1, hi⟩⟩
    · -- the task waits outside `HAL_UART_Transmit_DMA`, and a transfer is known to be in progress
      have hp : s.r.inProgress = true := by
        cases hh : s.r.inProgress with
        | true => rfl
        | false => have := h.idle hh; exact absurd ⟨this.2.1, quiet_tcie this.1⟩ hlt
      have hcalm : Calm s.task := by
        have hi := h.inv
        by_cases hl : LowIsr s.isr
        · have ht : s.r.tcie = true := by
            cases hh : s.r.tcie with
            | true => rfl
            | false => exact absurd ⟨hl, hh⟩ hlt
          have hlow : Low s := by
            unfold Inv at hi
            cases hs : s.isr <;> rw [hs] at hi hl <;> first | exact hi | exact hi.1 | exact absurd hl (by simp [LowIsr])
          exact (low_of_tcie hlow ht).1
        · unfold Inv at hi
          cases hs : s.isr <;> rw [hs] at hi hl <;> first | exact hi.1 | exact absurd trivial hl
      have htask : (∀ m p, s.task ≠ .tx m p) ∧ (∀ m, s.task ≠ .mark m) := by
        constructor
        · intro m p ht
          rw [ht] at hcalm
          have : p = .test := hcalm
          have := (h.test m p ht).2.2 this
          exact hlt ⟨this.2, quiet_tcie this.1⟩
        · intro m ht
          rw [(h.mark m ht).2] at hp; cases hp
      -- what the handler changes
      have key : ∃ r i a c, portStep s rx n = { s with r := r, isr := i, started := a, completed := c } ∧
          (r.inProgress = false → Quiet r ∧ LowIsr i) := by
        have hi := h.inv
        cases hs : s.isr with
        | out => exact ⟨_, _, _, _, by simp only [portStep, hs]; rfl, fun hh => by simp [hp] at hh⟩
        | readIsr => exact ⟨_, _, _, _, by simp only [portStep, hs]; rfl, fun hh => by simp [hp] at hh⟩
        | readCr1 a => exact ⟨_, _, _, _, by simp only [portStep, hs]; rfl, fun hh => by simp [hp] at hh⟩
        | branch a b => exact ⟨_, _, _, _, by simp only [portStep, hs]; rfl, fun hh => by simp [hp] at hh⟩
        | clearTcie => exact ⟨_, _, _, _, by simp only [portStep, hs]; rfl, fun hh => by simp [hp] at hh⟩
        | ready => exact ⟨_, _, _, _, by simp only [portStep, hs]; rfl, fun hh => by simp [hp] at hh⟩
        | callback => exact ⟨_, _, _, _, by simp only [portStep, hs]; rfl, fun hh => by simp [hp] at hh⟩
        | tx m p =>
          unfold Inv at hi
          rw [hs] at hi
          obtain ⟨-, hm, hin, -⟩ := hi
          have hprog : ∀ p', (txStep m s.r p').1.inProgress = s.r.inProgress := by intro p'; cases p' <;> rfl
          have hgo : (∃ q, (txStep m s.r p).2 = .go q) ∨ (txStep m s.r p).2 = .ok := by
            rcases hin with hin | ⟨rfl, hq⟩
            · rcases txStep_inside hm hin with ⟨q, h1, -⟩ | ⟨h1, -⟩
              · exact Or.inl ⟨q, h1⟩
              · exact Or.inr h1
            · left; exact ⟨.setBusy, by rw [txStep_test hm hq]⟩
          rcases hgo with ⟨q, h1⟩ | h1
          · have e' : txStep m s.r p = ((txStep m s.r p).1, .go q) := Prod.ext rfl h1
            refine ⟨(txStep m s.r p).1, .tx m q, s.started, s.completed, by simp only [portStep, hs]; rw [e'], fun hh => ?_⟩
            rw [hprog, hp] at hh; cases hh
          · have e' : txStep m s.r p = ((txStep m s.r p).1, .ok) := Prod.ext rfl h1
            refine ⟨(txStep m s.r p).1, .out, s.started + 1, s.completed, by simp only [portStep, hs]; rw [e'], fun hh => ?_⟩
            rw [hprog, hp] at hh; cases hh
        | clear =>
          unfold Inv at hi
          rw [hs] at hi
          exact ⟨{ s.r with inProgress := false }, .out, s.started, s.completed, by simp only [portStep, hs],
            fun _ => ⟨by simpa [Quiet, Is] using hi.2.1, trivial⟩⟩
      obtain ⟨r, i, a, c, e, hk⟩ := key
      simp only [step] at hinv ⊢
      rw [e] at hinv ⊢
      refine ⟨hinv, fun hh => ⟨(hk hh).1, (hk hh).2, htask.1⟩, h.check, fun m hm => absurd hm (htask.2 m),
        fun m p hm => absurd hm (htask.1 m p), h.undo, h.refused⟩
  | dma =>
    by_cases hd : dmaPending s.r = true
    · refine inv'_hw h .dma (dmaIsr s.r) (by simp only [step, hd, if_true]) rfl (fun hq => ?_)
      rw [(hw_fixed (Or.inl hq)).2] at hd; cases hd
    · have : step s .dma = s := by simp only [step, hd]; rfl
      rw [this]; exact h
  | byte =>
    refine inv'_hw h .byte (moveByte s.r) rfl ?_ (fun hq => by rw [(hw_fixed (Or.inl hq)).1]; exact hq)
    unfold moveByte
    split
    · split <;> rfl
    · rfl
  | line => exact inv'_hw h .line { s.r with tc := true } rfl rfl (fun hq => by simpa [Quiet, Is] using hq)
  | noise => exact absurd hv (by simp [Clean])

theorem inv'_boot : Inv' boot where
  inv := inv_boot
  idle := fun _ => ⟨⟨⟨rfl, rfl, rfl, rfl, rfl, rfl, rfl, rfl⟩, rfl⟩, trivial, by simp [boot]⟩
  check := by simp [boot]
  mark := by simp [boot]
  test := by simp [boot]
  undo := by simp [boot]
  refused := rfl

theorem inv'_run (es : List Ev) (hes : ∀ v ∈ es, Clean v) : Inv' (run boot es) := by
  induction es using List.reverseRecOn with
  | nil => exact inv'_boot
  | append_singleton es e ih =>
    have : run boot (es ++ [e]) = step (run boot es) e := by simp [run]
    rw [this]
    exact inv'_step (ih fun v hv => hes v (by simp [hv])) e (hes e (by simp))

/-- **C134** (no message is refused).  While there are no errors in reception, however the task, the two handlers and
the hardware take turns, the driver below never refuses a message: neither one sent by the task, nor one taken from
the pending buffer by the callback. -/
theorem C134_none_refused (es : List Ev) (hes : ∀ v ∈ es, Clean v) : (run boot es).refused = 0 :=
  (inv'_run es hes).refused

/-! ## Examples -/

/-- Sending `n` bytes from start to callback. -/
def send (n : Nat) : List Ev := List.replicate 16 (.task n)

/-- The bytes go out, then both handlers run, and the callback finds `m` bytes pending. -/
def finish (n m : Nat) : List Ev :=
  List.replicate n .byte ++ [.dma, .line] ++ List.replicate 8 (.port false m)

example : (run boot (send 3)).started = 1 ∧ (run boot (send 3)).r.left = 3 ∧ (run boot (send 3)).r.busy = true := by
  decide

example : (run boot (send 3 ++ finish 3 0)).completed = 1 ∧ (run boot (send 3 ++ finish 3 0)).r.busy = false ∧
    (run boot (send 3 ++ finish 3 0)).isr = .out := by decide

/-- A second message is queued while the first is going out, and sent by the callback. -/
example :
    let s := run boot (send 3 ++ List.replicate 4 (.task 2) ++ finish 3 2 ++ List.replicate 12 (.port false 0))
    s.started = 2 ∧ s.completed = 1 ∧ s.r.left = 2 ∧ s.refused = 0 := by decide

/-- With an error in reception at the wrong moment the driver below refuses the second message: it is lost. -/
example : (run boot (send 3 ++ [.noise] ++ List.replicate 6 (.task 2))).refused = 1 := by decide

/-- One message of one byte after the other. -/
def cycle : List Ev := send 1 ++ finish 1 0

/-- For ever. -/
def forever (i : Nat) : Ev := (cycle[i % 27]?).getD .line

/-- After `k` more messages. -/
def later (k : Nat) (s : St) : St := { s with started := s.started + k, completed := s.completed + k }

theorem later_step (k : Nat) (s : St) (v : Ev) : step (later k s) v = later k (step s v) := by
  cases v with
  | task n =>
    simp only [step]
    have e : (later k s).isr = s.isr := rfl
    rw [e]
    split
    · unfold taskStep
      have e : (later k s).task = s.task := rfl
      rw [e]
      cases ht : s.task with
      | tx m p =>
        dsimp only
        have e : (later k s).r = s.r := rfl
        rw [e]
        rcases txStep m s.r p with ⟨r, q | _ | _⟩
        · rfl
        · simp only [later, St.mk.injEq, true_and, and_true]; omega
        · rfl
      | _ => rfl
    · rfl
  | port rx n =>
    simp only [step, portStep]
    have e : (later k s).isr = s.isr := rfl
    rw [e]
    cases ht : s.isr with
    | tx m p =>
      dsimp only
      have e : (later k s).r = s.r := rfl
      rw [e]
      rcases txStep m s.r p with ⟨r, q | _ | _⟩
      · rfl
      · simp only [later, St.mk.injEq, true_and, and_true]; omega
      · rfl
    | callback => simp only [later, St.mk.injEq, true_and, and_true]; omega
    | _ => rfl
  | dma =>
    simp only [step]
    have e : (later k s).r = s.r := rfl
    rw [e]
    split <;> rfl
  | byte => rfl
  | line => rfl
  | noise => rfl

theorem forever_ev (k d : Nat) (hd : d < 27) : forever (27 * k + d) = (cycle[d]?).getD .line := by
  unfold forever
  rw [show (27 * k + d) % 27 = d by omega]

theorem at_forever (k : Nat) : ∀ d, d ≤ 27 → at_ forever (27 * k + d) = later k (run boot (cycle.take d)) := by
  have hlen : cycle.length = 27 := rfl
  have hbase : ∀ k, at_ forever (27 * k) = later k boot → ∀ d, d ≤ 27 →
      at_ forever (27 * k + d) = later k (run boot (cycle.take d)) := by
    intro k h d
    induction d with
    | zero => intro _; rw [Nat.add_zero, h]; rfl
    | succ d ih =>
      intro hd
      rw [show 27 * k + (d + 1) = 27 * k + d + 1 by omega, at_, ih (by omega), later_step, forever_ev _ _ (by omega),
        List.take_add_one, List.getElem?_eq_getElem (by omega)]
      simp only [run, List.foldl_append]
      rfl
  refine hbase k ?_
  induction k with
  | zero => rfl
  | succ k ih =>
    rw [show 27 * (k + 1) = 27 * k + 27 by omega, hbase k ih 27 (Nat.le_refl _)]
    have : run boot (cycle.take 27) = later 1 boot := by decide
    rw [this]
    simp only [later, St.mk.injEq, true_and]
    omega

/-- There are executions in which everybody gets their turn. -/
theorem forever_fair : Fair forever := by
  refine ⟨fun i => ?_, fun i => ?_, fun i => ?_, fun i => ?_, fun i => ?_, fun i => ?_⟩
  · exact ⟨27 * i + 16, by omega, by rw [forever_ev _ _ (by omega)]; rfl⟩
  · exact ⟨27 * i + 18, by omega, by rw [forever_ev _ _ (by omega)]; rfl⟩
  · refine ⟨27 * i + 0, by omega, ?_, 1, by rw [forever_ev _ _ (by omega)]; rfl⟩
    rw [at_forever _ _ (by omega)]
    rfl
  · exact ⟨27 * i + 19, by omega, false, 0, by rw [forever_ev _ _ (by omega)]; rfl⟩
  · refine ⟨27 * i + 17, by omega, ?_, by rw [forever_ev _ _ (by omega)]; rfl⟩
    rw [at_forever _ _ (by omega)]
    have : (run boot (cycle.take 17)).r.masked = false := by decide
    exact this
  · refine ⟨27 * i + 22, by omega, ⟨true, true, ?_⟩, 0, by rw [forever_ev _ _ (by omega)]; rfl⟩
    rw [at_forever _ _ (by omega)]
    have : (run boot (cycle.take 22)).isr = .branch true true := by decide
    exact this

/-- In this one, the first message is under way before event 16, and completed afterwards. -/
example : (at_ forever 16).completed < (at_ forever 16).started := by decide

end Verif.UartTx
