import Verif.Model.Critical
import Mathlib.Tactic.SplitIfs

set_option autoImplicit false

/-!
# C101: kernel critical sections exclude each other
-/

namespace Verif.Critical

/-! ## Specification -/

/-- How many contexts (the task level and the active handlers) are inside a kernel section. -/
def inside (s : St) : Nat := (if s.nesting = 0 then 0 else 1) + (s.active.filter (·.saved ≠ [])).length

/-- What the programs do, whatever the interrupts are:

* only enabled interrupts arrive;
* a handler returns only outside its sections;
* handlers do not use the tasks' `enter` and `exit`, and tasks pair them;
* only handlers whose interrupt is marked as calling the kernel do, and the kernel's own two
  handlers do not nest. -/
def Allowed (s : St) : Ev → Prop
  | .irq i => i ∈ irqs
  | .ret => ∃ a as, s.active = a :: as ∧ a.saved = []
  | .enter => s.active = []
  | .exit => s.active = [] ∧ s.nesting ≠ 0
  | .raise => ∃ a as, s.active = a :: as ∧ a.irq.calls = true ∧ (a.irq.own = true → a.saved = [])
  | .restore => ∃ a as, s.active = a :: as ∧ a.saved ≠ []

/-- Every event of a history is allowed where it happens. -/
def Disciplined : St → List Ev → Prop
  | _, [] => True
  | s, e :: es => Allowed s e ∧ ∀ s', step s e = .ok s' → Disciplined s' es

/-! ## Invariant -/

/-- Masks saved by nested sections: the outermost found no mask. -/
def Saved : List Nat → Prop
  | [] => True
  | [b] => b = 0
  | b :: bs => b = maxSyscall ∧ Saved bs

/-- The mask belongs to the one section below or at this level, if any; handlers above it are
more urgent than the kernel allows. -/
def Ok (n : Nat) : List Act → Nat → Prop
  | [], b => b = if n = 0 then 0 else maxSyscall
  | a :: as, b => a.irq ∈ irqs ∧
      ((a.saved = [] ∧ Ok n as b ∧ (b ≠ 0 → a.irq.prio < maxSyscall)) ∨
       (a.saved ≠ [] ∧ Ok n as 0 ∧ b = maxSyscall ∧ Saved a.saved ∧ (a.irq.own = true → a.saved.length ≤ 1)))

theorem calls_prio : ∀ i ∈ irqs, i.calls = true → maxSyscall ≤ i.prio := by decide

theorem own_prio : ∀ i ∈ irqs, i.own = true → i.prio = 15 := by decide

theorem Ok.mask {n : Nat} {as : List Act} {b : Nat} (h : Ok n as b) : b = 0 ∨ b = maxSyscall := by
  induction as generalizing b with
  | nil => unfold Ok at h; split_ifs at h <;> simp [h]
  | cons a as ih =>
    rcases h.2 with ⟨-, h, -⟩ | ⟨-, -, h, -⟩
    · exact ih h
    · exact .inr h

theorem Ok.count {n : Nat} {as : List Act} {b : Nat} (h : Ok n as b) :
    inside ⟨b, n, as⟩ = if b = 0 then 0 else 1 := by
  induction as generalizing b with
  | nil =>
    unfold Ok at h
    subst h
    by_cases hn : n = 0 <;> simp [inside, hn, maxSyscall]
  | cons a as ih =>
    rcases h.2 with ⟨h1, h2, -⟩ | ⟨h1, h2, h3, -⟩
    · rw [← ih h2]
      simp [inside, h1]
    · have := ih h2
      simp only [inside, ↓reduceIte, Nat.add_eq_zero_iff] at this
      rw [h3]
      simp only [inside, maxSyscall]
      rw [this.1, List.filter_cons_of_pos (by simpa using h1), List.length_cons, this.2]
      rfl

theorem step_ok {s : St} (e : Ev) (h : Ok s.nesting s.active s.basepri) (ha : Allowed s e) :
    ∃ s', step s e = .ok s' ∧ Ok s'.nesting s'.active s'.basepri := by
  obtain ⟨b, n, act⟩ := s
  dsimp only at h
  cases e with
  | irq i =>
    unfold step
    dsimp only
    by_cases ht : takes ⟨b, n, act⟩ i = true
    · rw [if_pos ht]
      refine ⟨_, rfl, ha, .inl ⟨rfl, h, fun hb => ?_⟩⟩
      unfold takes at ht
      simp only [Bool.and_eq_true, Bool.or_eq_true, beq_iff_eq, decide_eq_true_eq] at ht
      rcases h.mask with h0 | h0
      · exact absurd h0 hb
      · rcases ht.1 with h1 | h1
        · exact absurd h1 hb
        · show i.prio < maxSyscall
          rw [← h0]; exact h1
    · rw [if_neg ht]
      exact ⟨_, rfl, h⟩
  | ret =>
    obtain ⟨a, as, h1, h2⟩ := ha
    dsimp only at h1
    subst h1
    rcases h.2 with ⟨-, h3, -⟩ | ⟨h3, -⟩
    · exact ⟨⟨b, n, as⟩, rfl, h3⟩
    · exact absurd h2 h3
  | enter =>
    change act = [] at ha
    subst ha
    refine ⟨⟨maxSyscall, n + 1, []⟩, by simp [step], by simp [Ok]⟩
  | exit =>
    obtain ⟨h1, h2⟩ := ha
    dsimp only at h1 h2
    subst h1
    refine ⟨⟨if n - 1 = 0 then 0 else b, n - 1, []⟩, by simp [step, h2], ?_⟩
    unfold Ok at h ⊢
    rw [if_neg h2] at h
    subst h
    rfl
  | raise =>
    obtain ⟨a, as, h1, h2, h3⟩ := ha
    dsimp only at h1
    subst h1
    have hp := calls_prio a.irq h.1 h2
    refine ⟨⟨maxSyscall, n, ⟨a.irq, b :: a.saved⟩ :: as⟩, ?_, ?_⟩
    · show (if a.irq.own = false ∧ a.irq.prio < maxSyscall then _ else _) = _
      rw [if_neg (by omega)]
    · refine ⟨h.1, .inr ⟨by simp, ?_⟩⟩
      rcases h.2 with ⟨h4, h5, h6⟩ | ⟨h4, h5, h6, h7, h8⟩
      · have hb : b = 0 := by
          rcases Nat.eq_zero_or_pos b with hb | hb
          · exact hb
          · have := h6 (by omega); omega
        subst hb
        refine ⟨h5, rfl, ?_, ?_⟩
        · show Saved (0 :: a.saved)
          rw [h4]; rfl
        · intro _
          show (0 :: a.saved).length ≤ 1
          rw [h4]; simp
      · refine ⟨h5, rfl, ?_, ?_⟩
        · show Saved (b :: a.saved)
          cases hs : a.saved with
          | nil => exact absurd hs h4
          | cons x xs => rw [hs] at h7; exact ⟨h6, h7⟩
        · intro ho
          exact absurd (h3 ho) h4
  | restore =>
    obtain ⟨a, as, h1, h2⟩ := ha
    dsimp only at h1
    subst h1
    rcases h.2 with ⟨h4, -⟩ | ⟨h4, h5, h6, h7, h8⟩
    · exact absurd h4 h2
    · cases hs : a.saved with
      | nil => exact absurd hs h4
      | cons x xs =>
        rw [hs] at h7 h8
        refine ⟨⟨if a.irq.own then 0 else x, n, ⟨a.irq, xs⟩ :: as⟩, by simp [step, hs], h.1, ?_⟩
        cases xs with
        | nil =>
          have hx : x = 0 := h7
          subst hx
          refine .inl ⟨rfl, by simpa using h5, by simp⟩
        | cons y ys =>
          have hown : a.irq.own = false := by
            cases ho : a.irq.own with
            | false => rfl
            | true => have := h8 ho; simp at this
          refine .inr ⟨by simp, h5, ?_, h7.2, ?_⟩
          · simp only [hown, Bool.false_eq_true, ↓reduceIte]; exact h7.1
          · intro ho
            rw [hown] at ho
            cases ho

theorem run_ok (evs : List Ev) : ∀ s : St, Ok s.nesting s.active s.basepri → Disciplined s evs →
    ∃ s', run s evs = .ok s' ∧ Ok s'.nesting s'.active s'.basepri := by
  induction evs with
  | nil => exact fun s h _ => ⟨s, rfl, h⟩
  | cons e es ih =>
    intro s h hd
    obtain ⟨s1, e1, h1⟩ := step_ok e h hd.1
    obtain ⟨s2, e2, h2⟩ := ih s1 h1 (hd.2 s1 e1)
    exact ⟨s2, by simp only [run, e1, e2], h2⟩

/-! ## C101 -/

/-- **C101.** Whatever interrupts arrive in whatever order, nested as deep as they may be: no
kernel assertion about interrupts fails, at most one context is inside a kernel section, and
while one is, a running handler that is not in the section is one that never calls the
kernel. -/
theorem C101_exclusive (evs : List Ev) (hd : Disciplined start evs) :
    ∃ s, run start evs = .ok s ∧ inside s ≤ 1 ∧
      (inside s = 1 → ∀ a as, s.active = a :: as → a.saved = [] → a.irq.calls = false) := by
  obtain ⟨s, h1, h2⟩ := run_ok evs start (by simp [start, Ok]) hd
  have hc := h2.count
  refine ⟨s, h1, ?_, ?_⟩
  · show inside ⟨s.basepri, s.nesting, s.active⟩ ≤ 1
    rw [hc]
    split_ifs <;> omega
  · intro hi a as ha hs
    have hb : s.basepri ≠ 0 := by
      intro hb
      have : inside s = 0 := by
        show inside ⟨s.basepri, s.nesting, s.active⟩ = 0
        rw [hc, if_pos hb]
      omega
    rw [ha] at h2
    rcases h2.2 with ⟨-, -, h3⟩ | ⟨h3, -⟩
    · have := h3 hb
      cases hcalls : a.irq.calls with
      | false => rfl
      | true => have := calls_prio a.irq h2.1 hcalls; omega
    · exact absurd hs h3

/-- **C101, interrupts are not lost.** The mask is in force exactly while a section is open, and
never keeps out an interrupt more urgent than the kernel's limit: an interrupt that becomes
pending is taken at once if it is more urgent than the running handler and no section is open or
its priority is below 5. -/
theorem C101_responsive (evs : List Ev) (hd : Disciplined start evs) (s : St) (hr : run start evs = .ok s)
    (i : Irq) (hi : ∀ a ∈ s.active.head?, i.prio < a.irq.prio) :
    (takes s i = true ↔ inside s = 0 ∨ i.prio < 5) := by
  obtain ⟨s', h1, h2⟩ := run_ok evs start (by simp [start, Ok]) hd
  rw [hr] at h1
  obtain rfl : s = s' := by injection h1
  have hc : inside s = if s.basepri = 0 then 0 else 1 := h2.count
  have htop : takes s i = (s.basepri == 0 || decide (i.prio < s.basepri)) := by
    unfold takes
    cases ha : s.active with
    | nil => simp
    | cons a as => rw [ha] at hi; simp [hi a (by simp)]
  rw [htop, hc]
  rcases h2.mask with hb | hb
  · simp [hb]
  · simp [hb, maxSyscall]

/-- A task in a critical section; the CAN interrupt waits, the I2C transfer's DMA interrupt
does not; after the section the CAN handler runs, is interrupted inside its own section only
by urgent handlers, and the timer's handler waits. -/
example :
    let can : Irq := ⟨"CAN1_RX0", 6, false, true⟩
    let dma : Irq := ⟨"DMA1_Stream2", 0, false, false⟩
    let tim : Irq := ⟨"TIM2", 5, false, true⟩
    (run start [.enter, .irq can, .irq dma]).toOption.map (fun s => (s.basepri, s.active.map (·.irq.name))) =
        some (5, ["DMA1_Stream2"]) ∧
      (run start [.enter, .irq dma, .ret, .exit, .irq can, .raise, .irq tim, .irq dma]).toOption.map
        (fun s => (s.basepri, s.active.map (·.irq.name))) = some (5, ["DMA1_Stream2", "CAN1_RX0"]) ∧
      (run start [.irq can, .raise, .raise, .restore, .restore, .irq tim]).toOption.map
        (fun s => (s.basepri, s.active.map (·.irq.name))) = some (0, ["TIM2", "CAN1_RX0"]) := by
  decide +kernel

/-- A handler at the I2C interrupts' priority that called the kernel would stop the processor. -/
example : run start [.irq ⟨"DMA1_Stream2", 0, false, true⟩, .raise] = .error .assertFail := by decide +kernel

end Verif.Critical
