import Verif.Proofs.Context

/-!
# C120: a task that loses the processor does not notice

Whatever other tasks do meanwhile, a task continues with every register, floating point registers
included, and the used part of its stack exactly as it left them; and a new task starts at the
beginning of its function, with its parameter, on an empty aligned stack.
-/

set_option autoImplicit false

namespace Verif.Context

/-- A task that loses the processor and gets it back, after any history of other tasks running,
being created and being switched, finds its registers, stack pointer, interrupt mask and the used
part of its stack as they were. -/
theorem C120_resumes (L : Layout) (ha : L.Apart) (t : Nat) (s s₁ s₂ s₃ : St) (hs : Reached L s)
    (ht : s.cur = some t) (h₁ : Step L s s₁) (h₂ : Away L t s₁ s₂) (h₃ : Step L s₂ s₃)
    (ht₃ : s₃.cur = some t) : SameToTask s.cpu s₃.cpu ∧ SameStack L t s.cpu s₃.cpu := by
  have hi := hs.inv ha
  have hs₁ : Reached L s₁ := .step s s₁ hs h₁
  have hi₁ := hs₁.inv ha
  have hn₁ : s₁.cur ≠ some t := by
    clear h₃ ht₃
    induction h₂ with
    | refl h => exact h
    | step _ _ _ _ _ ih => exact ih
  -- the step that takes the processor away is a switch
  have key : t ∈ s₁.live ∧ Parked L s₁.cpu.mem t s.cpu ∧
      (∀ a, s.cpu.psp ≤ a → a < L.hi t → s₁.cpu.mem a = s.cpu.mem a) := by
    cases h₁ with
    | boot c c' live keeps lazy => cases ht
    | create c cur live t' code arg ret new room => exact absurd ht hn₁
    | start c c' live t' mem points loads => cases ht
    | work c c' t' live works => exact absurd ht hn₁
    | switch c c₁ c' t' u live room psr open_ mem chooses loads =>
        cases ht
        obtain ⟨hcm, hc, hm, hm'⟩ := hi.cur t rfl
        obtain ⟨k1, k2, k3⟩ := switch_loads L ha ⟨c, some t, live⟩ hi t u c₁ rfl mem room psr
          open_ chooses
        obtain ⟨c₀, hc₀⟩ := hi.some_ctx (t := t) (u := u) rfl mem
        obtain ⟨c'', e1, -, e3, -, -⟩ := k1 c₀ hc₀
        rw [loads] at e1
        cases e1
        refine ⟨hcm, ?_, ?_⟩
        · change Parked L c'.mem t c
          rw [e3]; exact k2
        · intro a h1 h2
          change c'.mem a = c.mem a
          have hlo : L.lo t ≤ a := by
            have := room.1
            change c.psp ≤ a at h1
            omega
          have ho : Owned L t a := .inl ⟨hlo, h2⟩
          have hmain := ha.main t a ho
          have hown := ha.own t
          have hl' := pendSave_lazy L c hi.lazy
          rw [e3, chooses.owned t a ho hl', pendSave_writes L ha t c room hc a]
          · rintro ⟨-, h⟩
            change c.psp ≤ a at h1
            omega
          · rintro rfl; exact hown ⟨hlo, h2⟩
          · change L.mspLo + 2 ≤ c.msp at hm
            change c.msp ≤ L.mspHi at hm'
            omega
          · change L.mspLo + 2 ≤ c.msp at hm
            change c.msp ≤ L.mspHi at hm'
            omega
  obtain ⟨hl, hp, hst⟩ := key
  obtain ⟨i1, i2, i3⟩ := h₂.keeps ha hs₁ hl
  have hs₂ := h₂.reached hs₁
  have hi₂ := hs₂.inv ha
  have hcur₂ : s₂.cur ≠ none := by
    intro hnone
    have mono : ∀ {a b : St}, Away L t a b → a.cur ≠ none → b.cur ≠ none := by
      intro a b hab hane
      induction hab with
      | refl h => exact hane
      | step s' s'' _ h' _ ih =>
          cases h' with
          | boot => exact absurd rfl ih
          | create => exact ih
          | start => simp
          | work => simp
          | switch => simp
    have h1 : s₁.cur ≠ none := by
      cases h₁ with
      | boot => cases ht
      | create => rw [ht]; simp
      | start => simp
      | work => simp
      | switch => simp
    exact mono h₂ h1 hnone
  refine ⟨gets ha hi₂ h₃ i2 (hp.keep i3) (fun h => absurd h hcur₂) ht₃, ?_⟩
  intro a h1 h2
  have hlo : L.lo t ≤ a := by
    have := hp.room.1
    omega
  have ho : Owned L t a := .inl ⟨hlo, h2⟩
  rw [stays L ha s₂ s₃ hi₂ h₃ t i1 i2 a ho, i3 a ho, hst a h1 h2]

/-- A switch that chooses the task that was running changes nothing for it either. -/
theorem C120_resumes_self (L : Layout) (ha : L.Apart) (t : Nat) (c c₁ c' : Cpu) (live : List Nat)
    (hs : Reached L ⟨c, some t, live⟩) (room : Room L t c) (psr : c.psr / 512 % 2 = 0)
    (hopen : c.basepri = 0) (chooses : Chooses L (pendSave L (entry c)) t c₁)
    (loads : pendLoad c₁ = some c') : SameToTask c c' ∧ SameStack L t c c' := by
  have hi := hs.inv ha
  obtain ⟨hcm, hc, hm, hm'⟩ := hi.cur t rfl
  obtain ⟨k1, k2, k3⟩ := switch_loads L ha ⟨c, some t, live⟩ hi t t c₁ rfl hcm room psr hopen
    chooses
  obtain ⟨c'', e1, e2, e3, -, -⟩ := k1 c (by rw [if_pos rfl])
  rw [loads] at e1
  cases e1
  refine ⟨e2, ?_⟩
  intro a h1 h2
  have hlo : L.lo t ≤ a := by have := room.1; omega
  have ho : Owned L t a := .inl ⟨hlo, h2⟩
  have hmain := ha.main t a ho
  have hown := ha.own t
  have hl' := pendSave_lazy L c hi.lazy
  change L.mspLo + 2 ≤ c.msp at hm
  change c.msp ≤ L.mspHi at hm'
  rw [e3, chooses.owned t a ho hl', pendSave_writes L ha t c room hc a]
  · omega
  · rintro rfl; exact hown ⟨hlo, h2⟩
  · omega
  · omega

/-- A task that has been created starts, whenever it first gets the processor and whoever ran
before, at the beginning of its function, with its parameter, interrupts open, the floating point
registers untouched, and an empty stack aligned to eight bytes that lies in the memory it was
given; returning from the function leads to the handler for that mistake. -/
theorem C120_starts (L : Layout) (ha : L.Apart) (t code arg ret : Nat) (c : Cpu)
    (cur : Option Nat) (live : List Nat) (s₁ s₂ s₃ : St) (hs : Reached L ⟨c, cur, live⟩)
    (new : t ∉ live) (room : L.lo t + 18 < L.hi t)
    (h₁ : s₁ = ⟨{ c with mem := initStack L c.mem t code arg ret }, cur, t :: live⟩)
    (h₂ : Away L t s₁ s₂) (h₃ : Step L s₂ s₃) (ht : s₃.cur = some t) :
    s₃.cpu.pc = code - code % 2 ∧ s₃.cpu.r 0 = arg ∧ s₃.cpu.lr = ret ∧
      s₃.cpu.psr = 0x01000000 ∧ s₃.cpu.basepri = 0 ∧ s₃.cpu.fpca = false ∧
      s₃.cpu.psp % 2 = 0 ∧ L.hi t - 2 ≤ s₃.cpu.psp ∧ s₃.cpu.psp < L.hi t := by
  have hstep : Step L ⟨c, cur, live⟩ s₁ := by
    rw [h₁]; exact .create c cur live t code arg ret new room
  have hs₁ : Reached L s₁ := .step _ _ hs hstep
  have hp : Parked L s₁.cpu.mem t (fresh L c.mem t code arg ret) := by
    rw [h₁]; exact parks_new L ha c.mem t code arg ret room
  have hl : t ∈ s₁.live := by rw [h₁]; exact List.mem_cons_self
  obtain ⟨i1, i2, i3⟩ := h₂.keeps ha hs₁ hl
  have hi₂ := (h₂.reached hs₁).inv ha
  have hg := gets ha hi₂ h₃ i2 (hp.keep i3) (fun _ => rfl) ht
  have hsp : s₃.cpu.psp = stackTop L t := hg.sp
  refine ⟨hg.pc, hg.r 0 (by omega), hg.lr, hg.psr, hg.mask, hg.uses, ?_, ?_, ?_⟩ <;>
    (rw [hsp]; unfold stackTop; omega)

/-- Whenever the handler runs, whatever task it is given, it comes to its end and returns to a
task: the words it takes for the return are always valid. -/
theorem C120_never_stuck (L : Layout) (ha : L.Apart) (t u : Nat) (c c₁ : Cpu) (live : List Nat)
    (hs : Reached L ⟨c, some t, live⟩) (room : Room L t c) (psr : c.psr / 512 % 2 = 0)
    (hopen : c.basepri = 0) (hu : u ∈ live) (chooses : Chooses L (pendSave L (entry c)) u c₁) :
    ∃ c', pendLoad c₁ = some c' ∧ Step L ⟨c, some t, live⟩ ⟨c', some u, live⟩ := by
  have hi := hs.inv ha
  obtain ⟨k1, -, -⟩ := switch_loads L ha ⟨c, some t, live⟩ hi t u c₁ rfl hu room psr hopen
    chooses
  obtain ⟨c₀, hc₀⟩ := hi.some_ctx (t := t) (u := u) rfl hu
  obtain ⟨c', e1, -⟩ := k1 c₀ hc₀
  exact ⟨c', e1, .switch c c₁ c' t u live room psr hopen hu chooses e1⟩

/-- Starting the scheduler always gets to the first task. -/
theorem C120_first_starts (L : Layout) (ha : L.Apart) (t : Nat) (c : Cpu) (live : List Nat)
    (hs : Reached L ⟨c, none, live⟩) (ht : t ∈ live) (points : c.mem L.cur = L.tcb t) :
    ∃ c', Step L ⟨c, none, live⟩ ⟨c', some t, live⟩ := by
  have hi := hs.inv ha
  obtain ⟨c₀, hp, hfp⟩ := hi.parked t ht (by simp)
  have hroom := ha.room
  have hsame : ∀ w b, Owned L w b → (svcEntry L c).mem b = c.mem b := by
    intro w b hb
    have := ha.main w b hb
    simp only [svcEntry, puts]
    rw [if_neg (by omega)]
  have hcur : (svcEntry L c).mem L.cur = L.tcb t := by
    have := ha.curMain
    simp only [svcEntry, puts]
    rw [if_neg (by omega)]
    exact points
  obtain ⟨c', e1, -⟩ := svcLoad_loads L t c₀ (svcEntry L c)
    (hp.keep (hsame t)) hcur hi.lazy (hfp rfl)
  exact ⟨c', .start c c' live t ht points e1⟩

/-- From every state with a task running, room on its stack and interrupts open, a switch to any
task that exists is possible: the histories the theorems speak about can always be continued. -/
theorem C120_can_switch (L : Layout) (ha : L.Apart) (t u : Nat) (c : Cpu) (live : List Nat)
    (hs : Reached L ⟨c, some t, live⟩) (room : Room L t c) (psr : c.psr / 512 % 2 = 0)
    (hopen : c.basepri = 0) (hu : u ∈ live) :
    ∃ c', Step L ⟨c, some t, live⟩ ⟨c', some u, live⟩ := by
  have hi := hs.inv ha
  obtain ⟨-, hc, hm, hm'⟩ := hi.cur t rfl
  change L.mspLo + 2 ≤ c.msp at hm
  change c.msp ≤ L.mspHi at hm'
  have hch : Chooses L (pendSave L (entry c)) u
      { pendSave L (entry c) with mem := put (pendSave L (entry c)).mem L.cur (L.tcb u) } := by
    refine ⟨fun _ _ _ => rfl, fun _ _ _ => rfl, rfl, rfl, fun h => h, ?_, ?_, ?_⟩
    · intro v a ho _
      have : a ≠ L.cur := by rintro rfl; exact ha.cur v ho
      simp only [put]; rw [if_neg this]
    · intro a h1 h2
      have h3 := ha.curMain
      rw [pendSave_msp] at h1
      have : a ≠ L.cur := by rintro rfl; omega
      simp only [put]; rw [if_neg this]
    · simp [put]
  obtain ⟨c', -, h⟩ := C120_never_stuck L ha t u c _ live hs room psr hopen hu hch
  exact ⟨c', h⟩

/-- While a task does not have the processor nothing it owns is written, whatever the others do
and however often the processor changes hands. -/
theorem C120_untouched (L : Layout) (ha : L.Apart) (t : Nat) (s s' : St) (hs : Reached L s)
    (ht : t ∈ s.live) (h : Away L t s s') (a : Nat) (ho : Owned L t a) :
    s'.cpu.mem a = s.cpu.mem a :=
  (h.keeps ha hs ht).2.2 a ho

/-- The room a switch needs is no smaller than required here: with less, the handler writes
below the task's stack. -/
theorem C120_no_room (L : Layout) (t : Nat) (c : Cpu) (h : ¬Room L t c) (hhi : c.psp ≤ L.hi t)
    (hlo : 52 ≤ c.psp)
    (h₁ : top c ≠ puts c.mem (base c) 8 (frame c (c.psp % 2)) L.cur)
    (h₂ : top c ≠ c.msp - 2) (h₃ : top c ≠ c.msp - 1) :
    top c < L.lo t ∧ (pendSave L (entry c)).mem (top c) = c.r 4 := by
  constructor
  · cases hf : c.fpca <;> simp [Room, top, base, frameWords, hf] at h ⊢ <;> omega
  · rw [pendSave_mem]
    dsimp only
    unfold put
    rw [if_neg h₃, if_neg h₂, if_neg h₁]
    unfold puts
    rw [if_pos (by omega)]
    simp

/-! ## A switch worked through -/

/-- Two tasks of 100 words, numbered by their stacks. -/
def L₀ : Layout :=
  { lo := fun t => 1000 + 200 * t, hi := fun t => 1100 + 200 * t, tcb := fun t => 1150 + 200 * t,
    cur := 900, mspLo := 800, mspHi := 900 }

theorem L₀_apart : L₀.Apart := by
  refine ⟨?_, ?_, ?_, ?_, ?_, ?_⟩ <;> simp only [Owned, L₀] <;> intros <;> omega

/-- A task in the middle of a computation, with an odd stack pointer, that uses floating point. -/
def busy : Cpu :=
  { r := fun i => 70 + i, lr := 55, pc := 66, psr := 0x61000000, psp := 1275, msp := 892,
    s := fun i => 300 + i, fpscr := 9, fpca := true, lspact := false, fpcar := 0, basepri := 0,
    mem := fun a => if a = 900 then 1350 else 0 }

/-- `vTaskSwitchContext` choosing `u`, using every register a function may use. -/
def choosing (u : Nat) (c : Cpu) : Cpu :=
  { c with
    r := fun i => if i < 4 ∨ i = 12 then 12345 else c.r i
    s := fun i => if i < 16 then 54321 else c.s i
    lr := 4242
    mem := put c.mem 900 (1150 + 200 * u) }

/-- Task 1 is switched away from while task 2, just created, starts; task 2 leaves other values
everywhere; and task 1 is switched to again. -/
def thereAndBack : Option (Cpu × Cpu) :=
  let c := { busy with mem := initStack L₀ busy.mem 2 7001 8 9999 }
  match pendLoad (choosing 2 (pendSave L₀ (entry c))) with
  | none => none
  | some d =>
      let d' := { d with r := fun _ => 1, lr := 2, s := fun _ => 3, fpscr := 4, fpca := true,
                         psp := d.psp - 11, pc := 5 }
      match pendLoad (choosing 1 (pendSave L₀ (entry d'))) with
      | none => none
      | some e => some (d, e)

example : (thereAndBack.map fun p => (p.1.pc, p.1.r 0, p.1.lr, p.1.psp, p.1.fpca)) =
    some (7000, 8, 9999, 1498, false) := by decide +kernel

example : (thereAndBack.map fun p =>
    ((List.range 13).map p.2.r, p.2.lr, p.2.pc, p.2.psr, p.2.psp)) =
    some ([70, 71, 72, 73, 74, 75, 76, 77, 78, 79, 80, 81, 82], 55, 66, 0x61000000, 1275) := by
  decide +kernel

example : (thereAndBack.map fun p =>
    ((List.range 32).map p.2.s == (List.range 32).map (300 + ·), p.2.fpscr, p.2.fpca)) =
    some (true, 9, true) := by decide +kernel

/-- A state like those the theorems start from is reached: two tasks created, the first of them
running. -/
example : ∃ c, Reached L₀ ⟨c, some 1, [2, 1]⟩ := by
  have h0 : Reached L₀ ⟨busy, none, []⟩ := .init busy rfl
  have h1 := Reached.step _ _ h0
    (.create busy none [] 1 7001 8 9999 (by simp) (by simp [L₀]))
  have h2 := Reached.step _ _ h1
    (.create _ none [1] 2 7101 8 9999 (by simp) (by simp [L₀]))
  obtain ⟨c', h3⟩ := C120_first_starts L₀ L₀_apart 1 _ _ h2 (by simp)
    (by simp [initStack, put, L₀, stackTop, busy])
  exact ⟨c', .step _ _ h2 h3⟩

end Verif.Context
