import Verif.Props.BootLog
import Verif.Props.Uart
import Verif.Props.UartTx
import Mathlib.Tactic.ByContra
import Mathlib.Tactic.SplitIfs

set_option autoImplicit false

/-!
# C166: what a serial port does with a lot of text at once
-/

namespace Verif.Burst

open Uart (Tx Ev Op step run init)

/-- The messages handed to the port in a history; `busy`: a call is under way. -/
def handed : Bool → List Ev → List (List UInt8)
  | _, [] => []
  | false, .begin d :: l => d :: handed true l
  | true, .begin _ :: l => handed true l
  | _, .finish _ :: l => handed false l
  | b, .byte :: l => handed b l
  | b, .cplt _ :: l => handed b l
  | b, .error :: l => handed b l

/-- Nothing waits, nothing is under way. -/
def Idle (s : Tx) : Prop := s.call = none ∧ s.hw = none ∧ s.pending = [] ∧ s.inProgress = false

/-- The history has neither completions nor errors. -/
def NoEnd (evs : List Ev) : Prop := ∀ e ∈ evs, (∀ ok, e ≠ .cplt ok) ∧ e ≠ .error

/-- Bytes of the call under way. -/
def inCall (s : Tx) : Nat := (s.call.map fun c => c.1.length).getD 0

/-- Bytes of the transfer under way. -/
def under (s : Tx) : Nat := (s.hw.map fun h => h.2 - h.1).getD 0

/-- A list that begins a call when none is under way. -/
def opening (s : Tx) : Ev → Nat
  | .begin d => if s.call.isSome then 0 else d.length
  | _ => 0

/-- The message an event hands over. -/
def opened : Bool → Ev → List (List UInt8)
  | false, .begin d => [d]
  | _, _ => []

/-- Whether a call is under way after an event. -/
def after : Bool → Ev → Bool
  | _, .begin _ => true
  | _, .finish _ => false
  | b, _ => b

/-- Nothing is accepted that was not handed over. -/
theorem step_accepted {s s' : Tx} {e : Ev} (h : step s e = .ok s') :
    s'.accepted.length + inCall s' ≤ s.accepted.length + inCall s + opening s e ∧
    s'.wire.length + under s' + s'.pending.length + s.accepted.length ≤
      s.wire.length + under s + s.pending.length + s'.accepted.length ∧
    s'.call.isSome = after s.call.isSome e := by
  cases e with
  | begin d =>
    simp only [step] at h
    cases hc : s.call with
    | none =>
      rw [hc] at h
      injection h with h
      subst h
      simp [inCall, under, opening, hc, after]
    | some c =>
      rw [hc] at h
      injection h with h
      subst h
      simp [inCall, under, opening, hc, after]
  | finish ok =>
    simp only [step] at h
    cases hc : s.call with
    | none =>
      rw [hc] at h
      injection h with h
      subst h
      simp [inCall, under, opening, hc, after]
    | some c =>
      obtain ⟨d, b⟩ := c
      rw [hc] at h
      cases b with
      | true =>
        dsimp only at h
        split_ifs at h
        injection h with h
        subst h
        simp [inCall, under, opening, hc, after]
        omega
      | false =>
        dsimp only at h
        split_ifs at h with h1 h2
        · injection h with h
          subst h
          simp only [Bool.and_eq_true, Option.isNone_iff_eq_none] at h2
          simp [inCall, under, opening, hc, h2.1.1, after]
          omega
        · injection h with h
          subst h
          simp [inCall, under, opening, hc, after]
  | byte =>
    simp only [step] at h
    cases hw : s.hw with
    | none =>
      rw [hw] at h
      injection h with h
      subst h
      simp [inCall, under, opening, hw, after]
    | some p =>
      obtain ⟨pos, len⟩ := p
      rw [hw] at h
      dsimp only at h
      split_ifs at h
      · injection h with h
        subst h
        simp [inCall, under, opening, hw, after]
        omega
      · injection h with h
        subst h
        simp [inCall, under, opening, hw, after]
  | cplt ok =>
    simp only [step] at h
    cases hw : s.hw with
    | none =>
      rw [hw] at h
      injection h with h
      subst h
      simp [inCall, under, opening, hw, after]
    | some p =>
      obtain ⟨pos, len⟩ := p
      rw [hw] at h
      dsimp only at h
      cases ok with
      | false =>
        split_ifs at h with h1 h2
        all_goals
          injection h with h
          subst h
          simp [inCall, under, opening, hw, after] <;> omega
      | true =>
        split_ifs at h with h1 h2
        all_goals
          injection h with h
          subst h
          simp [inCall, under, opening, hw, after] <;> omega
  | error =>
    simp only [step] at h
    injection h with h
    subst h
    simp [inCall, under, opening, after]

theorem handed_cons (b : Bool) (e : Ev) (l : List Ev) :
    handed b (e :: l) = opened b e ++ handed (after b e) l := by
  cases e <;> cases b <;> simp [handed, opened, after]

theorem run_accepted (evs : List Ev) {s s' : Tx} (h : run s evs = .ok s') :
    s'.accepted.length + inCall s' ≤
      s.accepted.length + inCall s + (handed s.call.isSome evs).flatten.length ∧
    s'.wire.length + under s' + s'.pending.length + s.accepted.length ≤
      s.wire.length + under s + s.pending.length + s'.accepted.length := by
  induction evs generalizing s with
  | nil =>
    simp only [run, List.foldlM_nil, pure, Except.pure, Except.ok.injEq] at h
    subst h
    simp [handed]
  | cons e l ih =>
    unfold run at h ih
    rw [List.foldlM_cons] at h
    cases h1 : step s e with
    | error u => rw [h1] at h; simp [bind, Except.bind] at h
    | ok t =>
      rw [h1] at h
      obtain ⟨a1, a2, a4⟩ := step_accepted h1
      obtain ⟨b1, b2⟩ := ih h
      rw [handed_cons, ← a4, List.flatten_append, List.length_append]
      have : (opened s.call.isSome e).flatten.length = opening s e := by
        cases e <;> cases hc : s.call <;> simp [opening, opened, hc]
      rw [this]
      omega

theorem handed_append (a b : List Ev) {s s' : Tx} (h : run s a = .ok s') :
    handed s.call.isSome (a ++ b) = handed s.call.isSome a ++ handed s'.call.isSome b := by
  induction a generalizing s with
  | nil =>
    simp only [run, List.foldlM_nil, pure, Except.pure, Except.ok.injEq] at h
    subst h
    simp [handed]
  | cons e l ih =>
    unfold run at h ih
    rw [List.foldlM_cons] at h
    cases h1 : step s e with
    | error u => rw [h1] at h; simp [bind, Except.bind] at h
    | ok t =>
      rw [h1] at h
      obtain ⟨-, -, a4⟩ := step_accepted h1
      rw [List.cons_append, handed_cons, handed_cons _ e l, ← a4, ih h, List.append_assoc]

/-- While no transfer ends: nothing has been started, or one message is under way and the rest is in the pending
buffer. -/
def Filling (a M : Nat) (s : Tx) : Prop :=
  (s.hw = none ∧ s.pending = [] ∧ s.accepted.length = a ∧ s.inProgress = false ∧ (∀ d, s.call ≠ some (d, true)) ∧
    ∀ d, s.call = some (d, false) → d.length ≤ M) ∨
  (s.hw.isSome = true ∧ s.inProgress = true ∧ (∀ d, s.call ≠ some (d, false)) ∧
    s.accepted.length ≤ a + M + s.pending.length ∧ s.pending.length ≤ 511)

theorem filling_step {a M : Nat} {s s' : Tx} {e : Ev} (hs : Filling a M s) (hn : (∀ ok, e ≠ .cplt ok) ∧ e ≠ .error)
    (hM : ∀ d, e = .begin d → d.length ≤ M) (h : step s e = .ok s') : Filling a M s' := by
  cases e with
  | begin d =>
    simp only [step] at h
    cases hc : s.call with
    | some c =>
      rw [hc] at h
      injection h with h
      subst h
      exact hs
    | none =>
      rw [hc] at h
      injection h with h
      subst h
      rcases hs with ⟨h1, h2, h3, h4, -, -⟩ | ⟨h1, h2, -, h4, h5⟩
      · left
        refine ⟨h1, h2, h3, h4, ?_, ?_⟩
        · intro d' hd
          simp [h4] at hd
        · intro d' hd
          simp only [Option.some.injEq, Prod.mk.injEq] at hd
          rw [← hd.1]
          exact hM d rfl
      · right
        refine ⟨h1, h2, ?_, h4, h5⟩
        intro d' hd
        simp [h2] at hd
  | finish ok =>
    simp only [step] at h
    cases hc : s.call with
    | none =>
      rw [hc] at h
      injection h with h
      subst h
      exact hs
    | some c =>
      obtain ⟨d, b⟩ := c
      rw [hc] at h
      cases b with
      | true =>
        dsimp only at h
        split_ifs at h
        injection h with h
        subst h
        rcases hs with ⟨-, -, -, -, h5, -⟩ | ⟨h1, h2, -, h4, h5⟩
        · exact absurd hc (h5 d)
        · right
          refine ⟨h1, h2, by simp, ?_, ?_⟩
          · simp only [List.length_append]; omega
          · simp only [List.length_append, List.length_take, Uart.pendingCap]; omega
      | false =>
        rcases hs with ⟨h1, h2, h3, h4, -, h6⟩ | ⟨-, -, h3, -, -⟩
        · dsimp only at h
          split_ifs at h with g1 g2
          · injection h with h
            subst h
            right
            refine ⟨rfl, rfl, by simp, ?_, ?_⟩
            · simp only [List.length_append, h2, List.length_nil]
              have := h6 d hc
              omega
            · simp [h2]
          · injection h with h
            subst h
            left
            exact ⟨h1, h2, h3, rfl, by simp, by simp⟩
        · exact absurd hc (h3 d)
  | byte =>
    simp only [step] at h
    cases hw : s.hw with
    | none =>
      rw [hw] at h
      injection h with h
      subst h
      exact hs
    | some p =>
      obtain ⟨pos, len⟩ := p
      rw [hw] at h
      dsimp only at h
      split_ifs at h
      · injection h with h
        subst h
        rcases hs with ⟨h1, -⟩ | ⟨-, h2⟩
        · rw [hw] at h1; cases h1
        · right
          exact ⟨rfl, h2⟩
      · injection h with h
        subst h
        exact hs
  | cplt ok => exact absurd rfl (hn.1 ok)
  | error => exact absurd rfl hn.2

theorem filling_run {a M : Nat} (evs : List Ev) {s s' : Tx} (hs : Filling a M s) (hn : NoEnd evs)
    (hM : ∀ d, Ev.begin d ∈ evs → d.length ≤ M) (h : run s evs = .ok s') : Filling a M s' := by
  induction evs generalizing s with
  | nil =>
    simp only [run, List.foldlM_nil, pure, Except.pure, Except.ok.injEq] at h
    subst h
    exact hs
  | cons e l ih =>
    unfold run at h ih
    rw [List.foldlM_cons] at h
    cases h1 : step s e with
    | error u => rw [h1] at h; simp [bind, Except.bind] at h
    | ok t =>
      rw [h1] at h
      exact ih (filling_step hs (hn e List.mem_cons_self) (fun d hd => hM d (hd ▸ List.mem_cons_self)) h1)
        (fun x hx => hn x (List.mem_cons_of_mem _ hx)) (fun d hd => hM d (List.mem_cons_of_mem _ hd)) h

/-- **Too much at once is lost for ever.** An idle port is handed messages of at most `M` bytes and no transfer is
completed until the last of these calls has returned. If they are more than `M + 511` bytes, then whatever happens
afterwards, fewer bytes get onto the line than were handed over. -/
theorem C166_lost (M : Nat) (s0 s1 s2 : Tx) (h0 : Idle s0) (evs evs' : List Ev) (hn : NoEnd evs)
    (hM : ∀ d, Ev.begin d ∈ evs → d.length ≤ M) (h1 : run s0 evs = .ok s1) (hc : s1.call = none)
    (hmany : M + 511 < (handed false evs).flatten.length) (h2 : run s1 evs' = .ok s2) :
    s2.wire.length < s0.wire.length + (handed false (evs ++ evs')).flatten.length := by
  obtain ⟨i1, i2, i3, i4⟩ := h0
  have hf : Filling s0.accepted.length M s0 := Or.inl ⟨i2, i3, rfl, i4, by simp [i1], by simp [i1]⟩
  have f1 := filling_run evs hf hn hM h1
  have a1 : s1.accepted.length ≤ s0.accepted.length + M + 511 := by
    rcases f1 with ⟨-, -, h, -⟩ | ⟨-, -, -, h, h'⟩ <;> omega
  have happ := handed_append evs evs' h1
  rw [i1, hc] at happ
  have e1 : handed false (evs ++ evs') = handed false evs ++ handed false evs' := happ
  obtain ⟨-, b2⟩ := run_accepted evs h1
  obtain ⟨c1, c2⟩ := run_accepted evs' h2
  rw [hc] at c1
  have c1' : s2.accepted.length + inCall s2 ≤ s1.accepted.length + inCall s1 + (handed false evs').flatten.length := c1
  have z1 : inCall s1 = 0 := by simp [inCall, hc]
  have z0 : under s0 = 0 := by simp [under, i2]
  have zp : s0.pending.length = 0 := by simp [i3]
  rw [e1, List.flatten_append, List.length_append]
  omega

/-! ## Why no transfer ends while the call waits -/

/-- The port's handler is not at the end of a transfer and will not be. -/
def Shut (s : UartTx.St) : Prop :=
  s.task = .queue ∧ s.r.masked = true ∧ s.r.tcie = false ∧
  match s.isr with
  | .out => True
  | .readIsr => True
  | .readCr1 _ => True
  | .branch _ b => b = false
  | .tx n p => 0 < n ∧ UartTx.Inside n s.r p
  | _ => False

theorem masked_run (es : List UartTx.Ev) :
    (UartTx.run UartTx.boot es).task = .queue → (UartTx.run UartTx.boot es).r.masked = true := by
  suffices H : (UartTx.run UartTx.boot es).task ≠ .out → (UartTx.run UartTx.boot es).r.masked = true from
    fun h => H (by rw [h]; simp)
  have tx : ∀ n r p, (UartTx.txStep n r p).1.masked = r.masked := by
    intro n r p
    cases p <;> rfl
  induction es using List.reverseRecOn with
  | nil => intro h; exact absurd rfl h
  | append_singleton es e ih =>
    have e0 : UartTx.run UartTx.boot (es ++ [e]) = UartTx.step (UartTx.run UartTx.boot es) e := by
      simp [UartTx.run, List.foldl_append]
    rw [e0]
    generalize UartTx.run UartTx.boot es = s at ih
    cases e with
    | task n =>
      simp only [UartTx.step]
      split_ifs
      · unfold UartTx.taskStep
        cases ht : s.task with
        | out => intro _; rfl
        | tx m p =>
          dsimp only
          have := tx m s.r p
          rcases hx : UartTx.txStep m s.r p with ⟨r, q⟩
          rw [hx] at this
          cases q <;> (intro _; dsimp only; exact this.trans (ih (by rw [ht]; simp)))
        | unmask => intro h; exact absurd rfl h
        | _ => intro _; exact ih (by rw [ht]; simp)
      · exact ih
    | port rx n =>
      simp only [UartTx.step, UartTx.portStep]
      cases hi : s.isr with
      | tx m p =>
        dsimp only
        have := tx m s.r p
        rcases hx : UartTx.txStep m s.r p with ⟨r, q⟩
        rw [hx] at this
        cases q <;> (intro h; dsimp only at h ⊢; exact this.trans (ih h))
      | _ => exact ih
    | dma =>
      simp only [UartTx.step]
      split_ifs
      · exact ih
      · exact ih
    | byte =>
      have : (UartTx.moveByte s.r).masked = s.r.masked := by
        unfold UartTx.moveByte
        split_ifs
        · cases s.r.left <;> rfl
        · rfl
      intro h
      exact this.trans (ih h)
    | line => exact ih
    | noise => exact ih

theorem inside_still {n : Nat} {r : UartTx.Regs} {p : UartTx.Tx} (h : UartTx.Inside n r p) :
    (r.en && r.dmat) = false := by
  cases p <;> simp only [UartTx.Inside, UartTx.Quiet, UartTx.Is] at h <;> first | exact h.elim | simp [h]

theorem shut_step {s : UartTx.St} (h : Shut s) {e : UartTx.Ev} (he : ∀ n, e ≠ .task n) :
    Shut (UartTx.step s e) ∧ (UartTx.step s e).completed = s.completed := by
  obtain ⟨h1, h2, h3, h4⟩ := h
  have keep : ∀ r' : UartTx.Regs, r'.masked = true → r'.tcie = false →
      (∀ n p, UartTx.Inside n s.r p → UartTx.Inside n r' p) →
      Shut { s with r := r' } ∧ ({ s with r := r' } : UartTx.St).completed = s.completed := by
    intro r' k1 k2 k3
    refine ⟨⟨h1, k1, k2, ?_⟩, rfl⟩
    cases hi : s.isr with
    | tx n p => rw [hi] at h4; exact ⟨h4.1, k3 n p h4.2⟩
    | out => trivial
    | readIsr => trivial
    | readCr1 a => trivial
    | branch a b => rw [hi] at h4; exact h4
    | clearTcie => rw [hi] at h4; exact h4
    | ready => rw [hi] at h4; exact h4
    | callback => rw [hi] at h4; exact h4
    | clear => rw [hi] at h4; exact h4
  cases e with
  | task n => exact absurd rfl (he n)
  | port rx n =>
    simp only [UartTx.step, UartTx.portStep]
    cases hi : s.isr with
    | out => exact ⟨⟨h1, h2, h3, trivial⟩, rfl⟩
    | readIsr => exact ⟨⟨h1, h2, h3, trivial⟩, rfl⟩
    | readCr1 a => exact ⟨⟨h1, h2, h3, h3⟩, rfl⟩
    | branch a b =>
      rw [hi] at h4
      have hb : b = false := h4
      subst hb
      refine ⟨⟨h1, h2, h3, ?_⟩, rfl⟩
      cases rx <;> simp
    | tx m p =>
      rw [hi] at h4
      have hm : (UartTx.txStep m s.r p).1.masked = s.r.masked ∧ (UartTx.txStep m s.r p).1.tcie = s.r.tcie := by
        cases p <;> exact ⟨rfl, rfl⟩
      rcases UartTx.txStep_inside h4.1 h4.2 with ⟨q, q1, q2⟩ | ⟨q1, -⟩
      · rcases hx : UartTx.txStep m s.r p with ⟨r, x⟩
        rw [hx] at q1 q2 hm
        dsimp only at q1 q2 hm
        subst q1
        dsimp only
        rw [hx]
        exact ⟨⟨h1, hm.1.trans h2, hm.2.trans h3, h4.1, q2⟩, rfl⟩
      · rcases hx : UartTx.txStep m s.r p with ⟨r, x⟩
        rw [hx] at q1 hm
        dsimp only at q1 hm
        subst q1
        dsimp only
        rw [hx]
        exact ⟨⟨h1, hm.1.trans h2, hm.2.trans h3, trivial⟩, rfl⟩
    | clearTcie => rw [hi] at h4; exact h4.elim
    | ready => rw [hi] at h4; exact h4.elim
    | callback => rw [hi] at h4; exact h4.elim
    | clear => rw [hi] at h4; exact h4.elim
  | dma =>
    have : UartTx.dmaPending s.r = false := by simp [UartTx.dmaPending, h2]
    simp only [UartTx.step, this, Bool.false_eq_true, if_false]
    exact ⟨⟨h1, h2, h3, h4⟩, trivial⟩
  | byte =>
    refine keep (UartTx.moveByte s.r) ?_ ?_ ?_
    · unfold UartTx.moveByte
      split_ifs
      · cases s.r.left <;> exact h2
      · exact h2
    · unfold UartTx.moveByte
      split_ifs
      · cases s.r.left <;> exact h3
      · exact h3
    · intro n p hp
      rw [UartTx.moveByte, if_neg (by rw [inside_still hp]; simp)]
      exact hp
  | line =>
    exact keep _ h2 h3 fun n p hp => by cases p <;> exact hp
  | noise =>
    exact keep _ h2 h3 fun n p hp => by cases p <;> exact hp

/-- **While a call waits for room, the transfer under way does not end.** In every history of the registers: if a
call is waiting in `xStreamBufferSend` and the stream still has bytes to move, no completion comes until the call goes
on, however long it waits: the call itself has disabled the interrupt that would lead to it. -/
theorem C166_held_off (es es' : List UartTx.Ev) (hq : (UartTx.run UartTx.boot es).task = .queue)
    (hl : 0 < (UartTx.run UartTx.boot es).r.left) (he : ∀ n, UartTx.Ev.task n ∉ es') :
    (UartTx.run UartTx.boot (es ++ es')).completed = (UartTx.run UartTx.boot es).completed := by
  have hm := masked_run es hq
  have hi : UartTx.Inv (UartTx.run UartTx.boot es) := by
    clear hq hl he hm
    induction es using List.reverseRecOn with
    | nil => exact UartTx.inv_boot
    | append_singleton es e ih =>
      have e0 : UartTx.run UartTx.boot (es ++ [e]) = UartTx.step (UartTx.run UartTx.boot es) e := by
        simp [UartTx.run, List.foldl_append]
      rw [e0]
      exact UartTx.inv_step ih e
  have e0 : UartTx.run UartTx.boot (es ++ es') = UartTx.run (UartTx.run UartTx.boot es) es' := by
    simp [UartTx.run, List.foldl_append]
  rw [e0]
  generalize UartTx.run UartTx.boot es = s at *
  have hs : Shut s := by
    have low : UartTx.Low s → s.r.tcie = false := by
      rintro (⟨-, h⟩ | ⟨n, p, h, -⟩)
      · rcases h with ⟨h, -⟩ | ⟨h | h | h, -⟩
        · exact absurd h.2 (by omega)
        · exact h.1.2.2.2.2.2.2.2
        · exact absurd h.2 (by omega)
        · exact absurd h.2 (by omega)
      · rw [hq] at h; cases h
    unfold UartTx.Inv at hi
    unfold Shut
    cases hx : s.isr with
    | out => rw [hx] at hi; exact ⟨hq, hm, low hi, trivial⟩
    | readIsr => rw [hx] at hi; exact ⟨hq, hm, low hi, trivial⟩
    | readCr1 a => rw [hx] at hi; exact ⟨hq, hm, low hi, trivial⟩
    | branch a b =>
      rw [hx] at hi
      refine ⟨hq, hm, low hi.1, ?_⟩
      cases b with
      | false => rfl
      | true => exact absurd (hi.2 rfl) (by rw [low hi.1]; simp)
    | clearTcie => rw [hx] at hi; exact absurd hi.2.1.2 (by omega)
    | ready => rw [hx] at hi; exact absurd hi.2.1.2 (by omega)
    | callback => rw [hx] at hi; exact absurd hi.2.1.2 (by omega)
    | clear => rw [hx] at hi; exact absurd hi.2.1.2 (by omega)
    | tx n p =>
      rw [hx] at hi
      obtain ⟨-, h2, h3 | ⟨-, h3⟩, -⟩ := hi
      · refine ⟨hq, hm, ?_, h2, h3⟩
        cases p <;> simp_all [UartTx.Inside, UartTx.Is, UartTx.Quiet]
      · exact absurd h3.2 (by omega)
  clear hq hl hm hi e0
  induction es' generalizing s with
  | nil => rfl
  | cons e l ih =>
    have h1 := shut_step hs (e := e) (fun n hn => he n (hn ▸ List.mem_cons_self))
    have := ih (fun n hn => he n (List.mem_cons_of_mem _ hn)) (UartTx.step s e) h1.1
    exact this.trans h1.2

/-- A second call waits while the first message is on its way; the line goes idle, the call still waits. -/
example : (UartTx.run UartTx.boot (List.replicate 18 (.task 2))).task = .queue ∧
    (UartTx.run UartTx.boot (List.replicate 18 (.task 2))).r.left = 2 ∧
    (UartTx.run UartTx.boot (List.replicate 18 (.task 2) ++ [.byte, .byte, .line, .dma, .port false 0, .port false 0])).completed = 0 ∧
    (UartTx.run UartTx.boot (List.replicate 18 (.task 2) ++ [.byte, .byte, .line, .task 0, .task 0, .dma] ++
      List.replicate 7 (.port false 0))).completed = 1 := by
  decide +kernel

/-! ## What goes out in full -/

/-- The messages of a list of operations. -/
def sends (ops : List Op) : List (List UInt8) :=
  ops.flatMap fun
    | .send d => [d]
    | _ => []

/-- Between operations. -/
def Between (s : Tx) : Prop := s.call = none ∧ (s.inProgress = true ↔ s.hw.isSome = true)

theorem op_step {s : Tx} (h : Between s) (op : Op) (hd : ∀ d, op = .send d → d ≠ [] ∧ d.length ≤ Uart.maxDma) :
    ∃ s', run s op.evs = .ok s' ∧ Between s' ∧
      s'.pending.length ≤ s.pending.length + (sends [op]).flatten.length ∧
      (s.pending.length + (sends [op]).flatten.length ≤ 511 → s'.accepted = s.accepted ++ (sends [op]).flatten) := by
  obtain ⟨h1, h2⟩ := h
  cases op with
  | send d =>
    obtain ⟨d1, d2⟩ := hd d rfl
    have e0 : step s (.begin d) = .ok { s with call := some (d, s.inProgress) } := by simp [step, h1]
    have e1 : run s (Op.send d).evs = step { s with call := some (d, s.inProgress) } (.finish true) := by
      show (step s (.begin d) >>= fun t => step t (.finish true) >>= fun u => pure u) = _
      rw [e0]
      show (step { s with call := some (d, s.inProgress) } (.finish true) >>= fun u => pure u) = _
      cases step { s with call := some (d, s.inProgress) } (.finish true) <;> rfl
    rw [e1]
    cases hp : s.inProgress with
    | true =>
      rw [hp] at h2
      refine ⟨{ s with
        pending := s.pending ++ d.take (Uart.pendingCap - s.pending.length)
        accepted := s.accepted ++ d.take (Uart.pendingCap - s.pending.length)
        call := none }, ?_, ⟨rfl, by rw [hp]; exact h2⟩, ?_, ?_⟩
      · simp [step, d1, hp]
      · simp [sends]
      · intro hr
        simp only [sends, List.flatMap_cons, List.flatMap_nil, List.append_nil, List.flatten_cons,
          List.flatten_nil] at hr ⊢
        rw [List.take_of_length_le (by unfold Uart.pendingCap; omega)]
    | false =>
      have hw : s.hw = none := by
        cases hh : s.hw with
        | none => rfl
        | some x => rw [hh, hp] at h2; simp at h2
      refine ⟨{ s with
        inProgress := true, dma := Uart.copyTo s.dma d, hw := some (0, d.length)
        accepted := s.accepted ++ d, call := none }, ?_, ⟨rfl, by simp⟩, by simp, ?_⟩
      · simp [step, hw, d1, Nat.not_lt.2 d2]
      · intro _
        simp [sends]
  | byte =>
    have e1 : run s Op.byte.evs = step s .byte := by
      show (step s .byte >>= fun u => pure u) = _
      cases step s .byte <;> rfl
    rw [e1]
    cases hw : s.hw with
    | none => exact ⟨s, by simp [step, hw], ⟨h1, h2⟩, by simp, by simp [sends]⟩
    | some x =>
      obtain ⟨pos, len⟩ := x
      by_cases hlt : pos < len
      · exact ⟨{ s with wire := s.wire ++ [s.dma pos], hw := some (pos + 1, len) }, by simp only [step, hw, if_pos hlt],
          ⟨h1, by rw [hw] at h2; simpa using h2⟩, by simp, by simp [sends]⟩
      · exact ⟨s, by simp only [step, hw, if_neg hlt], ⟨h1, h2⟩, by simp, by simp [sends]⟩
  | cplt =>
    have e1 : run s Op.cplt.evs = step s (.cplt true) := by
      show (step s (.cplt true) >>= fun u => pure u) = _
      cases step s (.cplt true) <;> rfl
    rw [e1]
    cases hw : s.hw with
    | none => exact ⟨s, by simp [step, hw], ⟨h1, h2⟩, by simp, by simp [sends]⟩
    | some x =>
      obtain ⟨pos, len⟩ := x
      by_cases hlt : pos = len
      · by_cases hp : s.pending = []
        · exact ⟨{ s with hw := none, inProgress := false }, by simp only [step, hw, if_pos hlt, if_pos hp],
            ⟨h1, by simp⟩, by simp, by simp [sends]⟩
        · exact ⟨{ s with
              pending := s.pending.drop Uart.maxDma, dma := Uart.copyTo s.dma (s.pending.take Uart.maxDma)
              hw := some (0, (s.pending.take Uart.maxDma).length) },
            by simp only [step, hw, if_pos hlt, if_neg hp, Bool.and_true, if_true],
            ⟨h1, by rw [hw] at h2; simpa using h2⟩, by simp only [List.length_drop]; omega, by simp [sends]⟩
      · exact ⟨s, by simp only [step, hw, if_neg hlt], ⟨h1, h2⟩, by simp, by simp [sends]⟩

theorem sends_append (a b : List Op) : sends (a ++ b) = sends a ++ sends b := by simp [sends]

theorem ops_run (ops : List Op) (hd : ∀ d, Op.send d ∈ ops → d ≠ [] ∧ d.length ≤ Uart.maxDma) {s : Tx} (h : Between s) :
    ∃ s', run s (ops.flatMap Op.evs) = .ok s' ∧ Between s' ∧
      s'.pending.length ≤ s.pending.length + (sends ops).flatten.length ∧
      (s.pending.length + (sends ops).flatten.length ≤ 511 → s'.accepted = s.accepted ++ (sends ops).flatten) := by
  induction ops generalizing s with
  | nil => exact ⟨s, rfl, h, by simp, by simp [sends]⟩
  | cons op l ih =>
    obtain ⟨t, a1, a2, a3, a4⟩ := op_step h op (fun d e => hd d (e ▸ List.mem_cons_self))
    obtain ⟨s', b1, b2, b3, b4⟩ := ih (fun d hx => hd d (List.mem_cons_of_mem _ hx)) a2
    have e : sends (op :: l) = sends [op] ++ sends l := sends_append [op] l
    rw [e, List.flatten_append, List.length_append]
    refine ⟨s', ?_, b2, by omega, fun hr => ?_⟩
    · rw [List.flatMap_cons, Uart.run_append, a1]
      exact b1
    · rw [b4 (by omega), a4 (by omega), List.append_assoc]

/-- **What holds: up to 511 bytes at once go out in full** (eleven log frames, 352 characters). Calls and interrupts
in any order, no interrupt inside a call and no error: from a moment with an empty pending buffer on, messages of
511 bytes together are all accepted, and what is on the line, in the running transfer and pending is all that was
ever accepted, in order. -/
theorem C166_fits_partial (ops ops' : List Op) (hd : ∀ d, Op.send d ∈ ops ++ ops' → d ≠ [] ∧ d.length ≤ Uart.maxDma)
    (s : Tx) (h : run init (ops.flatMap Op.evs) = .ok s) (hp : s.pending = [])
    (hfew : (sends ops').flatten.length ≤ 511) :
    ∃ s', run s (ops'.flatMap Op.evs) = .ok s' ∧
      s'.wire ++ (Uart.remaining s' ++ s'.pending) = s.accepted ++ (sends ops').flatten ∧
      (s'.pending ≠ [] → s'.hw.isSome) := by
  obtain ⟨t, a1, a2, -, -⟩ := ops_run ops (fun d hx => hd d (List.mem_append_left _ hx)) (s := init) ⟨rfl, by simp [init]⟩
  rw [h] at a1
  injection a1 with a1
  subst a1
  obtain ⟨s', b1, -, -, b4⟩ := ops_run ops' (fun d hx => hd d (List.mem_append_right _ hx)) a2
  obtain ⟨s'', c1, c2, c3, -⟩ := Uart.C28_exact_stream_partial (ops ++ ops') hd
  rw [List.flatMap_append, Uart.run_append, h] at c1
  have c1' : run s (ops'.flatMap Op.evs) = .ok s'' := c1
  rw [b1] at c1'
  injection c1' with c1'
  subst c1'
  exact ⟨s', b1, by rw [c2, b4 (by rw [hp]; simpa using hfew)], c3⟩

/-- Two messages at once; the second waits in the pending buffer and goes out after the first. -/
example : ∃ s, run init ([Op.send [1, 2], .send [3], .byte, .byte, .cplt, .byte].flatMap Op.evs) = .ok s ∧
    s.wire = [1, 2, 3] := ⟨_, rfl, rfl⟩

/-! ## The report of a start-up -/

theorem report_length : BootLogSpec.report.length = 1682 := by decide +kernel

theorem text_le (m : List UInt8) : (LogStream.text m).length ≤ 32 := by
  unfold LogStream.text
  exact (List.takeWhile_sublist _).length_le.trans ((List.length_take_le _ _))

/-- The report is more than fifty frames. -/
theorem report_frames {f : List UInt8 → UInt32} {evs : List BootLog.Ev} (he : ∀ e ∈ evs, BootLog.Proper e) {s : BootLog.St}
    (hr : BootLog.run (fun m => some (f m)) BootLog.start evs = .ok s) (hd : s.race.init = .done)
    (hempty : s.sys.log.stream = []) :
    52 < (s.sys.frames.filterMap id).length ∧ ∀ m ∈ s.sys.frames.filterMap id, m.length = 43 := by
  obtain ⟨⟨more, h1⟩, h2⟩ := BootLog.C164_report f evs he s hr hd
  have hall : ∀ m ∈ s.sys.frames.filterMap id, m.length = 43 := by
    intro m hm
    simp only [List.mem_filterMap, id_eq, exists_eq_right] at hm
    obtain ⟨fr, e, hv, -⟩ := h2 _ hm
    injection e with e
    rw [e]
    exact hv.len
  refine ⟨?_, hall⟩
  have hlen := congrArg List.length h1
  rw [BootLog.forPc, hempty, List.append_nil, List.length_append, report_length] at hlen
  have hcount : ∀ l : List (Option (List UInt8)),
      (l.flatMap fun m => (m.map LogStream.text).getD []).length ≤ 32 * (l.filterMap id).length := by
    intro l
    induction l with
    | nil => simp
    | cons m l ih =>
      cases m with
      | none => simpa using ih
      | some m =>
        have := text_le m
        rw [show (some m :: l).filterMap id = m :: l.filterMap id from rfl]
        simp only [List.flatMap_cons, Option.map_some, Option.getD_some, List.length_append, List.length_cons]
        omega
  have := hcount s.sys.frames
  omega

theorem flatten_length {ms : List (List UInt8)} (h : ∀ m ∈ ms, m.length = 43) : ms.flatten.length = 43 * ms.length := by
  induction ms with
  | nil => rfl
  | cons m l ih =>
    rw [List.flatten_cons, List.length_append, List.length_cons, ih (fun x hx => h x (List.mem_cons_of_mem _ hx)),
      h m List.mem_cons_self]
    omega

/-- **The report of a start-up is cut** in every execution in which its first thirteen frames are handed to an idle
port before the first of them has left: the line never carries all bytes. (The calls take microseconds, a frame on the
line milliseconds, and the thirteenth call holds off the completion by `C166_held_off`.) -/
theorem C166_report_cut (f : List UInt8 → UInt32) (bevs : List BootLog.Ev) (he : ∀ e ∈ bevs, BootLog.Proper e)
    (b : BootLog.St) (hb : BootLog.run (fun m => some (f m)) BootLog.start bevs = .ok b) (hdone : b.race.init = .done)
    (hempty : b.sys.log.stream = []) (s0 s1 s2 : Tx) (h0 : Idle s0) (evs evs' : List Ev) (hn : NoEnd evs)
    (hh : handed false evs = (b.sys.frames.filterMap id).take 13) (hall : ∀ d, Ev.begin d ∈ evs → d.length = 43)
    (h1 : run s0 evs = .ok s1) (hc : s1.call = none) (h2 : run s1 evs' = .ok s2) :
    s2.wire.length < s0.wire.length + (handed false (evs ++ evs')).flatten.length := by
  obtain ⟨r1, r2⟩ := report_frames he hb hdone hempty
  refine C166_lost 43 s0 s1 s2 h0 evs evs' hn (fun d hd => (hall d hd).le) h1 hc ?_ h2
  rw [hh, flatten_length (fun m hm => r2 m (List.mem_of_mem_take hm)), List.length_take]
  omega

/-- C166 in full: handed to the port frame by frame after start-up, the report gets onto the line. -/
def C166_claim (f : List UInt8 → UInt32) : Prop :=
  ∀ (bevs : List BootLog.Ev), (∀ e ∈ bevs, BootLog.Proper e) → ∀ b,
    BootLog.run (fun m => some (f m)) BootLog.start bevs = .ok b → b.race.init = .done → b.sys.log.stream = [] →
    ∀ evs s, run init evs = .ok s → s.call = none → Uart.Quiet evs → handed false evs = b.sys.frames.filterMap id →
      ∃ evs' s', (∀ d, Ev.begin d ∉ evs') ∧ run s evs' = .ok s' ∧ (b.sys.frames.filterMap id).flatten <+: s'.wire

/-- Handing over frame after frame. -/
def calls (ms : List (List UInt8)) : List Ev := ms.flatMap fun m => [.begin m, .finish true]

theorem handed_calls (ms : List (List UInt8)) : handed false (calls ms) = ms := by
  induction ms with
  | nil => rfl
  | cons m l ih =>
    show handed false (.begin m :: .finish true :: calls l) = _
    simp only [handed, ih]

theorem handed_none {evs : List Ev} (b : Bool) (h : ∀ d, Ev.begin d ∉ evs) : handed b evs = [] := by
  induction evs generalizing b with
  | nil => cases b <;> rfl
  | cons e l ih =>
    rw [handed_cons, ih _ (fun d hd => h d (List.mem_cons_of_mem _ hd)), List.append_nil]
    cases e with
    | begin d => exact absurd List.mem_cons_self (h d)
    | _ => cases b <;> rfl

theorem calls_run (ms : List (List UInt8)) (hm : ∀ m ∈ ms, m ≠ [] ∧ m.length ≤ Uart.maxDma) :
    ∃ s, run init (calls ms) = .ok s ∧ s.call = none := by
  have e : calls ms = (ms.map Op.send).flatMap Op.evs := by
    unfold calls
    rw [List.flatMap_map]
    rfl
  obtain ⟨s, h1, h2, -⟩ := ops_run (ms.map Op.send) (by
    intro d hd
    simp only [List.mem_map, Op.send.injEq, exists_eq_right] at hd
    exact hm d hd) (s := init) ⟨rfl, by simp [init]⟩
  exact ⟨s, by rw [e, h1], h2.1⟩

/-- C166 in full is false. -/
theorem C166_false (f : List UInt8 → UInt32) : ¬ C166_claim f := by
  intro h
  obtain ⟨b0, g1, g2, g3, g4⟩ := BootLog.C164_happens f
  have hp : ∀ e ∈ List.replicate (StartRace.boot.length + 1) (BootLog.Ev.race (.init true)), BootLog.Proper e := by
    intro e he
    rw [List.eq_of_mem_replicate he]
    trivial
  obtain ⟨n, b, k1, k2, -, k3⟩ := BootLog.C164_sent f _ hp b0 g1 g2 g4
  have hb := (BootLog.run_append _ _ _ _ (List.replicate n .round) g1).trans k1
  have hp' : ∀ e ∈ List.replicate (StartRace.boot.length + 1) (BootLog.Ev.race (.init true)) ++
      List.replicate n .round, BootLog.Proper e := by
    intro e he
    rcases List.mem_append.1 he with he | he
    · exact hp e he
    · rw [List.eq_of_mem_replicate he]; trivial
  have hdone : b.race.init = .done := by rw [k3]; exact g2
  obtain ⟨r1, r2⟩ := report_frames hp' hb hdone k2
  have hne : ∀ m ∈ b.sys.frames.filterMap id, m ≠ [] ∧ m.length ≤ Uart.maxDma := by
    intro m hm
    have := r2 m hm
    exact ⟨fun e => by rw [e] at this; simp at this, by rw [this]; decide⟩
  obtain ⟨s, c1, c2⟩ := calls_run _ hne
  obtain ⟨evs', s', q1, q2, q3⟩ := h _ hp' b hb hdone k2 (calls (b.sys.frames.filterMap id)) s c1 c2 (by
    refine ⟨?_, ?_, ?_, ?_⟩ <;> simp only [calls, List.mem_flatMap, List.mem_cons, List.not_mem_nil, or_false]
    · rintro ⟨m, -, h | h⟩ <;> cases h
    · rintro ok ⟨m, -, h | h⟩ <;> cases h
    · rintro ok ⟨m, -, h | h⟩
      · cases h
      · injection h
    · rintro d ⟨m, hm, h | h⟩
      · injection h with h
        rw [h]
        exact (hne m hm).1
      · cases h) (handed_calls _)
  have hall : ∀ d, Ev.begin d ∈ calls (b.sys.frames.filterMap id) → d.length = 43 := by
    intro d hd
    simp only [calls, List.mem_flatMap, List.mem_cons, List.not_mem_nil, or_false] at hd
    obtain ⟨m, hm, hx | hx⟩ := hd
    · rw [Ev.begin.inj hx]
      exact r2 m hm
    · exact Ev.noConfusion hx
  have hlost := C166_lost 43 init s s' ⟨rfl, rfl, rfl, rfl⟩ (calls (b.sys.frames.filterMap id)) evs' (by
    intro e he
    simp only [calls, List.mem_flatMap, List.mem_cons, List.not_mem_nil, or_false] at he
    obtain ⟨m, -, rfl | rfl⟩ := he
    · exact ⟨fun _ h => (by cases h), fun h => (by cases h)⟩
    · exact ⟨fun _ h => (by cases h), fun h => (by cases h)⟩) (fun d hd => (hall d hd).le) c1 c2 (by
    rw [handed_calls, flatten_length r2]
    omega) q2
  have happ := handed_append (calls (b.sys.frames.filterMap id)) evs' c1
  rw [c2] at happ
  have happ' : handed false (calls (b.sys.frames.filterMap id) ++ evs') =
      handed false (calls (b.sys.frames.filterMap id)) ++ handed false evs' := happ
  rw [happ', handed_none false q1, List.append_nil, handed_calls] at hlost
  have := q3.length_le
  have hz : init.wire.length = 0 := rfl
  omega

end Verif.Burst
