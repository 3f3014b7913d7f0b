import Verif.Props.Ready
import Verif.Spec.Deadline

set_option autoImplicit false

/-!
# C154: a task is done within the time that its level needs
-/

namespace Verif.Ready

theorem exec_append : ∀ (as bs : List Act) (s s' : St), exec s as = .ok s' → exec s (as ++ bs) = exec s' bs
  | [], bs, s, s', h => by cases h; rfl
  | a :: as, bs, s, s', h => by
    simp only [exec, List.cons_append] at h ⊢
    split at h
    · cases h
    · exact exec_append as bs _ s' h

theorem Orderly.act {s s' : St} {a : Act} (h : Orderly s) (hg : ∀ e, a = .kernel e → ¬ StaleGive s e)
    (hs : Ready.act s a = .ok s') : Orderly s' := by
  cases a with
  | kernel e => exact h.step (hg e rfl) hs
  | work => cases hs; exact h
  | irq => cases hs; exact h

theorem sum_single (us : List Nat) (u : Nat) (h : u ∈ us) (f : Nat → Nat) (hf : 1 ≤ f u) : 1 ≤ (us.map f).sum := by
  induction us with
  | nil => cases h
  | cons a as ih =>
    simp only [List.map_cons, List.sum_cons]
    rcases List.mem_cons.mp h with rfl | h
    · omega
    · have := ih h; omega

theorem sum_add (us : List Nat) (f g : Nat → Nat) : (us.map fun u => f u + g u).sum = (us.map f).sum + (us.map g).sum := by
  induction us with
  | nil => rfl
  | cons a as ih => simp only [List.map_cons, List.sum_cons, ih]; omega

/-- As long as a task can run, all processor time goes to interrupt routines, to spells in which a switch is owed, and to
tasks at or above its priority. -/
theorem C154_time_goes_up (t p : Nat) (us : List Nat) : ∀ (as : List Act) (s s' : St), Orderly s → Clean s as → Served s as →
    exec s as = .ok s' →
    (∀ pre post s1, as = pre ++ post → exec s pre = .ok s1 → CanRun s1 t ∧ p ≤ s1.base t ∧ s1.current ∈ us) →
    units as ≤ irqs as + spent late s as + (us.map fun u => spent (runs p u) s as).sum
  | [], s, s', _, _, _, _, _ => by simp [units]
  | a :: as, s, s', ho, hc, hv, he, hall => by
    simp only [exec] at he
    cases ha : act s a with
    | error u => rw [ha] at he; cases he
    | ok s2 =>
      rw [ha] at he
      dsimp only at he
      have ih := C154_time_goes_up t p us as s2 s' (ho.act hc.1 ha) (hc.2 s2 ha) (hv.2 s2 ha) he
        (fun pre post s1 hs h1 => hall (a :: pre) post s1 (by rw [hs]; rfl) (by simp only [exec, ha]; exact h1))
      have h0 := hall [] (a :: as) s rfl rfl
      cases a with
      | kernel e => simpa [units, irqs, spent, ha] using ih
      | irq =>
        simp only [units, irqs, spent, ha, Nat.zero_add]
        omega
      | work =>
        cases ha
        simp only [units, irqs, spent, act]
        rw [sum_add]
        by_cases hl : late s = true
        · rw [if_pos hl]; omega
        · have hr := C108_right_unless_pending_partial ho (hv.1 rfl) (by unfold late at hl; simpa using hl)
          have hge : p ≤ s.prio s.current := by
            obtain ⟨q, hq⟩ := h0.1
            obtain ⟨e1, e2, -⟩ := C106_right_list ho.reached hq
            have := hr.2 t h0.1
            have := h0.2.1
            omega
          have := sum_single us s.current h0.2.2 (fun u => if runs p u s = true then 1 else 0) (by simp [runs, hge])
          omega

theorem units_append (as bs : List Act) : units (as ++ bs) = units as + units bs := by
  induction as with
  | nil => simp [units]
  | cons a as ih => cases a <;> simp only [List.cons_append, units, ih] <;> omega

theorem irqs_append (as bs : List Act) : irqs (as ++ bs) = irqs as + irqs bs := by
  induction as with
  | nil => simp [irqs]
  | cons a as ih => cases a <;> simp only [List.cons_append, irqs, ih] <;> omega

theorem spent_prefix (A : St → Bool) : ∀ (as bs : List Act) (s : St), spent A s as ≤ spent A s (as ++ bs)
  | [], _, _ => by simp [spent]
  | a :: as, bs, s => by
    simp only [List.cons_append, spent]
    cases act s a with
    | error _ => dsimp only; omega
    | ok s' => have := spent_prefix A as bs s'; dsimp only; omega

theorem Clean.prefix : ∀ (as bs : List Act) (s : St), Clean s (as ++ bs) → Clean s as
  | [], _, _, _ => trivial
  | _ :: as, bs, _, h => ⟨h.1, fun s' hs => Clean.prefix as bs s' (h.2 s' hs)⟩

theorem Served.prefix : ∀ (as bs : List Act) (s : St), Served s (as ++ bs) → Served s as
  | [], _, _, _ => trivial
  | _ :: as, bs, _, h => ⟨h.1, fun s' hs => Served.prefix as bs s' (h.2 s' hs)⟩

theorem exec_prefix : ∀ (as bs : List Act) (s s' : St), exec s (as ++ bs) = .ok s' → ∃ s1, exec s as = .ok s1
  | [], _, s, _, _ => ⟨s, rfl⟩
  | a :: as, bs, s, s', h => by
    simp only [List.cons_append, exec] at h ⊢
    split at h
    · cases h
    · exact exec_prefix as bs _ s' h

theorem sum_le (us : List Nat) (f g : Nat → Nat) (h : ∀ u ∈ us, f u ≤ g u) : (us.map f).sum ≤ (us.map g).sum := by
  induction us with
  | nil => simp
  | cons a as ih =>
    simp only [List.map_cons, List.sum_cons]
    have := h a List.mem_cons_self
    have := ih fun u hu => h u (List.mem_cons_of_mem _ hu)
    omega

/-- **C154.** A task `t` of priority `p` can run, and from then on the processor works for more than `I + L + ΣB` units.
If in this time interrupt routines take at most `I`, spells in which a switch is owed at most `L`, and each task `u`,
while at or above `p`, at most `B u` (so the task itself at most `B t`), then `t` comes to wait for its next activation,
before the processor has worked longer than that. -/
theorem C154_done_in_time (t p I L : Nat) (us : List Nat) (B : Nat → Nat) (as : List Act) (s s' : St) (ho : Orderly s)
    (hc : Clean s as) (hv : Served s as) (he : exec s as = .ok s')
    (hus : ∀ pre post s1, as = pre ++ post → exec s pre = .ok s1 → p ≤ s1.base t ∧ s1.current ∈ us)
    (hI : irqs as ≤ I) (hL : spent late s as ≤ L) (hB : ∀ u ∈ us, spent (runs p u) s as ≤ B u)
    (hD : I + L + (us.map B).sum < units as) :
    ∃ pre post s1, as = pre ++ post ∧ exec s pre = .ok s1 ∧ ¬ CanRun s1 t ∧ units pre ≤ I + L + (us.map B).sum := by
  -- the bound for prefixes in which the task can run
  have key : ∀ pre post, as = pre ++ post → (∀ a b s1, pre = a ++ b → exec s a = .ok s1 → CanRun s1 t) →
      units pre ≤ I + L + (us.map B).sum := by
    intro pre post hs hr
    subst hs
    obtain ⟨s1, h1⟩ := exec_prefix pre post s s' he
    have h := C154_time_goes_up t p us pre s s1 ho (hc.prefix) (hv.prefix) h1
      (fun a b s2 hab h2 => ⟨hr a b s2 hab h2, hus a (b ++ post) s2 (by rw [hab, List.append_assoc]) h2⟩)
    have i1 := irqs_append pre post
    have i2 := spent_prefix late pre post s
    have i3 := sum_le us (fun u => spent (runs p u) s pre) B
      (fun u hu => (spent_prefix (runs p u) pre post s).trans (hB u hu))
    omega
  by_contra hno
  -- every prefix of the history leaves the task able to run
  have all : ∀ n pre post s1, pre.length = n → as = pre ++ post → exec s pre = .ok s1 → CanRun s1 t := by
    intro n
    induction n using Nat.strong_induction_on with
    | _ n ih =>
      intro pre post s1 hn hs h1
      by_contra hcan
      refine hno ⟨pre, post, s1, hs, h1, hcan, ?_⟩
      rcases List.eq_nil_or_concat pre with rfl | ⟨init, last, rfl⟩
      · simp [units]
      · rw [List.concat_eq_append] at *
        have hinit : units init ≤ I + L + (us.map B).sum := by
          refine key init (last :: post) (by rw [hs]; simp) fun a b s2 hab h2 => ?_
          refine ih a.length ?_ a (b ++ last :: post) s2 rfl (by rw [hs, hab]; simp) h2
          rw [← hn, hab]; simp
        have hl : ∃ e, last = .kernel e := by
          obtain ⟨s2, h2⟩ := exec_prefix init [last] s s1 h1
          have hc2 : CanRun s2 t := ih init.length (by rw [← hn]; simp) init (last :: post) s2 rfl (by rw [hs]; simp) h2
          rw [exec_append init [last] s s2 h2] at h1
          cases last with
          | kernel e => exact ⟨e, rfl⟩
          | work => simp only [exec, act] at h1; cases h1; exact absurd hc2 hcan
          | irq => simp only [exec, act] at h1; cases h1; exact absurd hc2 hcan
        obtain ⟨e, rfl⟩ := hl
        rw [units_append]; simp only [units]; omega
  have := key as [] (by simp) fun a b s1 hab h1 => all a.length a b s1 rfl hab h1
  omega

/-- A switch is never owed if the scheduler is not suspended while tasks work and every interrupt routine asks for the
switches it makes necessary. -/
theorem C154_nothing_owed : ∀ (as : List Act) (s : St), Prompt s → Served s as →
    (∀ t, Act.kernel (.event t false) ∉ as) →
    (∀ pre post s1, as = pre ++ Act.work :: post → exec s pre = .ok s1 → s1.susp = 0) → spent late s as = 0
  | [], _, _, _, _, _ => rfl
  | a :: as, s, hp, hv, hn, h0 => by
    simp only [spent]
    have h2 : ∀ s', act s a = .ok s' → spent late s' as = 0 := by
      intro s' hs
      refine C154_nothing_owed as s' ?_ (hv.2 s' hs) (fun t h => hn t (List.mem_cons_of_mem _ h)) ?_
      · cases a with
        | kernel e => exact step_prompt hs (fun t h => hn t (by rw [h]; exact List.mem_cons_self)) hp
        | work => cases hs; exact hp
        | irq => cases hs; exact hp
      · intro pre post s1 hap h1
        exact h0 (a :: pre) post s1 (by rw [hap]; rfl) (by simp only [exec, hs]; exact h1)
    cases a with
    | kernel e =>
      dsimp only
      rw [Nat.zero_add]
      cases ha : act s (.kernel e) with
      | error _ => rfl
      | ok s' => exact h2 s' ha
    | irq =>
      dsimp only [act]
      rw [Nat.zero_add]
      exact h2 s rfl
    | work =>
      have hl : ¬ late s = true := by
        intro hl
        rcases hp hl with h | h
        · rw [hv.1 rfl] at h; cases h
        · exact h (h0 [] as s rfl rfl)
      dsimp only [act]
      rw [if_neg hl, Nat.zero_add]
      exact h2 s rfl

/-! ## Examples -/

/-- Processor time of a history: all of it, interrupt routines, switch owed, and each of the tasks 1, 2 and 3 at or above
priority `p`; and whether the task `t` can still run at the end. -/
def account (p t : Nat) (as : List Act) : Option (Nat × Nat × Nat × List Nat × Bool) :=
  let s := start (fun _ => .mark .suspended) three
  match exec s as with
  | .error _ => none
  | .ok s' => some (units as, irqs as, spent late s as, [1, 2, 3].map fun u => spent (runs p u) s as,
      match s'.heap.container t with
      | some (.ready _) => true
      | _ => false)

/-- Task 3 works, then waits; task 1 works; the tick wakes task 3 and costs a unit; task 3 works twice, then waits; task 2
works twice, then waits; task 1 works. -/
def day : List Act :=
  [.work, .kernel (.block (.until true 7)), .kernel .switch, .work, .irq, .kernel (.tick [3]), .kernel .switch, .work, .work,
   .kernel (.block (.until true 9)), .kernel .switch, .work, .work, .kernel (.block (.until true 9)), .kernel .switch, .work]

-- Task 2 can run from the start and is done after 7 units: 1 of interrupts, 1 of task 1, 2 of its own and 3 of task 3.
-- The bound of `C154_time_goes_up` is met exactly.
example : account 2 2 (day.take 12) = some (6, 1, 0, [1, 1, 3], true) := by decide +kernel
example : account 2 2 (day.take 14) = some (7, 1, 0, [1, 2, 3], false) := by decide +kernel
example : account 2 2 day = some (8, 1, 0, [2, 2, 3], false) := by decide +kernel
-- For task 3 only its own time counts.
example : account 4 3 (day.take 2) = some (1, 0, 0, [0, 0, 1], false) := by decide +kernel
-- An interrupt routine that does not ask for the switch: task 1 goes on although task 3 can run.
example : account 4 3 [.kernel (.block .forever), .kernel .switch, .kernel (.event 3 false), .work, .work,
    .kernel (.tick []), .kernel .switch, .work] = some (3, 0, 2, [0, 0, 1], true) := by decide +kernel
-- A suspended scheduler.
example : account 4 3 [.kernel (.block .forever), .kernel .switch, .kernel .suspendAll, .kernel (.event 3 true), .kernel .switch,
    .work, .kernel (.resumeAll [[]]), .kernel .switch, .work] = some (2, 0, 1, [0, 0, 1], true) := by decide +kernel

end Verif.Ready
