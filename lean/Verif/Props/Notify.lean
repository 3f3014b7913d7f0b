import Verif.Spec.Notify
import Mathlib.Data.Nat.ModEq

set_option autoImplicit false

/-!
# C122: a notification is never lost
-/

namespace Verif.Notify

/-- A task held for the resume has been marked; a sleeping task is inside the call, marked as
waiting, with nothing pending. -/
structure J (s : St) : Prop where
  pend : s.place = .pending → s.st = .received
  sleep : s.place = .blocked → s.st = .waiting ∧ s.val = 0 ∧ s.pc ≠ .out

theorem J.init : J init := ⟨by simp [Notify.init], by simp [Notify.init]⟩

theorem j_step {s : St} (h : J s) (e : Ev) : ∃ s', step s e = .ok s' ∧ J s' := by
  obtain ⟨hp, hs⟩ := h
  cases e with
  | take clear block =>
      simp only [step]
      split_ifs with hc
      · refine ⟨_, rfl, ?_⟩
        unfold enter
        split_ifs with hv hb
        · exact ⟨by simp, by simp [hv]⟩
        · exact ⟨by simp [hc.2], by simp [hc.2]⟩
        · exact ⟨by simp [hc.2], by simp [hc.2]⟩
      · exact ⟨_, rfl, ⟨hp, hs⟩⟩
  | back =>
      simp only [step]
      cases hpc : s.pc with
      | out => exact ⟨_, rfl, ⟨hp, hs⟩⟩
      | mid clear =>
          dsimp only
          split_ifs with hc
          · exact ⟨_, rfl, ⟨by simp [leave, hc], by simp [leave, hc]⟩⟩
          · exact ⟨_, rfl, ⟨hp, hs⟩⟩
  | timeout =>
      refine ⟨_, rfl, ?_⟩
      split_ifs with hc
      · exact ⟨by simp, by simp⟩
      · exact ⟨hp, hs⟩
  | give =>
      simp only [step, give, wake]
      by_cases hw : s.st = .waiting
      · have hn : s.place ≠ .pending := by
          intro hx; rw [hp hx] at hw; cases hw
        simp only [hw, if_true, if_neg hn]
        by_cases hsu : s.susp = true
        · rw [if_pos hsu]; exact ⟨_, rfl, ⟨by simp, by simp⟩⟩
        · rw [if_neg hsu]; exact ⟨_, rfl, ⟨by simp, by simp⟩⟩
      · rw [if_neg hw]
        refine ⟨_, rfl, ⟨by simp, ?_⟩⟩
        intro hb
        exact absurd (hs hb).1 hw
  | poke =>
      simp only [step, poke, wake]
      by_cases hw : s.st = .waiting
      · have hn : s.place ≠ .pending := by
          intro hx; rw [hp hx] at hw; cases hw
        simp only [hw, if_true, if_neg hn]
        by_cases hsu : s.susp = true
        · rw [if_pos hsu]; exact ⟨_, rfl, ⟨by simp, by simp⟩⟩
        · rw [if_neg hsu]; exact ⟨_, rfl, ⟨by simp, by simp⟩⟩
      · rw [if_neg hw]
        refine ⟨_, rfl, ⟨by simp, ?_⟩⟩
        intro hb
        exact absurd (hs hb).1 hw
  | pokeTask =>
      simp only [step, pokeTask]
      by_cases hw : s.st = .waiting
      · have hn : s.place ≠ .pending := by
          intro hx; rw [hp hx] at hw; cases hw
        rw [if_pos hw, if_neg hn]
        exact ⟨_, rfl, ⟨by simp, by simp⟩⟩
      · rw [if_neg hw]
        refine ⟨_, rfl, ⟨by simp, ?_⟩⟩
        intro hb
        exact absurd (hs hb).1 hw
  | suspend => exact ⟨_, rfl, ⟨hp, hs⟩⟩
  | resume =>
      refine ⟨_, rfl, ?_⟩
      unfold resume
      by_cases hx : s.place = .pending
      · exact ⟨by simp [hx], by simp [hx]⟩
      · simp only [if_neg hx]; exact ⟨hp, hs⟩
  | other st =>
      refine ⟨_, rfl, ?_⟩
      split_ifs with hc
      · exact ⟨by simp [hc.2], by simp [hc.2]⟩
      · exact ⟨hp, hs⟩

theorem j_run {s : St} (h : J s) (es : List Ev) : ∃ s', run s es = .ok s' ∧ J s' := by
  induction es generalizing s with
  | nil => exact ⟨s, rfl, h⟩
  | cons e es ih =>
      obtain ⟨s₁, h1, hj⟩ := j_step h e
      obtain ⟨s₂, h2, hj2⟩ := ih hj
      exact ⟨s₂, by simp only [run, h1]; exact h2, hj2⟩

theorem Reached.j {s : St} (h : Reached s) : J s := by
  obtain ⟨es, h⟩ := h
  obtain ⟨s', h', hj⟩ := j_run J.init es
  rw [h] at h'
  cases h'
  exact hj

/-- No sequence of notifications, calls, time-outs and suspensions of the scheduler makes one of
the kernel's assertions fail. -/
theorem C122_never_fails (es : List Ev) : ∃ s, run init es = .ok s := by
  obtain ⟨s', h', -⟩ := j_run J.init es
  exact ⟨s', h'⟩

/-- What one event does to the counts. -/
theorem step_count {s s' : St} {e : Ev} (h : step s e = .ok s') :
    (taken s'.rets + s'.val.toNat) % 2 ^ 32 =
        (taken s.rets + s.val.toNat + gives [e]) % 2 ^ 32 ∧
      active s'.rets + s'.val.toNat ≤ active s.rets + s.val.toNat + gives [e] := by
  have triv : ∀ {t : St}, t.rets = s.rets → t.val = s.val → gives [e] = 0 →
      (taken t.rets + t.val.toNat) % 2 ^ 32 =
        (taken s.rets + s.val.toNat + gives [e]) % 2 ^ 32 ∧
      active t.rets + t.val.toNat ≤ active s.rets + s.val.toNat + gives [e] := by
    intro t h1 h2 h3
    rw [h1, h2, h3]
    exact ⟨rfl, le_refl _⟩
  cases e with
  | take clear block =>
      simp only [step] at h
      split_ifs at h with hc
      · cases h
        apply triv
        · unfold enter; split_ifs <;> rfl
        · unfold enter; split_ifs <;> rfl
        · rfl
      · cases h; exact triv rfl rfl rfl
  | back =>
      simp only [step] at h
      cases hpc : s.pc with
      | out => rw [hpc] at h; cases h; exact triv rfl rfl rfl
      | mid clear =>
          rw [hpc] at h
          dsimp only at h
          split_ifs at h with hc
          · cases h
            simp only [leave, taken, active, List.map_cons, List.sum_cons, accounts, gives,
              List.filter_cons]
            by_cases hv : s.val = 0
            · cases clear <;> simp [hv]
            · have hpos : 0 < s.val.toNat := by
                rcases Nat.eq_zero_or_pos s.val.toNat with h0 | h0
                · exact absurd (UInt32.toNat_inj.mp (by simpa using h0)) hv
                · exact h0
              cases clear
              · have hsub : (s.val - 1).toNat = s.val.toNat - 1 := by
                  rw [UInt32.toNat_sub_of_le]
                  · rfl
                  · rw [UInt32.le_iff_toNat_le]; exact hpos
                simp [hv, hsub]
                constructor
                · congr 1; omega
                · omega
              · simp [hv]
                constructor
                · congr 1; omega
                · omega
          · cases h; exact triv rfl rfl rfl
  | timeout =>
      cases h
      apply triv
      · split_ifs <;> rfl
      · split_ifs <;> rfl
      · rfl
  | give =>
      have key : s'.rets = s.rets ∧ s'.val = s.val + 1 := by
        simp only [step, give, wake] at h
        split_ifs at h <;> cases h <;> exact ⟨rfl, rfl⟩
      rw [key.1, key.2]
      have hadd : (s.val + 1).toNat = (s.val.toNat + 1) % 2 ^ 32 := by
        rw [UInt32.toNat_add]; rfl
      rw [hadd]
      simp only [gives]
      constructor
      · omega
      · have := Nat.mod_le (s.val.toNat + 1) (2 ^ 32); omega
  | poke =>
      have key : s'.rets = s.rets ∧ s'.val = s.val := by
        simp only [step, poke, wake] at h
        split_ifs at h <;> cases h <;> exact ⟨rfl, rfl⟩
      exact triv key.1 key.2 rfl
  | pokeTask =>
      have key : s'.rets = s.rets ∧ s'.val = s.val := by
        simp only [step, pokeTask] at h
        split_ifs at h <;> cases h <;> exact ⟨rfl, rfl⟩
      exact triv key.1 key.2 rfl
  | suspend => cases h; exact triv rfl rfl rfl
  | resume => cases h; exact triv rfl rfl rfl
  | other st =>
      cases h
      apply triv
      · split_ifs <;> rfl
      · split_ifs <;> rfl
      · rfl

theorem gives_cons (e : Ev) (es : List Ev) : gives (e :: es) = gives [e] + gives es := by
  cases e <;> simp [gives]; omega

theorem run_count {s s' : St} {es : List Ev} (h : run s es = .ok s') :
    (taken s'.rets + s'.val.toNat) % 2 ^ 32 =
        (taken s.rets + s.val.toNat + gives es) % 2 ^ 32 ∧
      active s'.rets + s'.val.toNat ≤ active s.rets + s.val.toNat + gives es := by
  induction es generalizing s with
  | nil => cases h; exact ⟨rfl, le_refl _⟩
  | cons e es ih =>
      simp only [run] at h
      cases hst : step s e with
      | error u => rw [hst] at h; cases h
      | ok s₁ =>
          rw [hst] at h
          obtain ⟨a1, a2⟩ := step_count hst
          obtain ⟨b1, b2⟩ := ih h
          rw [gives_cons]
          constructor
          · omega
          · omega

/-- Every notification given is accounted for by a result or still counted, and none is counted
twice: the totals agree (as the 32-bit counts they are). -/
theorem C122_none_lost {es : List Ev} {s : St} (h : run init es = .ok s) :
    gives es % 2 ^ 32 = (taken s.rets + s.val.toNat) % 2 ^ 32 := by
  have := (run_count h).1
  have h0 : taken init.rets = 0 := rfl
  have h1 : init.val.toNat = 0 := rfl
  rw [h0, h1] at this
  omega

/-- The task is never activated without reason: calls that returned with something are no more
than the notifications given. -/
theorem C122_no_more_than_given {es : List Ev} {s : St} (h : run init es = .ok s) :
    active s.rets ≤ gives es := by
  have := (run_count h).2
  have h0 : active init.rets = 0 := rfl
  have h1 : init.val.toNat = 0 := rfl
  rw [h0, h1] at this
  omega

/-- A task never sleeps while a notification waits for it. -/
theorem C122_sleeps_only_on_none {s : St} (h : Reached s) (hb : s.place = .blocked) :
    s.val = 0 ∧ s.st = .waiting := ⟨(h.j.sleep hb).2.1, (h.j.sleep hb).1⟩

/-- A notification makes a sleeping task able to run, at once or, if the scheduler is suspended,
when it resumes. -/
theorem C122_give_wakes {s : St} (h : Reached s) :
    ∃ s', step s .give = .ok s' ∧ s'.place ≠ .blocked ∧
      (s.place = .blocked → s.susp = false → s'.place = .ready) ∧
      (s.place = .blocked → (resume s').place = .ready) := by
  obtain ⟨s', h1, hj⟩ := j_step h.j .give
  refine ⟨s', h1, ?_, ?_, ?_⟩
  · intro hb
    have h2 := (hj.sleep hb).1
    simp only [step, give, wake] at h1
    split_ifs at h1 <;> cases h1 <;> simp at h2
  · intro hb hs
    have hw := (h.j.sleep hb).1
    simp only [step, give, wake] at h1
    rw [if_pos hw, if_neg (by simp [hb]), if_neg (by simp [hs])] at h1
    cases h1; rfl
  · intro hb
    have hw := (h.j.sleep hb).1
    simp only [step, give, wake] at h1
    rw [if_pos hw, if_neg (by simp [hb])] at h1
    split_ifs at h1 <;> cases h1 <;> simp [resume]

/-- A task that sleeps goes on sleeping until it is notified or its time is up. -/
theorem C122_sleeps_until_told {s : St} (h : Reached s) (hb : s.place = .blocked) (es : List Ev)
    (he : ∀ e ∈ es, e ≠ .give ∧ e ≠ .poke ∧ e ≠ .pokeTask ∧ e ≠ .timeout) :
    ∃ s', run s es = .ok s' ∧ s'.place = .blocked ∧ s'.rets = s.rets := by
  have key : ∀ (es : List Ev) (s : St), J s → s.place = .blocked →
      (∀ e ∈ es, e ≠ .give ∧ e ≠ .poke ∧ e ≠ .pokeTask ∧ e ≠ .timeout) →
      ∃ s', run s es = .ok s' ∧ s'.place = .blocked ∧ s'.rets = s.rets := by
    intro es
    induction es with
    | nil => intro s _ hb _; exact ⟨s, rfl, hb, rfl⟩
    | cons e es ih =>
        intro s hj hb he
        have h1 := he e List.mem_cons_self
        have hes : ∀ e ∈ es, e ≠ .give ∧ e ≠ .poke ∧ e ≠ .pokeTask ∧ e ≠ .timeout :=
          fun e h => he e (List.mem_cons_of_mem _ h)
        have hone : ∃ s₁, step s e = .ok s₁ ∧ s₁.place = .blocked ∧ s₁.rets = s.rets := by
          cases e with
          | take clear block => exact ⟨s, by simp [step, hb], hb, rfl⟩
          | back =>
              refine ⟨s, ?_, hb, rfl⟩
              simp only [step]
              cases s.pc with
              | out => rfl
              | mid clear => simp [hb]
          | timeout => exact absurd rfl h1.2.2.2
          | give => exact absurd rfl h1.1
          | poke => exact absurd rfl h1.2.1
          | pokeTask => exact absurd rfl h1.2.2.1
          | suspend => exact ⟨_, rfl, hb, rfl⟩
          | resume => exact ⟨_, rfl, by simp [Notify.resume, hb], rfl⟩
          | other st => exact ⟨s, by simp [step, hb], hb, rfl⟩
        obtain ⟨s₁, e1, e2, e3⟩ := hone
        obtain ⟨s₁', f1, fj⟩ := j_step hj e
        rw [e1] at f1
        cases f1
        obtain ⟨s₂, g1, g2, g3⟩ := ih s₁ fj e2 hes
        exact ⟨s₂, by simp only [run, e1]; exact g1, g2, by rw [g3, e3]⟩
  exact key es s h.j hb he

/-- After a notification the next call that returns says so, whatever happens in between, unless
2³² notifications pile up. -/
theorem C122_next_call_tells {s s₁ s₂ : St} {es : List Ev}
    (hrun : run s (.give :: es) = .ok s₁) (hno : ∀ e ∈ es, e ≠ .back)
    (hpile : s.val.toNat + 1 + gives es < 2 ^ 32) (hback : step s₁ .back = .ok s₂)
    (hret : s₂.rets ≠ s₁.rets) : ∃ clear v, s₂.rets = (clear, v) :: s₁.rets ∧ v ≠ 0 := by
  have hval : ∀ (es : List Ev) (s s' : St), run s es = .ok s' → (∀ e ∈ es, e ≠ .back) →
      s.val.toNat + gives es < 2 ^ 32 → s'.val.toNat = s.val.toNat + gives es := by
    intro es
    induction es with
    | nil => intro s s' h _ _; cases h; rfl
    | cons e es ih =>
        intro s s' h hno hp
        simp only [run] at h
        cases hst : step s e with
        | error u => rw [hst] at h; cases h
        | ok t =>
            rw [hst] at h
            rw [gives_cons] at hp ⊢
            have ht : t.val.toNat = s.val.toNat + gives [e] := by
              cases e with
              | take clear block =>
                  simp only [step] at hst
                  split_ifs at hst <;> cases hst
                  · unfold enter; split_ifs <;> rfl
                  · rfl
              | back => exact absurd rfl (hno _ List.mem_cons_self)
              | timeout => cases hst; split_ifs <;> rfl
              | give =>
                  have hv : t.val = s.val + 1 := by
                    simp only [step, give, wake] at hst
                    split_ifs at hst <;> cases hst <;> rfl
                  rw [hv, UInt32.toNat_add]
                  simp only [gives] at hp ⊢
                  change (s.val.toNat + 1) % 2 ^ 32 = _
                  rw [Nat.mod_eq_of_lt (by omega)]
              | poke =>
                  simp only [step, poke, wake] at hst
                  split_ifs at hst <;> cases hst <;> rfl
              | pokeTask =>
                  simp only [step, pokeTask] at hst
                  split_ifs at hst <;> cases hst <;> rfl
              | suspend => cases hst; rfl
              | resume => cases hst; rfl
              | other st => cases hst; split_ifs <;> rfl
            have := ih t s' h (fun e he => hno e (List.mem_cons_of_mem _ he)) (by omega)
            omega
  have h1 := hval (.give :: es) s s₁ hrun
    (by
      intro e he
      rcases List.mem_cons.mp he with rfl | he
      · simp
      · exact hno e he)
    (by simp only [gives]; omega)
  simp only [gives] at h1
  have hne : s₁.val ≠ 0 := by
    intro h0
    rw [h0] at h1
    simp at h1
  simp only [step] at hback
  cases hpc : s₁.pc with
  | out => rw [hpc] at hback; cases hback; exact absurd rfl hret
  | mid clear =>
      rw [hpc] at hback
      dsimp only at hback
      split_ifs at hback
      · cases hback
        exact ⟨clear, s₁.val, rfl, hne⟩
      · cases hback; exact absurd rfl hret

/-- A periodic task: it is notified before its first call, sleeps through the second, is told
twice while it works, and is told nothing after a time-out. -/
example : (run init [.give, .take true true, .back, .take true true, .give, .back, .give, .give,
    .take true true, .back, .take true true, .timeout, .back]).map (·.rets) =
    .ok [(true, 0), (true, 2), (true, 1), (true, 1)] := by decide +kernel

/-- The notification comes just as the wait has ended, before the task runs: it is told. -/
example : (run init [.take true true, .timeout, .suspend, .give, .resume, .back]).map
    (fun s => (s.rets, s.val)) = .ok ([(true, 1)], 0) := by decide +kernel

/-- One at a time: the SPI task. -/
example : (run init [.give, .give, .take false true, .back, .take false true, .back]).map
    (fun s => (s.rets, s.val)) = .ok ([(false, 1), (false, 2)], 0) := by decide +kernel

end Verif.Notify
