import Verif.Props.Delay
import Verif.Spec.TimeOut

set_option autoImplicit false

/-!
# C112: a call with a time limit gives up when the limit has passed, not before
-/

namespace Verif.TimeOut

open Verif.Delay (W maxDelay Rel)
open Verif.DelaySpec (Abs)

/-- One tick or none. -/
def Ev.dt (e : Ev) : Nat := if e.isTick then 1 else 0

theorem ticks_cons (e : Ev) (es : List Ev) : ticks (e :: es) = e.dt + ticks es := by
  unfold ticks Ev.dt
  rw [List.countP_cons]
  omega

theorem ticks_append (a b : List Ev) : ticks (a ++ b) = ticks a + ticks b := by
  unfold ticks; rw [List.countP_append]

/-- The flag of `Prompt` after an event. -/
def Ev.flag : Ev → Bool
  | .check => true
  | .enter _ => true
  | _ => false

theorem prompt_cons (b : Bool) (e : Ev) (es : List Ev) :
    Prompt b (e :: es) ↔ (e = .sleep → b = true) ∧ Prompt e.flag es := by
  cases e <;> simp [Prompt, Ev.flag]

/-- The clock and the waits, whatever `me` does. -/
structure K (s : St) (a : Abs) : Prop where
  rel : Rel s.d a
  ovf : s.ovf = a.now / W

theorem K.wait {s : St} {a : Abs} (k : K s a) (me : Nat) :
    Delay.waiting s.d me = true ↔ me ∈ a.wait.map (·.1) := k.rel.waiting me

theorem K.wait' {s : St} {a : Abs} (k : K s a) (me : Nat) :
    Delay.waiting s.d me = false ↔ me ∉ a.wait.map (·.1) := by
  rw [← k.wait me]; simp

/-- `sys` events are those of `Delay`. -/
theorem sys_k {me : Nat} {s : St} {a : Abs} (k : K s a) (e : Delay.Ev) (hv : (Ev.sys e).valid)
    (hb : ∀ n, e ≠ .block me n) :
    ∃ d ovf, step me s (.sys e) = .ok { s with d := d, ovf := ovf } ∧
      K { s with d := d, ovf := ovf } (DelaySpec.step a e).2 ∧
      (DelaySpec.step a e).2.now = a.now + (Ev.sys e).dt := by
  have hv' : Delay.Valid e := by cases e <;> exact hv
  obtain ⟨d, h1, h2⟩ := Delay.step_rel k.rel e hv'
  have hnow : (DelaySpec.step a e).2.now = a.now + (Ev.sys e).dt := by
    cases e with
    | tick => rfl
    | event t => rfl
    | block t n =>
      simp only [DelaySpec.step]
      split_ifs <;> rfl
  refine ⟨d, if e = .tick ∧ d.tick = 0 then s.ovf + 1 else s.ovf, ?_, ⟨h2, ?_⟩, hnow⟩
  · have : ¬ ∃ n, e = .block me n := fun ⟨n, hn⟩ => hb n hn
    simp only [step, if_neg this, h1]
  · simp only
    have ht := h2.tick
    rw [hnow] at ht ⊢
    rw [k.ovf]
    cases e with
    | tick =>
      simp only [Ev.dt, Ev.isTick, if_true] at ht ⊢
      simp only [W] at *
      split_ifs with h <;> simp only [true_and] at h <;> omega
    | event t => simp [Ev.dt, Ev.isTick]
    | block t n => simp [Ev.dt, Ev.isTick]

/-- Every event keeps the clock. -/
theorem step_k {me : Nat} {s : St} {a : Abs} (k : K s a) (e : Ev) (hv : e.valid)
    (hl : ∀ c, s.call = some c → c.left < 2 ^ 32) :
    ∃ s' a', step me s e = .ok s' ∧ K s' a' ∧ a'.now = a.now + e.dt ∧
      (∀ c, s'.call = some c → c.left < 2 ^ 32) := by
  cases e with
  | sys e =>
    by_cases hb : ∃ n, e = .block me n
    · refine ⟨s, a, by simp only [step, if_pos hb], k, ?_, hl⟩
      obtain ⟨n, rfl⟩ := hb; rfl
    · obtain ⟨d, o, h1, h2, h3⟩ := sys_k k e hv (fun n hn => hb ⟨n, hn⟩)
      exact ⟨_, _, h1, h2, h3, hl⟩
  | enter n =>
    simp only [step]
    split_ifs
    · refine ⟨_, a, rfl, ⟨k.rel, k.ovf⟩, rfl, ?_⟩
      intro c hc; cases hc; exact hv
    · exact ⟨s, a, rfl, k, rfl, hl⟩
  | check =>
    simp only [step]
    cases hc : s.call with
    | none => exact ⟨s, a, rfl, k, rfl, by rw [hc]; intro c h; cases h⟩
    | some c =>
      simp only
      split_ifs with h1 h2
      · exact ⟨s, a, rfl, k, rfl, by rw [hc] at hl ⊢; exact hl⟩
      · exact ⟨_, a, rfl, ⟨k.rel, k.ovf⟩, rfl, fun c h => by cases h⟩
      · refine ⟨_, a, rfl, ⟨k.rel, k.ovf⟩, rfl, ?_⟩
        intro c' h
        cases h
        have := hl c hc
        unfold checkForTimeOut
        simp only
        split_ifs <;> simp only [setState] <;> omega
  | sleep =>
    simp only [step]
    cases hc : s.call with
    | none => exact ⟨s, a, rfl, k, rfl, by rw [hc]; intro c h; cases h⟩
    | some c =>
      simp only
      obtain ⟨d, h1, h2⟩ := Delay.step_rel k.rel (.block me c.left) (hl c hc)
      rw [h1]
      refine ⟨_, _, rfl, ⟨h2, ?_⟩, ?_, by rw [hc] at hl; simpa [hc] using hl⟩
      all_goals
        unfold DelaySpec.step
        simp only
        split_ifs <;> first | exact k.ovf | rfl
  | leave =>
    simp only [step]
    split_ifs
    · exact ⟨s, a, rfl, k, rfl, hl⟩
    · exact ⟨_, a, rfl, ⟨k.rel, k.ovf⟩, rfl, fun c h => by cases h⟩

theorem run_k {me : Nat} : ∀ (es : List Ev) {s : St} {a : Abs} (_ : K s a)
    (_ : ∀ c, s.call = some c → c.left < 2 ^ 32) (_ : ∀ e ∈ es, e.valid),
    ∃ s' a', run me s es = .ok s' ∧ K s' a' ∧ (∀ c, s'.call = some c → c.left < 2 ^ 32)
  | [], s, a, k, hl, _ => ⟨s, a, rfl, k, hl⟩
  | e :: es, s, a, k, hl, hv => by
    obtain ⟨s1, a1, h1, k1, _, hl1⟩ := step_k (me := me) k e (hv e (by simp)) hl
    rw [run, h1]
    exact run_k es k1 hl1 (fun x hx => hv x (by simp [hx]))

theorem start_k (t0 : Nat) (h : t0 < 2 ^ 32) : K (start t0) ⟨t0, []⟩ := by
  refine ⟨Delay.start_rel t0 h, ?_⟩
  simp only [start, W]
  omega

theorem Reached.k {me : Nat} {s : St} (h : Reached me s) :
    (∃ a, K s a) ∧ ∀ c, s.call = some c → c.left < 2 ^ 32 := by
  obtain ⟨t0, es, ht, hv, hr⟩ := h
  obtain ⟨s', a', h1, h2, h3⟩ := run_k (me := me) es (start_k t0 ht) (fun c h => by cases h) hv
  rw [h1] at hr
  cases hr
  exact ⟨⟨a', h2⟩, h3⟩

/-- The check is right if less than 2^32 ticks have passed since the time was noted. -/
theorem check_right {s : St} {a : Abs} (k : K s a) {ts left : Nat} (h1 : ts ≤ a.now) (h2 : a.now < ts + W)
    (hl : left ≠ maxDelay) :
    checkForTimeOut s ⟨ts / W, ts % W, left⟩ =
      if a.now - ts < left then (false, ⟨a.now / W, a.now % W, left - (a.now - ts)⟩)
      else (true, ⟨ts / W, ts % W, 0⟩) := by
  have ht := k.rel.tick
  have ho := k.ovf
  unfold checkForTimeOut
  simp only [if_neg hl]
  have he : (s.d.tick + W - ts % W) % W = a.now - ts := by
    rw [ht]; simp only [W] at *; omega
  have hno : ¬ (s.ovf ≠ ts / W ∧ ts % W ≤ s.d.tick) := by
    rw [ht, ho]; simp only [W] at *; omega
  rw [if_neg hno, he]
  unfold setState
  rw [ht, ho]

/-! ## One call -/

/-- A call for `n` ticks that began at time `t0` is in progress. -/
structure J (me n t0 : Nat) (b : Bool) (s : St) (a : Abs) : Prop where
  k : K s a
  le : t0 ≤ a.now
  call : ∀ c, s.call = some c → ∃ ts, t0 ≤ ts ∧ ts ≤ a.now ∧ ts - t0 < n ∧
    c = ⟨ts / W, ts % W, n - (ts - t0)⟩ ∧ (b = true → me ∉ a.wait.map (·.1) → ts = a.now)

/-- The deadline of a sleeping `me`. -/
def Due (me n t0 : Nat) (a : Abs) : Prop := ∀ d, (me, d) ∈ a.wait → d = some (t0 + n)

theorem step_j {me n t0 : Nat} {b : Bool} {s : St} {a : Abs} (hn : n < 2 ^ 32 - 1) (j : J me n t0 b s a)
    (e : Ev) (hw : e.within = true) (hv : e.valid) (hb : a.now + e.dt < t0 + W) :
    ∃ s' a', step me s e = .ok s' ∧ J me n t0 e.flag s' a' ∧ a'.now = a.now + e.dt ∧
      ((e = .sleep → b = true) → Due me n t0 a → Due me n t0 a') ∧
      (a'.now < t0 + n → s.call ≠ none → s'.call ≠ none) ∧
      (s.call = none → s'.call = none) ∧
      (e = .sleep → s.call ≠ none → me ∈ a'.wait.map (·.1)) ∧
      ((me, some (t0 + n)) ∈ a.wait → e ≠ .sys (.event me) → a'.now < t0 + n → (me, some (t0 + n)) ∈ a'.wait) := by
  have j0 := j
  obtain ⟨k, hle, hcall⟩ := j
  cases e with
  | sys e =>
    by_cases hbm : ∃ m, e = .block me m
    · refine ⟨s, a, by simp only [step, if_pos hbm], ⟨k, hle, ?_⟩, ?_, fun _ h => h, fun _ h => h, fun h => h,
        fun h => (by cases h), fun h _ _ => h⟩
      · intro c hc
        obtain ⟨ts, g1, g2, g3, g4, _⟩ := hcall c hc
        exact ⟨ts, g1, g2, g3, g4, fun h => by cases h⟩
      · obtain ⟨m, rfl⟩ := hbm; rfl
    · obtain ⟨d, o, h1, h2, h3⟩ := sys_k k e hv (fun m hm => hbm ⟨m, hm⟩)
      refine ⟨_, _, h1, ⟨h2, by omega, ?_⟩, h3, ?_, fun _ h => h, fun h => h, fun h => (by cases h), ?_⟩
      · intro c hc
        obtain ⟨ts, g1, g2, g3, g4, _⟩ := hcall c hc
        exact ⟨ts, g1, by omega, g3, g4, fun h => by cases h⟩
      · intro _ hd x hx
        cases e with
        | tick => exact hd x (List.mem_of_mem_filter hx)
        | event t => exact hd x (List.mem_of_mem_filter hx)
        | block t m =>
          unfold DelaySpec.step at hx
          simp only at hx
          split_ifs at hx
          · exact hd x hx
          all_goals
            rcases List.mem_append.mp hx with hx | hx
            · exact hd x hx
            · have : t = me := by
                have := List.mem_singleton.mp hx
                exact (Prod.mk.inj this).1.symm
              exact absurd ⟨m, by rw [this]⟩ hbm
      · intro hm hne hlt
        cases e with
        | tick =>
          refine List.mem_filter.mpr ⟨hm, ?_⟩
          have hdt : (Ev.sys Delay.Ev.tick).dt = 1 := rfl
          rw [h3, hdt] at hlt
          simp only [ne_eq, Option.some.injEq, decide_not, Bool.not_eq_true', decide_eq_false_iff_not]
          omega
        | event t =>
          refine List.mem_filter.mpr ⟨hm, ?_⟩
          have : t ≠ me := by rintro rfl; exact hne rfl
          simpa using Ne.symm this
        | block t m =>
          unfold DelaySpec.step
          simp only
          split_ifs
          · exact hm
          all_goals exact List.mem_append_left _ hm
  | enter m => cases hw
  | leave => cases hw
  | check =>
    have hdt : Ev.check.dt = 0 := rfl
    simp only [step]
    cases hc : s.call with
    | none =>
      exact ⟨s, a, rfl, ⟨k, hle, by rw [hc]; intro c h; cases h⟩, rfl, fun _ h => h, fun _ h => absurd rfl h,
        fun _ => hc, fun h => (by cases h), fun h _ _ => h⟩
    | some c =>
      simp only
      obtain ⟨ts, g1, g2, g3, g4, g5⟩ := hcall c hc
      by_cases h1 : Delay.waiting s.d me = true
      · rw [if_pos h1]
        refine ⟨s, a, rfl, ⟨k, hle, ?_⟩, rfl, fun _ h => h, fun _ _ => by rw [hc]; simp, fun h => (by cases h),
          fun h => (by cases h), fun h _ _ => h⟩
        intro c' hc'
        rw [hc] at hc'
        cases hc'
        exact ⟨ts, g1, g2, g3, g4, fun _ h => absurd ((k.wait me).mp h1) h⟩
      · rw [if_neg h1]
        have hr := check_right k (left := n - (ts - t0)) g2 (by simp only [W] at *; omega) (by unfold maxDelay; omega)
        rw [g4, hr]
        by_cases hlt : a.now - ts < n - (ts - t0)
        · simp only [if_pos hlt]
          refine ⟨_, a, rfl, ⟨⟨k.rel, k.ovf⟩, hle, ?_⟩, rfl, fun _ h => h, fun _ _ => by simp, fun h => (by cases h),
            fun h => (by cases h), fun h _ _ => h⟩
          intro c' hc'
          cases hc'
          refine ⟨a.now, hle, Nat.le_refl _, by omega, ?_, fun _ _ => rfl⟩
          congr 1
          omega
        · simp only [if_neg hlt]
          refine ⟨_, a, rfl, ⟨⟨k.rel, k.ovf⟩, hle, fun c h => by cases h⟩, rfl, fun _ h => h, ?_, fun h => (by cases h),
            fun h => (by cases h), fun h _ _ => h⟩
          intro hx; omega
  | sleep =>
    simp only [step]
    cases hc : s.call with
    | none =>
      exact ⟨s, a, rfl, ⟨k, hle, by rw [hc]; intro c h; cases h⟩, rfl, fun _ h => h, fun _ h => absurd rfl h,
        fun _ => hc, fun _ h => absurd rfl h, fun h _ _ => h⟩
    | some c =>
      simp only
      obtain ⟨ts, g1, g2, g3, g4, g5⟩ := hcall c hc
      have hcl : c.left = n - (ts - t0) := by rw [g4]
      obtain ⟨d, h1, h2⟩ := Delay.step_rel k.rel (.block me c.left) (by show c.left < 2 ^ 32; omega)
      rw [h1]
      have hnow : (DelaySpec.step a (.block me c.left)).2.now = a.now := by
        unfold DelaySpec.step; simp only; split_ifs <;> rfl
      refine ⟨_, _, rfl, ⟨⟨h2, ?_⟩, by rw [hnow]; exact hle, ?_⟩, hnow, ?_, fun _ _ => ?_, fun h => (by cases h), ?_, ?_⟩
      · simp only; rw [hnow]; exact k.ovf
      · intro c' hc'
        cases hc'
        exact ⟨ts, g1, by rw [hnow]; exact g2, g3, g4, fun h => by cases h⟩
      · intro hp hd x hx
        unfold DelaySpec.step at hx
        simp only at hx
        split_ifs at hx with h4 h5
        · exact hd x hx
        · omega
        · rw [not_or] at h4
          have := g5 (hp trivial) h4.1
          rcases List.mem_append.mp hx with hx | hx
          · exact hd x hx
          · have := (Prod.mk.inj (List.mem_singleton.mp hx)).2
            rw [this, hcl]
            congr 1
            omega
      · simp
      · intro _ _
        unfold DelaySpec.step
        simp only
        split_ifs with h4
        · rcases h4 with h4 | h4
          · exact h4
          · omega
        all_goals simp
      · intro hm _ _
        unfold DelaySpec.step
        simp only
        split_ifs
        · exact hm
        all_goals exact List.mem_append_left _ hm

theorem run_j {me n t0 : Nat} (hn : n < 2 ^ 32 - 1) : ∀ (es : List Ev) {b : Bool} {s : St} {a : Abs}
    (_ : J me n t0 b s a) (_ : ∀ e ∈ es, e.within = true) (_ : ∀ e ∈ es, e.valid)
    (_ : a.now + ticks es < t0 + W),
    ∃ s' a' b', run me s es = .ok s' ∧ J me n t0 b' s' a' ∧ a'.now = a.now + ticks es ∧
      (Prompt b es → Due me n t0 a → Due me n t0 a') ∧
      (a'.now < t0 + n → s.call ≠ none → s'.call ≠ none) ∧ (s.call = none → s'.call = none) ∧
      ((me, some (t0 + n)) ∈ a.wait → (∀ e ∈ es, e ≠ .sys (.event me)) → a'.now < t0 + n →
        (me, some (t0 + n)) ∈ a'.wait)
  | [], b, s, a, j, _, _, _ => ⟨s, a, b, rfl, j, rfl, fun _ h => h, fun _ h => h, fun h => h, fun h _ _ => h⟩
  | e :: es, b, s, a, j, hw, hv, ht => by
    rw [ticks_cons] at ht
    obtain ⟨s1, a1, h1, j1, n1, p1, c1, d1, _, w1⟩ := step_j hn j e (hw e (by simp)) (hv e (by simp)) (by omega)
    obtain ⟨s2, a2, b2, h2, j2, n2, p2, c2, d2, w2⟩ := run_j hn es j1 (fun x hx => hw x (by simp [hx]))
      (fun x hx => hv x (by simp [hx])) (by omega)
    refine ⟨s2, a2, b2, by rw [run, h1]; exact h2, j2, by rw [ticks_cons]; omega, ?_, ?_, fun h => d2 (d1 h), ?_⟩
    · intro hp hd
      rw [prompt_cons] at hp
      exact p2 hp.2 (p1 hp.1 hd)
    · intro hlt hc
      exact c2 hlt (c1 (by omega) hc)
    · intro hm hne hlt
      exact w2 (w1 hm (hne e (by simp)) (by omega)) (fun x hx => hne x (by simp [hx])) hlt

theorem enter_j {me n : Nat} {s : St} (h : Reached me s) (hc : s.call = none)
    (hw : Delay.waiting s.d me = false) (hn : 0 < n) :
    ∃ s1 a, step me s (.enter n) = .ok s1 ∧ J me n a.now true s1 a ∧ Due me n a.now a ∧ s1.call ≠ none := by
  obtain ⟨⟨a, k⟩, _⟩ := h.k
  refine ⟨{ s with call := some (setState s n) }, a, ?_, ⟨⟨k.rel, k.ovf⟩, Nat.le_refl _, ?_⟩, ?_, by simp⟩
  · simp only [step]
    rw [if_pos ⟨hc, hw, by omega⟩]
  · intro c hcc
    cases hcc
    refine ⟨a.now, Nat.le_refl _, Nat.le_refl _, by omega, ?_, fun _ _ => rfl⟩
    unfold setState
    rw [k.rel.tick, k.ovf]
    simp
  · intro d hd
    exact absurd (List.mem_map.mpr ⟨_, hd, rfl⟩) ((k.wait' me).mp hw)

/-! ## C112 -/

/-- **C112.** Nothing in the handling of time limits fails. -/
theorem C112_never_fails (me t0 : Nat) (h0 : t0 < 2 ^ 32) (es : List Ev) (hv : ∀ e ∈ es, e.valid) :
    ∃ s, run me (start t0) es = .ok s := by
  obtain ⟨s', a', h1, _⟩ := run_k (me := me) es (start_k t0 h0) (fun c h => by cases h) hv
  exact ⟨s', h1⟩

/-- **C112.** A call for `n` ticks (1 to 2^32 - 2) that is still in progress and looks at its time
after `k` ticks, less than 2^32, gives up if and only if `k` is at least `n`: however often it was
woken and went to sleep again before, and however the tick counter wrapped meanwhile. -/
theorem C112_gives_up_exactly {me n : Nat} {s s1 : St} {es : List Ev} (h : Reached me s)
    (hc : s.call = none) (hw : Delay.waiting s.d me = false) (hn : 0 < n) (hn' : n < 2 ^ 32 - 1)
    (hin : ∀ e ∈ es, e.within = true) (hv : ∀ e ∈ es, e.valid) (hk : ticks es < 2 ^ 32)
    (hr : run me s (.enter n :: es) = .ok s1) (hc1 : s1.call ≠ none)
    (hw1 : Delay.waiting s1.d me = false) :
    ∃ s2, step me s1 .check = .ok s2 ∧
      (n ≤ ticks es → s2.call = none ∧ s2.gaveUp = s1.gaveUp + 1) ∧
      (ticks es < n → s2.call ≠ none ∧ s2.gaveUp = s1.gaveUp) := by
  obtain ⟨s0, a, e1, j, _, _⟩ := enter_j h hc hw hn
  rw [run, e1] at hr
  simp only at hr
  obtain ⟨s1', a1, b1, h1, j1, n1, _⟩ := run_j hn' es j hin hv (by simp only [W]; omega)
  rw [h1] at hr
  cases hr
  rcases hcc : s1.call with _ | c
  · exact absurd hcc hc1
  · obtain ⟨ts, g1, g2, g3, g4, _⟩ := j1.call c hcc
    simp only [step, hcc, hw1]
    have hrt := check_right j1.k (left := n - (ts - a.now)) g2 (by simp only [W]; omega) (by unfold maxDelay; omega)
    rw [g4, hrt]
    by_cases hlt : a1.now - ts < n - (ts - a.now)
    · simp only [if_pos hlt]
      refine ⟨_, rfl, fun hx => ?_, fun _ => ⟨by simp, rfl⟩⟩
      omega
    · simp only [if_neg hlt]
      exact ⟨_, rfl, fun _ => ⟨rfl, rfl⟩, fun hx => by omega⟩

/-- **C112.** Such a call never gives up before `n` ticks have passed. -/
theorem C112_not_before {me n : Nat} {s s1 : St} {es : List Ev} (h : Reached me s)
    (hc : s.call = none) (hw : Delay.waiting s.d me = false) (hn : 0 < n) (hn' : n < 2 ^ 32 - 1)
    (hin : ∀ e ∈ es, e.within = true) (hv : ∀ e ∈ es, e.valid) (hk : ticks es < n)
    (hr : run me s (.enter n :: es) = .ok s1) : s1.call ≠ none := by
  obtain ⟨s0, a, e1, j, _, hc0⟩ := enter_j h hc hw hn
  rw [run, e1] at hr
  simp only at hr
  obtain ⟨s1', a1, b1, h1, j1, n1, _, c1, _⟩ := run_j hn' es j hin hv (by simp only [W]; omega)
  rw [h1] at hr
  cases hr
  exact c1 (by omega) hc0

/-- **C112.** If it goes to sleep only directly after having looked at its time, as every queue
call does, it is awake again after `n` ticks: it then looks, and gives up by the theorem above. -/
theorem C112_awake_in_time {me n : Nat} {s s1 : St} {es : List Ev} (h : Reached me s)
    (hc : s.call = none) (hw : Delay.waiting s.d me = false) (hn : 0 < n) (hn' : n < 2 ^ 32 - 1)
    (hin : ∀ e ∈ es, e.within = true) (hv : ∀ e ∈ es, e.valid) (hk : ticks es < 2 ^ 32)
    (hr : run me s (.enter n :: es) = .ok s1) (hp : Prompt true es) (hk' : n ≤ ticks es) :
    Delay.waiting s1.d me = false := by
  obtain ⟨s0, a, e1, j, d0, _⟩ := enter_j h hc hw hn
  rw [run, e1] at hr
  simp only at hr
  obtain ⟨s1', a1, b1, h1, j1, n1, p1, _⟩ := run_j hn' es j hin hv (by simp only [W]; omega)
  rw [h1] at hr
  cases hr
  rw [j1.k.wait' me]
  intro hm
  obtain ⟨⟨x, d⟩, hx, hxe⟩ := List.mem_map.mp hm
  simp only at hxe
  subst hxe
  have := p1 hp d0 d hx
  subst this
  have := (j1.k.rel.dl _ _ hx).1
  omega

/-- **C112.** It sleeps through: once asleep, and as long as no event comes for it, it is not
woken before `n` ticks have passed since the call began. -/
theorem C112_sleeps_through {me n : Nat} {s s1 : St} {es1 es2 : List Ev} (h : Reached me s)
    (hc : s.call = none) (hw : Delay.waiting s.d me = false) (hn : 0 < n) (hn' : n < 2 ^ 32 - 1)
    (hin : ∀ e ∈ es1 ++ es2, e.within = true) (hv : ∀ e ∈ es1 ++ es2, e.valid)
    (hr : run me s (.enter n :: (es1 ++ .sleep :: es2)) = .ok s1) (hp : Prompt true (es1 ++ .sleep :: es2))
    (hev : ∀ e ∈ es2, e ≠ .sys (.event me)) (hk : ticks (es1 ++ es2) < n) :
    Delay.waiting s1.d me = true := by
  obtain ⟨s0, a, e1, j, d0, hc0⟩ := enter_j h hc hw hn
  rw [run, e1] at hr
  simp only at hr
  rw [ticks_append] at hk
  have hpp : ∀ (l : List Ev) (b : Bool), Prompt b (l ++ .sleep :: es2) → Prompt b (l ++ [.sleep]) := by
    intro l
    induction l with
    | nil => intro b hp; exact ⟨hp.1, trivial⟩
    | cons x l ih =>
      intro b hp
      rw [List.cons_append, prompt_cons] at hp ⊢
      exact ⟨hp.1, ih _ hp.2⟩
  have hrun : ∀ (l : List Ev) (s : St), run me s (l ++ .sleep :: es2) =
      match run me s (l ++ [.sleep]) with | .error u => .error u | .ok s => run me s es2 := by
    intro l
    induction l with
    | nil =>
      intro s
      simp only [List.nil_append, run]
      cases step me s .sleep <;> rfl
    | cons x l ih =>
      intro s
      simp only [List.cons_append, run]
      cases step me s x with
      | error u => rfl
      | ok s' => exact ih s'
  rw [hrun] at hr
  -- up to the sleep
  obtain ⟨s2, a2, b2, h2, j2, n2, p2, c2, _⟩ := run_j hn' es1 j (fun x hx => hin x (by simp [hx]))
    (fun x hx => hv x (by simp [hx])) (by simp only [W]; omega)
  obtain ⟨s3, a3, b3, h3, j3, n3, p3, c3, _⟩ := run_j hn' (es1 ++ [.sleep]) j
    (fun x hx => by
      rcases List.mem_append.mp hx with hx | hx
      · exact hin x (by simp [hx])
      · rw [List.mem_singleton.mp hx]; rfl)
    (fun x hx => by
      rcases List.mem_append.mp hx with hx | hx
      · exact hv x (by simp [hx])
      · rw [List.mem_singleton.mp hx]; trivial)
    (by rw [ticks_append]; simp only [W]; have : ticks [Ev.sleep] = 0 := rfl; omega)
  rw [h3] at hr
  simp only at hr
  -- asleep there
  obtain ⟨s3', a3', h4, j4, n4, _, _, _, q4, _⟩ := step_j hn' j2 .sleep rfl trivial (by
    have : Ev.sleep.dt = 0 := rfl
    simp only [W]; omega)
  have happ : ∀ (l : List Ev) (s t : St), run me s l = .ok t → run me s (l ++ [.sleep]) = step me t .sleep := by
    intro l
    induction l with
    | nil =>
      intro s t ht
      rw [run] at ht; cases ht
      simp only [List.nil_append, run]
      cases step me s .sleep <;> rfl
    | cons x l ih =>
      intro s t ht
      simp only [List.cons_append, run] at ht ⊢
      cases hx : step me s x with
      | error u => rw [hx] at ht; cases ht
      | ok s' => rw [hx] at ht; exact ih s' t ht
  rw [happ es1 s0 s2 h2, h4] at h3
  cases h3
  have hm := q4 rfl (c2 (by omega) hc0)
  have hm2 : me ∈ a3.wait.map (·.1) := (j3.k.wait me).mp ((j4.k.wait me).mpr hm)
  obtain ⟨⟨x, d⟩, hx, hxe⟩ := List.mem_map.mp hm2
  simp only at hxe
  subst hxe
  have hd := p3 (hpp es1 true hp) d0 d hx
  subst hd
  have ht0 : ticks (es1 ++ [Ev.sleep]) = ticks es1 := by rw [ticks_append]; rfl
  obtain ⟨s5, a5, b5, h5, j5, n5, _, _, _, w5⟩ := run_j hn' es2 j3 (fun x hx => hin x (by simp [hx]))
    (fun x hx => hv x (by simp [hx])) (by simp only [W]; omega)
  rw [h5] at hr
  cases hr
  have := w5 hx hev (by omega)
  exact (j5.k.wait _).mpr (List.mem_map.mpr ⟨_, this, rfl⟩)

/-- **C112.** A call without limit (`portMAX_DELAY`) never gives up. -/
theorem C112_no_limit {me : Nat} : ∀ (es : List Ev) {s s1 : St} (_ : ∀ c, s.call = some c → c.left = 2 ^ 32 - 1)
    (_ : s.call ≠ none) (_ : ∀ e ∈ es, e.within = true) (_ : run me s es = .ok s1), s1.call ≠ none
  | [], s, s1, _, h, _, hr => by rw [run] at hr; cases hr; exact h
  | e :: es, s, s1, hl, h, hin, hr => by
    rw [run] at hr
    cases hs : step me s e with
    | error u => rw [hs] at hr; cases hr
    | ok s2 =>
      rw [hs] at hr
      have key : s2.call = s.call := by
        cases e with
        | enter n => have := hin (.enter n) (by simp); cases this
        | leave => have := hin .leave (by simp); cases this
        | sys e =>
          simp only [step] at hs
          split_ifs at hs
          · cases hs; rfl
          · split at hs
            · cases hs
            · cases hs; rfl
        | sleep =>
          simp only [step] at hs
          split at hs
          · cases hs; rfl
          · split at hs
            · cases hs
            · cases hs; rfl
        | check =>
          simp only [step] at hs
          split at hs
          · cases hs; rfl
          · rename_i c hc
            have h1 : c.left = maxDelay := hl c hc
            have h2 : checkForTimeOut s c = (false, c) := by
              unfold checkForTimeOut
              simp only [if_pos h1]
            rw [h2] at hs
            simp only [Bool.false_eq_true, if_false] at hs
            split_ifs at hs
            · cases hs; rfl
            · cases hs; exact hc.symm
      exact C112_no_limit es (by rw [key]; exact hl) (by rw [key]; exact h) (fun x hx => hin x (by simp [hx])) hr

/-! ## Cases -/

/-- Three ticks before the counter wraps, task 1 calls with a limit of 5 ticks, sleeps, is woken by
an event after 2 ticks and finds nothing, sleeps again: awake after exactly 3 more. -/
def woken : List Ev :=
  [.enter 5, .check, .sleep, .sys .tick, .sys .tick, .sys (.event 1), .check, .sleep, .sys .tick, .sys .tick]

example : (match run 1 (start 4294967293) woken with
    | .ok s => decide (s.call = some ⟨0, 4294967295, 3⟩ ∧ s.d.tick = 1 ∧ s.ovf = 1 ∧ Delay.waiting s.d 1 = true)
    | .error _ => false) = true := by decide +kernel

def late : List Ev := woken ++ [.sys .tick, .check]

example : (match run 1 (start 4294967293) late with
    | .ok s => decide (s.call = none ∧ s.gaveUp = 1 ∧ Delay.waiting s.d 1 = false)
    | .error _ => false) = true := by decide +kernel

/-- The stream buffer's way: ticks between looking and sleeping are slept in addition. The call still
gives up when it looks, but it wakes up one tick late. -/
def drifting : List Ev :=
  [.enter 2, .sys .tick, .sleep, .sys .tick]

example : (match run 1 (start 0) drifting with
    | .ok s => decide (ticks drifting = 2 ∧ Delay.waiting s.d 1 = true)
    | .error _ => false) = true := by decide +kernel

/-- Beyond 2^32 ticks the check can be wrong: noted at tick 4294967290 of the first round, looked
at 2^32 + 10 ticks later, it sees 10. -/
example : checkForTimeOut ⟨⟨4, [], [], maxDelay, []⟩, 2, none, 0⟩ ⟨0, 4294967290, 20⟩ =
    (false, ⟨2, 4, 10⟩) := by decide +kernel

end Verif.TimeOut
