import Verif.Model.Ticks
import Verif.Proofs.Vsm
import Verif.Proofs.VsmTiming
import Mathlib.Tactic.ByContra

set_option autoImplicit false

/-!
# Periods counted by the timer and periods counted by a task (C94)
-/

namespace Verif.Ticks

variable {S I : Type}

/-- Timer periods in a history. -/
def periods : List (Ev I) → Nat
  | [] => 0
  | .notify :: es => periods es + 1
  | .run _ :: es => periods es

/-- What the body of the task is executed on: the passes that come after at least
one notification since the previous pass.  (`owed`: whether there has been one.) -/
def passes (owed : Bool) : List (Ev I) → List I
  | [] => []
  | .notify :: es => passes true es
  | .run i :: es => if owed then i :: passes false es else passes false es

theorem periods_append (a b : List (Ev I)) : periods (a ++ b) = periods a + periods b := by
  induction a with
  | nil => simp [periods]
  | cons e a ih => cases e <;> simp [periods, ih]; omega

/-- Fewer than 2^32 notifications are ever waiting. -/
def Bounded (c : Nat) : List (Ev I) → Prop
  | [] => True
  | .notify :: es => c + 1 < 2 ^ 32 ∧ Bounded (c + 1) es
  | .run _ :: es => Bounded 0 es

/-- The body runs once for each group of notifications, on the inputs of the pass
that follows the group. -/
theorem runs_passes (f : S → I → S) (s : St S) (es : List (Ev I))
    (hb : Bounded s.count.toNat es) :
    (runs f s es).body = (passes (s.count > 0) es).foldl f s.body := by
  induction es generalizing s with
  | nil => rfl
  | cons e es ih =>
    cases e with
    | notify =>
      obtain ⟨h1, h2⟩ := hb
      have hc : (s.count + 1).toNat = s.count.toNat + 1 := by
        rw [UInt32.toNat_add]; simp; omega
      show (runs f { s with count := s.count + 1 } es).body = _
      rw [ih _ (by rw [hc]; exact h2)]
      have : decide (s.count + 1 > 0) = true := by
        rw [decide_eq_true_eq, gt_iff_lt, UInt32.lt_iff_toNat_lt, hc]
        simp
      dsimp only [passes]
      rw [this]
    | run i =>
      show (runs f (step f s (.run i)) es).body = _
      by_cases hp : s.count > 0
      · have e1 : step f s (.run i) = { count := 0, body := f s.body i } := if_pos hp
        rw [e1, ih _ hb]
        simp [passes, hp]
      · have e1 : step f s (.run i) = s := if_neg hp
        have h0 : s.count = 0 := by
          apply UInt32.toNat_inj.1
          rw [gt_iff_lt, UInt32.lt_iff_toNat_lt] at hp
          simp at hp ⊢
          omega
        rw [e1, ih s (by rw [h0]; exact hb)]
        simp [passes, hp]

/-- The number of executions never exceeds the number of periods. -/
theorem passes_le (owed : Bool) (es : List (Ev I)) :
    (passes owed es).length ≤ periods es + owed.toNat := by
  induction es generalizing owed with
  | nil => simp [passes]
  | cons e es ih =>
    cases e with
    | notify =>
      have := ih true
      simp only [passes, periods]
      simp at this
      omega
    | run i =>
      have := ih false
      cases owed <;> simp [passes, periods] at this ⊢ <;> omega

/-- **C94** (at most one execution per period).  For every history that starts
with no notification waiting, the body of the task is executed at most as often
as the timer period elapsed. -/
theorem C94_at_most_one_per_period (f : S → I → S) (b : S) (es : List (Ev I))
    (hb : Bounded 0 es) :
    ∃ is : List I, (runs f ⟨0, b⟩ es).body = is.foldl f b ∧ is.length ≤ periods es := by
  refine ⟨passes false es, ?_, ?_⟩
  · have := runs_passes f ⟨0, b⟩ es hb
    simpa using this
  · simpa using passes_le false es

/-- **C94** (lost periods).  Any number of periods (up to 2^32 - 1) that elapse
before the task gets to run count as one. -/
theorem C94_lost (f : S → I → S) (s : St S) (k : Nat) (hk : 1 ≤ k)
    (hs : s.count.toNat + k < 2 ^ 32) (i : I) :
    runs f s (List.replicate k .notify ++ [.run i]) = runs f s [.notify, .run i] := by
  have h : ∀ k (s : St S), s.count.toNat + k < 2 ^ 32 →
      runs f s (List.replicate k .notify) = { s with count := s.count + UInt32.ofNat k } := by
    intro k
    induction k with
    | zero => intro s _; simp [runs]
    | succ k ih =>
      intro s hs
      show runs f (step f s .notify) (List.replicate k .notify) = _
      have hc : (s.count + 1).toNat = s.count.toNat + 1 := by
        rw [UInt32.toNat_add]; simp; omega
      rw [show step f s .notify = { s with count := s.count + 1 } from rfl,
        ih _ (by show (s.count + 1).toNat + k < _; rw [hc]; omega)]
      dsimp only
      congr 1
      apply UInt32.toNat_inj.1
      rw [UInt32.toNat_add, hc, UInt32.toNat_add, UInt32.toNat_ofNat', UInt32.toNat_ofNat']
      omega
  have hpos : ∀ k, 1 ≤ k → s.count.toNat + k < 2 ^ 32 → s.count + UInt32.ofNat k > 0 := by
    intro k h1 h2
    rw [gt_iff_lt, UInt32.lt_iff_toNat_lt, UInt32.toNat_add, UInt32.toNat_ofNat']
    simp
    omega
  have key : ∀ k, 1 ≤ k → s.count.toNat + k < 2 ^ 32 →
      runs f s (List.replicate k .notify ++ [.run i]) = ⟨0, f s.body i⟩ := by
    intro k h1 h2
    have e : runs f s (List.replicate k .notify ++ [.run i])
        = step f (runs f s (List.replicate k .notify)) (.run i) := by
      simp [runs, List.foldl_append]
    rw [e, h k s h2]
    exact if_pos (hpos k h1 h2)
  rw [key k hk hs]
  exact (key 1 (Nat.le_refl _) (by omega)).symm

/-- **C94** (exact when timely).  If the task runs once after each period, its
body is executed exactly once per period. -/
theorem C94_exact_partial (f : S → I → S) (b : S) (is : List I) :
    runs f ⟨0, b⟩ (is.flatMap fun i => [.notify, .run i]) = ⟨0, is.foldl f b⟩ := by
  induction is generalizing b with
  | nil => rfl
  | cons i is ih =>
    have e : step f (step f ⟨0, b⟩ .notify) (.run i) = ⟨0, f b i⟩ := by
      simp [step]
    show runs f (step f (step f ⟨0, b⟩ .notify) (.run i)) (is.flatMap fun i => [.notify, .run i]) = _
    rw [e, ih]
    rfl

/-! ## The delays of the state machine -/

open Vsm

/-- The tick counter grows by at most one per execution. -/
theorem ticks_le (w : World) (i : In) :
    (w.step i).vsm.ticksInState.toNat ≤ w.vsm.ticksInState.toNat + 1 := by
  have h : ∀ v : Vsm, (advance v).ticksInState.toNat ≤ v.ticksInState.toNat + 1 := by
    intro v
    unfold advance
    dsimp only
    split
    · simp
    · simp only [UInt32.toNat_add]
      exact Nat.mod_le _ _
  refine Nat.le_trans (h _) (Nat.le_of_eq ?_)
  have : (handle w.vsm i).1.ticksInState = w.vsm.ticksInState := by
    unfold handle
    split <;> first
      | rfl
      | (simp only [stateLvStartup, stateLvReady, stateHvActive, stateHvCharging,
          stateActiveNeutral, stateActiveForward]; repeat' split) <;> rfl
  rw [this]

theorem ticks_fold (w : World) (is : List In) :
    (is.foldl World.step w).vsm.ticksInState.toNat ≤ w.vsm.ticksInState.toNat + is.length := by
  induction is generalizing w with
  | nil => simp
  | cons i is ih =>
    have := ih (w.step i)
    have := ticks_le w i
    simp only [List.foldl_cons, List.length_cons]
    omega

theorem cfg_runs (tick wait timeout : UInt32) (ecu : Bool) (es : List (Ev In)) :
    (runs World.step ⟨0, .start tick wait timeout ecu⟩ es).body.vsm.tickRateMs = tick ∧
    (runs World.step ⟨0, .start tick wait timeout ecu⟩ es).body.vsm.hvActiveStateWait = wait ∧
    (runs World.step ⟨0, .start tick wait timeout ecu⟩ es).body.vsm.hvChargeTimeout = timeout ∧
    Stable (runs World.step ⟨0, .start tick wait timeout ecu⟩ es).body := by
  have gen : ∀ (es : List (Ev In)) (s : Ticks.St World), Stable s.body →
      (runs World.step s es).body.vsm.tickRateMs = s.body.vsm.tickRateMs ∧
      (runs World.step s es).body.vsm.hvActiveStateWait = s.body.vsm.hvActiveStateWait ∧
      (runs World.step s es).body.vsm.hvChargeTimeout = s.body.vsm.hvChargeTimeout ∧
      Stable (runs World.step s es).body := by
    intro es
    induction es with
    | nil => exact fun s hs => ⟨rfl, rfl, rfl, hs⟩
    | cons e es ih =>
      intro s hs
      cases e with
      | notify => exact ih { s with count := s.count + 1 } hs
      | run i =>
        by_cases hp : s.count > 0
        · have e1 : Ticks.step World.step s (.run i) = ⟨0, s.body.step i⟩ := if_pos hp
          have h := ih ⟨0, s.body.step i⟩ (stable_step _ _)
          have c := cfg_step s.body i
          rw [show runs World.step s (.run i :: es)
            = runs World.step (Ticks.step World.step s (.run i)) es from rfl, e1]
          exact ⟨h.1.trans c.1, h.2.1.trans c.2.1, h.2.2.1.trans c.2.2, h.2.2.2⟩
        · have e1 : Ticks.step World.step s (.run i) = s := if_neg hp
          rw [show runs World.step s (.run i :: es)
            = runs World.step (Ticks.step World.step s (.run i)) es from rfl, e1]
          exact ih s hs
  exact gen es _ (stable_start _ _ _ _)

theorem bounded_tail (c : Nat) (a b : List (Ev I)) (i : I)
    (h : Bounded c (a ++ .run i :: b)) : Bounded 0 b := by
  induction a generalizing c with
  | nil => exact h
  | cons e a ih => cases e with
    | notify => exact ih _ h.2
    | run j => exact ih _ h

theorem passes_snoc (o : Bool) (b : List (Ev I)) (j : I) :
    passes o (b ++ [.run j]) = passes o b ∨ passes o (b ++ [.run j]) = passes o b ++ [j] := by
  induction b generalizing o with
  | nil => cases o <;> simp [passes]
  | cons e b ih =>
    cases e with
    | notify => exact ih true
    | run i =>
      rcases ih false with h | h <;> cases o <;> simp [passes, h]

theorem runs_append (f : S → I → S) (s : St S) (a b : List (Ev I)) :
    runs f s (a ++ b) = runs f (runs f s a) b := by
  simp [runs, List.foldl_append]

/-- A state entered at a pass, still in force before a later pass, and left at
that pass: the executions in between, the last one included, are fewer than the
periods in between or equal. -/
theorem dwell (w : World) (x : Vsm.St) (a b : List (Ev In)) (i j : In)
    (hb : Bounded 0 (a ++ .run i :: (b ++ [.run j])))
    (h1 : (runs World.step ⟨0, w⟩ a).body.vsm.vsmState ≠ x)
    (h2 : (runs World.step ⟨0, w⟩ (a ++ [.run i])).body.vsm.vsmState = x)
    (h4 : (runs World.step ⟨0, w⟩ (a ++ [.run i] ++ b ++ [.run j])).body ≠
      (runs World.step ⟨0, w⟩ (a ++ [.run i] ++ b)).body) :
    (runs World.step ⟨0, w⟩ (a ++ [.run i] ++ b ++ [.run j])).body
      = (runs World.step ⟨0, w⟩ (a ++ [.run i] ++ b)).body.step j ∧
    (runs World.step ⟨0, w⟩ (a ++ [.run i] ++ b)).body.vsm.ticksInState.toNat + 1 ≤ periods b := by
  have hb' := bounded_tail _ _ _ _ hb
  have hb'' : Bounded 0 b := by
    have : ∀ (c : Nat) (b : List (Ev In)), Bounded c (b ++ [.run j]) → Bounded c b := by
      intro c b
      induction b generalizing c with
      | nil => intro _; trivial
      | cons e b ih => cases e with
        | notify => exact fun h => ⟨h.1, ih _ h.2⟩
        | run i => exact fun h => ih _ h
    exact this 0 b hb'
  have e2 : runs World.step ⟨0, w⟩ (a ++ [.run i])
      = step World.step (runs World.step ⟨0, w⟩ a) (.run i) := by
    rw [runs_append]; rfl
  have hc : (runs World.step ⟨0, w⟩ a).count > 0 := by
    by_contra hn
    rw [e2, show step World.step (runs World.step ⟨0, w⟩ a) (.run i) = _ from if_neg hn] at h2
    exact h1 h2
  have e3 : runs World.step ⟨0, w⟩ (a ++ [.run i])
      = ⟨0, (runs World.step ⟨0, w⟩ a).body.step i⟩ := e2.trans (if_pos hc)
  have ht : ((runs World.step ⟨0, w⟩ a).body.step i).vsm.ticksInState = 0 := by
    apply ticks_reset
    rw [e3] at h2
    intro he
    exact h1 (he.symm.trans h2)
  have r1 : (runs World.step ⟨0, w⟩ (a ++ [.run i] ++ b)).body
      = (passes false b).foldl World.step ((runs World.step ⟨0, w⟩ a).body.step i) := by
    rw [runs_append, e3, runs_passes World.step ⟨0, _⟩ b hb'']; simp
  have r2 : (runs World.step ⟨0, w⟩ (a ++ [.run i] ++ b ++ [.run j])).body
      = (passes false (b ++ [.run j])).foldl World.step
          ((runs World.step ⟨0, w⟩ a).body.step i) := by
    rw [show a ++ [Ev.run i] ++ b ++ [Ev.run j] = (a ++ [Ev.run i]) ++ (b ++ [Ev.run j]) by simp,
      runs_append, e3, runs_passes World.step ⟨0, _⟩ _ hb']; simp
  have hp := passes_le false (b ++ [.run j])
  rw [periods_append] at hp
  rcases passes_snoc false b j with h | h
  · exact absurd (by rw [r2, h, r1]) h4
  · rw [h, List.length_append] at hp
    have := ticks_fold ((runs World.step ⟨0, w⟩ a).body.step i) (passes false b)
    rw [ht] at this
    refine ⟨by rw [r2, h, List.foldl_append, ← r1]; rfl, ?_⟩
    rw [r1]
    simp [periods] at hp this
    omega

/-- **C97** (the HV wait is never shortened).  For every history of timer periods
and task executions, the time from entering HV_ACTIVE to leaving it for
HV_CHARGING spans more than `n` periods with `n` times the tick length at least
the configured wait.  No assumption on load or overflow of the product. -/
theorem C97_wait_never_early (tick wait timeout : UInt32) (ecu : Bool) (a b : List (Ev In))
    (i j : In) (hb : Bounded 0 (a ++ .run i :: (b ++ [.run j])))
    (h1 : (runs World.step ⟨0, .start tick wait timeout ecu⟩ a).body.vsm.vsmState ≠ .hvActive)
    (h2 : (runs World.step ⟨0, .start tick wait timeout ecu⟩ (a ++ [.run i])).body.vsm.vsmState
      = .hvActive)
    (h3 : (runs World.step ⟨0, .start tick wait timeout ecu⟩ (a ++ [.run i] ++ b)).body.vsm.vsmState
      = .hvActive)
    (h4 : (runs World.step ⟨0, .start tick wait timeout ecu⟩
      (a ++ [.run i] ++ b ++ [.run j])).body.vsm.vsmState = .hvCharging) :
    wait.toNat ≤ tick.toNat * (periods b - 1) := by
  obtain ⟨e1, e2⟩ := dwell _ .hvActive a b i j hb h1 h2
    (fun he => by rw [he, h3] at h4; exact absurd h4 (by decide))
  rw [e1] at h4
  have hcfg := cfg_runs tick wait timeout ecu (a ++ [.run i] ++ b)
  generalize runs World.step ⟨0, .start tick wait timeout ecu⟩ (a ++ [.run i] ++ b) = s at *
  have hw : wait ≤ tick * s.body.vsm.ticksInState := by
    by_contra hn
    rw [← hcfg.1, ← hcfg.2.1] at hn
    have : (s.body.step j).vsm.vsmState ≠ .hvCharging := by
      simp only [World.step, Vsm.step, handle, h3, stateHvActive]
      split
      · unfold advance
        dsimp only
        split <;> simp_all
      · unfold advance
        dsimp only
        have := hcfg.2.2.2
        split <;> simp_all [Stable]
    exact this h4
  rw [UInt32.le_iff_toNat_le, UInt32.toNat_mul] at hw
  calc wait.toNat ≤ tick.toNat * s.body.vsm.ticksInState.toNat := Nat.le_trans hw (Nat.mod_le _ _)
    _ ≤ tick.toNat * (periods b - 1) := Nat.mul_le_mul_left _ (by omega)

/-- **C97** (the charge timeout is never shortened).  Without a reported fault,
HV_CHARGING is left for FAULT only after more than `n` periods with `n` times the
tick length above the configured timeout. -/
theorem C97_timeout_never_early (tick wait timeout : UInt32) (ecu : Bool) (a b : List (Ev In))
    (i j : In) (hb : Bounded 0 (a ++ .run i :: (b ++ [.run j]))) (hj : j.fault = .noFault)
    (h1 : (runs World.step ⟨0, .start tick wait timeout ecu⟩ a).body.vsm.vsmState ≠ .hvCharging)
    (h2 : (runs World.step ⟨0, .start tick wait timeout ecu⟩ (a ++ [.run i])).body.vsm.vsmState
      = .hvCharging)
    (h3 : (runs World.step ⟨0, .start tick wait timeout ecu⟩ (a ++ [.run i] ++ b)).body.vsm.vsmState
      = .hvCharging)
    (h4 : (runs World.step ⟨0, .start tick wait timeout ecu⟩
      (a ++ [.run i] ++ b ++ [.run j])).body.vsm.vsmState = .fault) :
    timeout.toNat < tick.toNat * (periods b - 1) := by
  obtain ⟨e1, e2⟩ := dwell _ .hvCharging a b i j hb h1 h2
    (fun he => by rw [he, h3] at h4; exact absurd h4 (by decide))
  rw [e1] at h4
  have hcfg := cfg_runs tick wait timeout ecu (a ++ [.run i] ++ b)
  generalize runs World.step ⟨0, .start tick wait timeout ecu⟩ (a ++ [.run i] ++ b) = s at *
  have hw : timeout < tick * s.body.vsm.ticksInState := by
    by_contra hn
    rw [← hcfg.1, ← hcfg.2.2.1] at hn
    have : (s.body.step j).vsm.vsmState ≠ .fault := by
      have hst := hcfg.2.2.2
      have hn' : ¬ (s.body.vsm.tickRateMs * s.body.vsm.ticksInState > s.body.vsm.hvChargeTimeout) :=
        hn
      simp only [World.step, Vsm.step, handle, h3, stateHvCharging, hj, ne_eq, not_true_eq_false,
        if_false, if_neg hn']
      split
      · split
        · unfold advance; dsimp only; split <;> simp_all
        · unfold advance; dsimp only; split <;> simp_all [Stable]
      · unfold advance; dsimp only; split <;> simp_all [Stable]
    exact this h4
  rw [UInt32.lt_iff_toNat_lt, UInt32.toNat_mul] at hw
  calc timeout.toNat < tick.toNat * s.body.vsm.ticksInState.toNat :=
        Nat.lt_of_lt_of_le hw (Nat.mod_le _ _)
    _ ≤ tick.toNat * (periods b - 1) := Nat.mul_le_mul_left _ (by omega)

/-- Input of a healthy vehicle; `p`: button pressed. -/
def healthy (p : Bool) : In := ⟨.noFault, true, p, 0⟩

/-- Reaching HV_ACTIVE: three passes, the third with the button pressed. -/
def toHv : List (Ev In) :=
  [.notify, .run (healthy false), .notify, .run (healthy false), .notify, .run (healthy true)]

/-- **C94** (the delays are not met under load).  With a tick of 10 ms and a wait
of 20 ms, and for every number of periods `k` (below 2^32): a task that gets to
run only every `k` periods leaves HV_ACTIVE after `3 * k` periods. -/
theorem C94_not (k : Nat) (hk : 1 ≤ k) (hk' : k < 2 ^ 32) :
    ∃ b : List (Ev In), periods b = 3 * k ∧
      (runs World.step ⟨0, .start 10 20 7000 false⟩ (toHv ++ b)).body.vsm.vsmState = .hvActive ∧
      (runs World.step ⟨0, .start 10 20 7000 false⟩
        (toHv ++ b ++ [.run (healthy false)])).body.vsm.vsmState = .hvCharging := by
  let g : List (Ev In) := List.replicate k .notify
  have hper : ∀ k, periods (List.replicate k (.notify : Ev In)) = k := by
    intro k
    induction k with
    | zero => rfl
    | succ k ih => rw [List.replicate_succ]; simp [periods, ih]
  have one : ∀ s : Ticks.St World, s.count = 0 →
      runs World.step s (g ++ [.run (healthy false)])
        = runs World.step s [.notify, .run (healthy false)] := fun s hs =>
    C94_lost _ s k hk (by rw [hs]; simpa using hk') _
  refine ⟨(g ++ [.run (healthy false)]) ++ ((g ++ [.run (healthy false)]) ++ g), ?_, ?_, ?_⟩
  · simp only [periods_append, periods, g, hper]; omega
  · rw [runs_append, runs_append, one _ (by decide), runs_append, one _ (by decide)]
    have : ∀ (k : Nat) (s : Ticks.St World),
        (runs World.step s (List.replicate k .notify)).body = s.body := by
      intro k
      induction k with
      | zero => intro s; rfl
      | succ k ih => intro s; exact ih { s with count := s.count + 1 }
    rw [this]
    decide
  · rw [show toHv ++ ((g ++ [.run (healthy false)]) ++ ((g ++ [.run (healthy false)]) ++ g))
          ++ [.run (healthy false)]
        = toHv ++ ((g ++ [.run (healthy false)]) ++ ((g ++ [.run (healthy false)])
          ++ (g ++ [.run (healthy false)]))) by simp, runs_append, runs_append,
      one _ (by decide), runs_append,
      one (runs World.step (runs World.step ⟨0, .start 10 20 7000 false⟩ toHv)
        [.notify, .run (healthy false)]) (by decide), one _ (by decide)]
    decide

/-- The premises of `C97_wait_never_early` are met: three timely periods. -/
example :
    let b : List (Ev In) := [.notify, .run (healthy false), .notify, .run (healthy false), .notify]
    let w : Ticks.St World := ⟨0, .start 10 20 7000 false⟩
    ((runs World.step w (toHv.dropLast)).body.vsm.vsmState,
     (runs World.step w toHv).body.vsm.vsmState,
     (runs World.step w (toHv ++ b)).body.vsm.vsmState,
     (runs World.step w (toHv ++ b ++ [.run (healthy false)])).body.vsm.vsmState, periods b)
    = (.lvReady, .hvActive, .hvActive, .hvCharging, 3) := by
  decide

/-- A pass without a notification does nothing; three waiting notifications are
used up by one pass. -/
example :
    (runs (fun (n : Nat) (_ : Unit) => n + 1) ⟨0, 0⟩
      [.run (), .notify, .notify, .notify, .run (), .run ()]).body = 1 := by
  decide

end Verif.Ticks
