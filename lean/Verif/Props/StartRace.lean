import Verif.Model.StartRace
import Mathlib.Tactic.SplitIfs
import Mathlib.Tactic.ByContra
import Mathlib.Tactic.FinCases

set_option autoImplicit false

/-!
# C159: nothing is used before it is made, and start-up never waits

The init task creates tasks while they can already run, and two of them (PC interface and GPS) before the streams
they read from. That is safe only because the init task never waits, so that no task of lower priority gets the
processor before start-up is complete. Both are shown here for every interleaving of the init task, the tasks it
creates and the interrupts.
-/

namespace Verif.StartRace

open Startup (Task Op Hw Mod)

/-- The same steps as in the model of C58, with more detail. -/
theorem boot_startup :
    boot.filterMap (fun st => match st with | .op o => some o | _ => none) = Startup.boot := by
  decide +kernel

/-! ## What the program shows at each of its positions -/

/-- Objects made by a list of steps. -/
def makes (l : List Step) : List Obj := l.filterMap fun st => match st with | .make o => some o | _ => none

/-- Tasks created by a list of steps. -/
def creates (l : List Step) : List Task := l.filterMap fun st => match st with | .op (.mkTask t) => some t | _ => none

/-- The log is being written after these steps. -/
def locked (l : List Step) : Bool :=
  l.foldl (fun b st => match st with | .logTake => true | .logGive => false | _ => b) false

/-- The log goes to the serial stream after these steps. -/
def serialSet (l : List Step) : Bool := l.any fun st => decide (st = .op (.hw .logLock))

/-- At position `k`: the lock is free where it is taken, the stream exists where it is sent to, and tasks that may
run have what they use. -/
def Good (k : Nat) : Prop :=
  ((boot[k]? = some .logTake ∨ boot[k]? = some (.op (.hw .logLock))) → locked (boot.take k) = false) ∧
  (serialSet (boot.take k) = true → Obj.logStream ∈ makes (boot.take k)) ∧
  (∀ t ∈ creates (boot.take k), Startup.initPriority ≤ t.priority → ∀ o ∈ uses t, o ∈ makes (boot.take k))

instance (k : Nat) : Decidable (Good k) := by unfold Good; infer_instance

theorem good_all : ∀ k < boot.length + 1, Good k := by decide +kernel

/-- All tasks. -/
def tasks : List Task :=
  [.pc, .gps, .wheelspeed, .sdc, .inverter, .bms, .discreteSense, .watchdog, .throttle, .stateManager]

theorem mem_tasks (t : Task) : t ∈ tasks := by cases t <;> decide

theorem good_end : ∀ t ∈ tasks, ∀ o ∈ uses t, o ∈ makes boot := by decide +kernel

theorem unlocked_end : locked boot = false := by decide +kernel

theorem created_end : ∀ t ∈ tasks, t ∈ creates boot := by decide +kernel

theorem low_log : ∀ t ∈ tasks, Startup.initPriority ≤ t.priority → Lock.log ∉ locks t := by decide

theorem boot_pos : 0 < boot.length := by decide +kernel

/-! ## Invariant -/

attribute [local irreducible] boot

/-- While start-up goes on, after `k` of its steps. -/
structure Inv (s : St) (k : Nat) : Prop where
  le : k ≤ boot.length
  rest : s.rest = boot.drop k
  made : ∀ o, o ∈ s.made ↔ o ∈ makes (boot.take k)
  serial : s.serial = serialSet (boot.take k)
  mode : ∀ t, s.mode t ≠ .absent ↔ t ∈ creates (boot.take k)
  lost : s.lost = 0
  init : s.init = .goes ∨ s.init = .stuck ∨ (s.init = .done ∧ k = boot.length)
  log : s.init ≠ .done → s.holder .log = if locked (boot.take k) then some .init else none
  low : s.init ≠ .done → ∀ t : Task, t.priority < Startup.initPriority → ∀ l, s.holder l ≠ some (.task t)
  wants : ∀ t l, s.mode t = .wants l → l ∈ locks t
  fresh : s.init ≠ .done → ∀ t : Task, t.priority < Startup.initPriority → s.mode t = .absent ∨ s.mode t = .ready

theorem start_inv : Inv start 0 where
  le := Nat.zero_le _
  rest := rfl
  made o := by simp [start, makes]
  serial := rfl
  mode t := by simp [start, creates]
  lost := rfl
  init := .inl rfl
  log _ := rfl
  low _ t _ l := by simp [start]
  wants t l := by simp [start]
  fresh _ t _ := .inl rfl

/-- The step at `k`. -/
theorem at_step {k : Nat} {st : Step} {rest : List Step} (h : boot.drop k = st :: rest) :
    k < boot.length ∧ boot[k]? = some st ∧ rest = boot.drop (k + 1) ∧ boot.take (k + 1) = boot.take k ++ [st] := by
  have hk : k < boot.length := by
    by_contra hn
    rw [List.drop_eq_nil_of_le (Nat.le_of_not_lt hn)] at h
    cases h
  have hd := List.drop_eq_getElem_cons hk
  rw [hd] at h
  injection h with h1 h2
  refine ⟨hk, ?_, h2.symm, ?_⟩
  · rw [List.getElem?_eq_getElem hk, h1]
  · rw [List.take_succ_eq_append_getElem hk, h1]

theorem makes_append (l : List Step) (st : Step) :
    makes (l ++ [st]) = makes l ++ (match st with | .make o => [o] | _ => []) := by
  unfold makes
  rw [List.filterMap_append]
  cases st <;> rfl

theorem creates_append (l : List Step) (st : Step) :
    creates (l ++ [st]) = creates l ++ (match st with | .op (.mkTask t) => [t] | _ => []) := by
  unfold creates
  rw [List.filterMap_append]
  cases st with
  | op o => cases o <;> rfl
  | _ => rfl

theorem locked_append (l : List Step) (st : Step) :
    locked (l ++ [st]) = (match st with | .logTake => true | .logGive => false | _ => locked l) := by
  unfold locked
  rw [List.foldl_append]
  cases st <;> rfl

theorem serialSet_append (l : List Step) (st : Step) :
    serialSet (l ++ [st]) = (serialSet l || decide (st = .op (.hw .logLock))) := by
  unfold serialSet
  simp [List.any_append]

/-- A step of the init task that leaves everything but the position as it is. -/
theorem Inv.plain {s : St} {k : Nat} (h : Inv s k) (hg : s.init = .goes) {st : Step} {rest : List Step}
    (hr : boot.drop k = st :: rest)
    (h1 : makes (boot.take (k + 1)) = makes (boot.take k))
    (h2 : creates (boot.take (k + 1)) = creates (boot.take k))
    (h3 : locked (boot.take (k + 1)) = locked (boot.take k))
    (h4 : serialSet (boot.take (k + 1)) = serialSet (boot.take k)) :
    Inv { s with rest := rest } (k + 1) where
  le := (at_step hr).1
  rest := (at_step hr).2.2.1
  made o := by rw [h1]; exact h.made o
  serial := by rw [h4]; exact h.serial
  mode t := by rw [h2]; exact h.mode t
  lost := h.lost
  init := .inl hg
  log hd := by rw [h3]; exact h.log hd
  low hd := h.low hd
  wants := h.wants
  fresh hd := h.fresh hd

/-- A step of the init task goes on or ends in its error loop. -/
theorem init_inv {s : St} {k : Nat} (h : Inv s k) (hg : s.init = .goes) (hw : Bool) {st : Step} {rest : List Step}
    (hr : boot.drop k = st :: rest) :
    ∃ s', initStep s hw st rest = .ok s' ∧ ((s'.init = .goes ∧ Inv s' (k + 1)) ∨ (hw = false ∧ s'.init = .stuck ∧ Inv s' k)) := by
  obtain ⟨hk, hat, hrest, htake⟩ := at_step hr
  obtain ⟨g1, g2, -⟩ := good_all k (Nat.lt_succ_of_lt hk)
  have hnd : s.init ≠ .done := by rw [hg]; simp
  have m := makes_append (boot.take k) st
  have c := creates_append (boot.take k) st
  have l := locked_append (boot.take k) st
  have se := serialSet_append (boot.take k) st
  rw [← htake] at m c l se
  have hlog := h.log hnd
  cases st with
  | make o =>
    refine ⟨_, rfl, .inl ⟨hg, ?_⟩⟩
    refine ⟨hk, hrest, fun p => ?_, ?_, fun t => ?_, h.lost, .inl hg, fun hd => ?_, h.low, h.wants, h.fresh⟩
    · rw [m]
      simp only [List.mem_cons, List.mem_append, h.made p, List.not_mem_nil, or_false]
      exact Or.comm
    · rw [se]; simpa using h.serial
    · rw [c]; simpa using h.mode t
    · rw [l]; exact h.log hd
  | logTake =>
    rw [g1 (.inl hat)] at hlog
    simp only [Bool.false_eq_true, if_false] at hlog
    refine ⟨{ hold s .log (some .init) with rest := rest }, by simp [initStep, hlog], .inl ⟨hg, ?_⟩⟩
    refine ⟨hk, hrest, fun p => ?_, ?_, fun t => ?_, h.lost, .inl hg, fun hd => ?_, fun hd t ht q => ?_, h.wants, h.fresh⟩
    · rw [m]; simpa [hold] using h.made p
    · rw [se]; simpa [hold] using h.serial
    · rw [c]; simpa [hold] using h.mode t
    · rw [l]; simp [hold]
    · show (if q = Lock.log then some Who.init else s.holder q) ≠ _
      split_ifs
      · simp
      · exact h.low hnd t ht q
  | logSend =>
    refine ⟨{ s with rest := rest }, ?_, .inl ⟨hg, ?_⟩⟩
    · simp only [initStep]
      split_ifs with h1 h2
      · rfl
      · exact absurd ((h.made _).2 (g2 (h.serial ▸ h1))) h2
      · rfl
    · exact h.plain hg hr (by simpa using m) (by simpa using c) (by simpa using l) (by simpa using se)
  | logGive =>
    refine ⟨_, rfl, .inl ⟨hg, ?_⟩⟩
    refine ⟨hk, hrest, fun p => ?_, ?_, fun t => ?_, h.lost, .inl hg, fun hd => ?_, fun hd t ht q => ?_, h.wants, h.fresh⟩
    · rw [m]; simpa [hold] using h.made p
    · rw [se]; simpa [hold] using h.serial
    · rw [c]; simpa [hold] using h.mode t
    · rw [l]; simp [hold]
    · show (if q = Lock.log then none else s.holder q) ≠ _
      split_ifs
      · simp
      · exact h.low hnd t ht q
  | op o =>
    have hplain : (∀ t, o ≠ .mkTask t) → o ≠ .hw .logLock → Inv { s with rest := rest } (k + 1) := by
      intro hn hl
      refine h.plain hg hr (by simpa using m) ?_ (by simpa using l) ?_
      · rw [c]
        cases o with
        | mkTask t => exact absurd rfl (hn t)
        | _ => simp
      · rw [se]
        have : decide (Step.op o = Step.op (.hw .logLock)) = false := by simpa using hl
        rw [this, Bool.or_false]
    cases o with
    | mkTask t =>
      refine ⟨_, rfl, .inl ⟨hg, ?_⟩⟩
      refine ⟨hk, hrest, fun p => ?_, ?_, fun u => ?_, h.lost, .inl hg, fun hd => ?_, h.low, fun u q hu => ?_,
        fun hd u hu => ?_⟩
      · rw [m]; simpa [put] using h.made p
      · rw [se]; simpa [put] using h.serial
      · rw [c]
        show (if u = t then Mode.ready else s.mode u) ≠ .absent ↔ _
        simp only [List.mem_append, List.mem_singleton]
        by_cases hut : u = t
        · simp [hut]
        · simp only [hut, if_false, or_false]; exact h.mode u
      · rw [l]; exact h.log hd
      · have hu' : (if u = t then Mode.ready else s.mode u) = .wants q := hu
        split_ifs at hu' with he
        exact h.wants u q hu'
      · show (if u = t then Mode.ready else s.mode u) = .absent ∨ (if u = t then Mode.ready else s.mode u) = .ready
        split_ifs with he
        · exact .inr rfl
        · exact h.fresh hnd u hu
    | hw x =>
      by_cases hx : x = .logLock
      · subst hx
        rw [g1 (.inr hat)] at hlog
        simp only [Bool.false_eq_true, if_false] at hlog
        refine ⟨{ s with rest := rest, serial := true }, by simp [initStep, hlog], .inl ⟨hg, ?_⟩⟩
        refine ⟨hk, hrest, fun p => ?_, ?_, fun t => ?_, h.lost, .inl hg, fun hd => ?_, h.low, h.wants, h.fresh⟩
        · rw [m]; simpa using h.made p
        · rw [se]; simp
        · rw [c]; simpa using h.mode t
        · rw [l]; exact h.log hd
      · have e : initStep s hw (.op (.hw x)) rest =
            if hw then .ok { s with rest := rest } else .ok { s with init := .stuck } := by
          cases x <;> first | exact absurd rfl hx | rfl
        rw [e]
        cases hw with
        | true => exact ⟨_, rfl, .inl ⟨hg, hplain (by simp) (by simpa using hx)⟩⟩
        | false =>
          refine ⟨_, rfl, .inr ⟨rfl, rfl, ?_⟩⟩
          exact ⟨h.le, h.rest, h.made, h.serial, h.mode, h.lost, .inr (.inl rfl), fun _ => h.log hnd,
            fun _ => h.low hnd, h.wants, fun _ => h.fresh hnd⟩
    | _ => exact ⟨_, rfl, .inl ⟨hg, hplain (by simp) (by simp)⟩⟩

/-- The lower tasks do not run during start-up. -/
theorem Inv.notRun {s : St} {k : Nat} (h : Inv s k) (hd : s.init ≠ .done) {t : Task}
    (ht : t.priority < Startup.initPriority) : ¬ MayRun s t := by
  rintro ⟨-, hr⟩
  have : initReady s = true := by
    rcases h.init with e | e | e
    · simp [initReady, e]
    · simp [initReady, e]
    · exact absurd e.1 hd
  rcases hr this with h1 | ⟨l, h1⟩
  · exact absurd h1 (Nat.not_le.2 ht)
  · exact h.low hd t ht l h1

/-- A task that runs has everything it uses. -/
theorem Inv.has {s : St} {k : Nat} (h : Inv s k) {t : Task} (hr : MayRun s t) {o : Obj} (ho : o ∈ uses t) :
    o ∈ s.made := by
  rw [h.made]
  by_cases hd : s.init = .done
  · have hk : k = boot.length := by
      rcases h.init with e | e | e
      · rw [e] at hd; cases hd
      · rw [e] at hd; cases hd
      · exact e.2
    rw [hk, List.take_length]
    exact good_end t (mem_tasks t) o ho
  · have hp : Startup.initPriority ≤ t.priority := by
      by_contra hn
      exact h.notRun hd (Nat.lt_of_not_le hn) hr
    have hc : t ∈ creates (boot.take k) := (h.mode t).1 (by rw [hr.1]; simp)
    exact (good_all k (Nat.lt_succ_of_le h.le)).2.2 t hc hp o ho

/-- Changing the holder of a lock that is not the log's to a task of high priority or to nobody, or, after start-up,
any. -/
theorem Inv.held {s : St} {k : Nat} (h : Inv s k) (l : Lock) (w : Option Who)
    (hw : s.init ≠ .done → l ≠ .log ∧ ∀ t : Task, w = some (.task t) → Startup.initPriority ≤ t.priority) :
    Inv (hold s l w) k where
  le := h.le
  rest := h.rest
  made := h.made
  serial := h.serial
  mode := h.mode
  lost := h.lost
  init := h.init
  log hd := by
    show (if Lock.log = l then w else s.holder .log) = _
    rw [if_neg (Ne.symm (hw hd).1)]
    exact h.log hd
  low hd t ht q := by
    show (if q = l then w else s.holder q) ≠ _
    split_ifs
    · intro e
      exact absurd ((hw hd).2 t e) (Nat.not_le.2 ht)
    · exact h.low hd t ht q
  wants := h.wants
  fresh hd := h.fresh hd

/-- Changing the mode of a task that exists. -/
theorem Inv.moded {s : St} {k : Nat} (h : Inv s k) (t : Task) (m : Mode) (hm : m ≠ .absent) (ht : s.mode t ≠ .absent)
    (hw : ∀ l, m = .wants l → l ∈ locks t)
    (hl : s.init ≠ .done → m = .ready ∨ Startup.initPriority ≤ t.priority) : Inv (put s t m) k where
  le := h.le
  rest := h.rest
  made := h.made
  serial := h.serial
  mode u := by
    show (if u = t then m else s.mode u) ≠ .absent ↔ _
    split_ifs with e
    · subst e
      exact ⟨fun _ => (h.mode u).1 ht, fun _ => hm⟩
    · exact h.mode u
  lost := h.lost
  init := h.init
  log := h.log
  low := h.low
  wants u q hu := by
    have hu' : (if u = t then m else s.mode u) = .wants q := hu
    split_ifs at hu' with e
    · subst e; exact hw q hu'
    · exact h.wants u q hu'
  fresh hd u hu := by
    show (if u = t then m else s.mode u) = .absent ∨ (if u = t then m else s.mode u) = .ready
    split_ifs with e
    · subst e
      rcases hl hd with h1 | h1
      · exact .inr h1
      · exact absurd h1 (Nat.not_le.2 hu)
    · exact h.fresh hd u hu

/-- A running task of high priority is not about to use the log. -/
theorem Inv.notLog {s : St} {k : Nat} (h : Inv s k) {t : Task} (hr : MayRun s t) {l : Lock} (hl : l ∈ locks t)
    (hd : s.init ≠ .done) : l ≠ .log ∧ Startup.initPriority ≤ t.priority := by
  have hp : Startup.initPriority ≤ t.priority := by
    by_contra hn
    exact h.notRun hd (Nat.lt_of_not_le hn) hr
  exact ⟨fun e => low_log t (mem_tasks t) hp (e ▸ hl), hp⟩

theorem act_inv {s : St} {k : Nat} (h : Inv s k) {t : Task} (hr : MayRun s t) {a : Act} (ha : inCode t a = true) :
    ∃ s', taskStep s t a = .ok s' ∧ Inv s' k ∧ s'.init = s.init := by
  have hp : s.init ≠ .done → Startup.initPriority ≤ t.priority := fun hd => by
    by_contra hn
    exact h.notRun hd (Nat.lt_of_not_le hn) hr
  have hne : s.mode t ≠ .absent := by rw [hr.1]; simp
  cases a with
  | use o =>
    have ho : o ∈ uses t := by simpa [inCode] using ha
    exact ⟨s, by simp [taskStep, h.has hr ho], h, rfl⟩
  | take l =>
    have hl : l ∈ locks t := by simpa [inCode] using ha
    cases hh : s.holder l with
    | none =>
      refine ⟨hold s l (some (.task t)), by simp [taskStep, hh], ?_, rfl⟩
      refine h.held l _ fun hd => ⟨(h.notLog hr hl hd).1, fun u hu => ?_⟩
      cases hu
      exact hp hd
    | some w =>
      refine ⟨put s t (.wants l), by simp [taskStep, hh], ?_, rfl⟩
      refine h.moded t _ (by simp) hne (fun q hq => ?_) (fun hd => .inr (hp hd))
      cases hq
      exact hl
  | give l =>
    have hl : l ∈ locks t := by simpa [inCode] using ha
    simp only [taskStep]
    split_ifs
    · refine ⟨_, rfl, ?_, rfl⟩
      exact h.held l _ fun hd => ⟨(h.notLog hr hl hd).1, fun u hu => by cases hu⟩
    · exact ⟨_, rfl, h, rfl⟩
  | sleep =>
    refine ⟨_, rfl, ?_, rfl⟩
    exact h.moded t _ (by simp) hne (fun q hq => by cases hq) (fun hd => .inr (hp hd))

/-- A step keeps the invariant; the init task moves on with each of its own steps and stops only if the hardware
fails. -/
theorem step_inv {s : St} {k : Nat} (h : Inv s k) (e : Ev) :
    ∃ s' k', step s e = .ok s' ∧ Inv s' k' ∧
      ((e ≠ .init true ∧ e ≠ .init false → k' = k ∧ s'.init = s.init) ∧
       (e = .init true → s.init = .goes →
         (k < boot.length → k' = k + 1 ∧ s'.init = .goes) ∧ (k = boot.length → s'.init = .done)) ∧
       (s.init = .done → s'.init = .done)) := by
  cases e with
  | init hw =>
    by_cases hg : s.init = .goes
    · cases hr : s.rest with
      | nil =>
        have hk : k = boot.length := by
          have := h.rest
          rw [hr] at this
          have := List.drop_eq_nil_iff.1 this.symm
          exact Nat.le_antisymm h.le this
        refine ⟨{ s with init := .done }, k, by simp [step, hg, hr], ?_, ?_, ?_, ?_⟩
        · exact ⟨h.le, h.rest, h.made, h.serial, h.mode, h.lost, .inr (.inr ⟨rfl, hk⟩), fun hd => absurd rfl hd,
            fun hd => absurd rfl hd, h.wants, fun hd => absurd rfl hd⟩
        · intro hn; cases hw <;> simp at hn
        · exact fun _ _ => ⟨fun hl => absurd hk (Nat.ne_of_lt hl), fun _ => rfl⟩
        · exact fun _ => rfl
      | cons st rest =>
        have hdr : boot.drop k = st :: rest := by rw [← h.rest, hr]
        obtain ⟨s', e1, h1⟩ := init_inv h hg hw hdr
        have e2 : step s (.init hw) = .ok s' := by
          simp only [step, hg, if_true, hr]; exact e1
        have hk := (at_step hdr).1
        rcases h1 with ⟨h2, h3⟩ | ⟨h2, h3, h4⟩
        · refine ⟨s', k + 1, e2, h3, ?_, ?_, ?_⟩
          · intro hn; cases hw <;> simp at hn
          · exact fun _ _ => ⟨fun _ => ⟨rfl, h2⟩, fun hl => absurd hl (Nat.ne_of_lt hk)⟩
          · intro hd; rw [hg] at hd; cases hd
        · refine ⟨s', k, e2, h4, ?_, ?_, ?_⟩
          · intro hn; cases hw <;> simp at hn
          · intro he; rw [h2] at he; cases he
          · intro hd; rw [hg] at hd; cases hd
    · refine ⟨s, k, by simp [step, hg], h, ?_, ?_, ?_⟩
      · exact fun _ => ⟨rfl, rfl⟩
      · exact fun _ hg' => absurd hg' hg
      · exact fun hd => hd
  | expire =>
    have hn : s.init ≠ .wants := by rcases h.init with e | e | e <;> simp [e]
    exact ⟨s, k, by simp [step, hn], h, fun _ => ⟨rfl, rfl⟩, fun he => (by cases he), fun hd => hd⟩
  | resume =>
    have hn : s.init ≠ .wants := by rcases h.init with e | e | e <;> simp [e]
    exact ⟨s, k, by simp [step, hn], h, fun _ => ⟨rfl, rfl⟩, fun he => (by cases he), fun hd => hd⟩
  | act t a =>
    by_cases hc : MayRun s t ∧ inCode t a = true
    · obtain ⟨s', e1, h1, h2⟩ := act_inv h hc.1 hc.2
      refine ⟨s', k, ?_, h1, fun _ => ⟨rfl, h2⟩, fun he => (by cases he), fun hd => by rw [h2]; exact hd⟩
      simp only [step]
      rw [if_pos hc]
      exact e1
    · refine ⟨s, k, ?_, h, fun _ => ⟨rfl, rfl⟩, fun he => (by cases he), fun hd => hd⟩
      simp only [step]
      rw [if_neg hc]
  | wake t =>
    by_cases hc : s.mode t = .asleep
    · refine ⟨put s t .ready, k, by simp [step, hc], ?_, fun _ => ⟨rfl, rfl⟩, fun he => (by cases he), fun hd => hd⟩
      exact h.moded t _ (by simp) (by rw [hc]; simp) (fun q hq => by cases hq) (fun _ => .inl rfl)
    · exact ⟨s, k, by simp [step, hc], h, fun _ => ⟨rfl, rfl⟩, fun he => (by cases he), fun hd => hd⟩
  | handOver t =>
    cases hm : s.mode t with
    | wants l =>
      have hl := h.wants t l hm
      have hne : s.mode t ≠ .absent := by rw [hm]; simp
      have hp : s.init ≠ .done → Startup.initPriority ≤ t.priority := fun hd => by
        by_contra hn
        rcases h.fresh hd t (Nat.lt_of_not_le hn) with e | e <;> rw [hm] at e <;> cases e
      by_cases hh : s.holder l = none
      · refine ⟨put (hold s l (some (.task t))) t .ready, k, by simp [step, hm, hh], ?_, fun _ => ⟨rfl, rfl⟩,
          fun he => (by cases he), fun hd => hd⟩
        have h1 : Inv (hold s l (some (.task t))) k := by
          refine h.held l _ fun hd => ⟨fun e => low_log t (mem_tasks t) (hp hd) (e ▸ hl), fun u hu => ?_⟩
          cases hu
          exact hp hd
        exact h1.moded t _ (by simp) hne (fun q hq => by cases hq) (fun _ => .inl rfl)
      · exact ⟨s, k, by simp [step, hm, hh], h, fun _ => ⟨rfl, rfl⟩, fun he => (by cases he), fun hd => hd⟩
    | _ => exact ⟨s, k, by simp [step, hm], h, fun _ => ⟨rfl, rfl⟩, fun he => (by cases he), fun hd => hd⟩

theorem run_inv (evs : List Ev) {s : St} {k : Nat} (h : Inv s k) : ∃ s' k', run s evs = .ok s' ∧ Inv s' k' := by
  induction evs generalizing s k with
  | nil => exact ⟨s, k, rfl, h⟩
  | cons e es ih =>
    obtain ⟨s1, k1, e1, h1, -⟩ := step_inv h e
    obtain ⟨s2, k2, e2, h2⟩ := ih h1
    refine ⟨s2, k2, ?_, h2⟩
    show (step s e >>= fun s' => es.foldlM step s') = _
    rw [e1]
    exact e2

/-! ## C159 -/

/-- **In every interleaving of start-up, tasks and interrupts, with every answer of the hardware, nothing is used
before it has been made.** -/
theorem C159_made_before_used (evs : List Ev) : ∃ s, run start evs = .ok s := by
  obtain ⟨s, -, e, -⟩ := run_inv evs start_inv
  exact ⟨s, e⟩

/-- **Start-up never waits for a task, and none of its messages is given up**: the init task is going on, or in its
error loop, or has finished. -/
theorem C159_never_waits (evs : List Ev) (s : St) (h : run start evs = .ok s) : s.init ≠ .wants ∧ s.lost = 0 := by
  obtain ⟨s', k, e, hi⟩ := run_inv evs start_inv
  rw [e] at h
  cases h
  exact ⟨by rcases hi.init with e | e | e <;> simp [e], hi.lost⟩

/-- **The tasks below the init task's priority (PC interface, GPS, shutdown circuit, throttle and state manager) do
not run before start-up is complete**; if it fails they never do. A task that runs exists. -/
theorem C159_lower_tasks_wait (evs : List Ev) (s : St) (h : run start evs = .ok s) (t : Task)
    (ht : t ∈ [Task.pc, .gps, .sdc, .throttle, .stateManager]) (hr : MayRun s t) : s.init = .done := by
  obtain ⟨s', k, e, hi⟩ := run_inv evs start_inv
  rw [e] at h
  cases h
  by_contra hd
  refine hi.notRun hd ?_ hr
  fin_cases ht <;> decide

/-- **When start-up is complete everything that any task uses is there and all ten tasks exist.** -/
theorem C159_complete (evs : List Ev) (s : St) (h : run start evs = .ok s) (hd : s.init = .done) (t : Task) :
    s.mode t ≠ .absent ∧ ∀ o ∈ uses t, o ∈ s.made := by
  obtain ⟨s', k, e, hi⟩ := run_inv evs start_inv
  rw [e] at h
  cases h
  have hk : k = boot.length := by
    rcases hi.init with e | e | e
    · rw [e] at hd; cases hd
    · rw [e] at hd; cases hd
    · exact e.2
  constructor
  · rw [hi.mode t, hk, List.take_length]
    exact created_end t (mem_tasks t)
  · intro o ho
    rw [hi.made, hk, List.take_length]
    exact good_end t (mem_tasks t) o ho

theorem run_progress (evs : List Ev) {s : St} {k : Nat} (h : Inv s k) (hg : s.init = .goes ∨ s.init = .done)
    (hn : Ev.init false ∉ evs) (hc : boot.length + 1 ≤ k + evs.count (.init true) ∨ s.init = .done) :
    ∃ s', run s evs = .ok s' ∧ s'.init = .done := by
  induction evs generalizing s k with
  | nil =>
    refine ⟨s, rfl, ?_⟩
    rcases hc with hc | hc
    · have := h.le
      simp only [List.count_nil] at hc
      omega
    · exact hc
  | cons e es ih =>
    obtain ⟨s1, k1, e1, h1, p1, p2, p3⟩ := step_inv h e
    have hn' : Ev.init false ∉ es := fun h => hn (List.mem_cons_of_mem _ h)
    have hne : e ≠ .init false := fun h => hn (by rw [h]; exact List.mem_cons_self)
    have key : (s1.init = .goes ∨ s1.init = .done) ∧
        (boot.length + 1 ≤ k1 + es.count (.init true) ∨ s1.init = .done) := by
      by_cases hd : s.init = .done
      · exact ⟨.inr (p3 hd), .inr (p3 hd)⟩
      · have hg' : s.init = .goes := hg.resolve_right hd
        have hc' := hc.resolve_right hd
        by_cases he : e = .init true
        · obtain ⟨q1, q2⟩ := p2 he hg'
          rcases Nat.lt_or_ge k boot.length with hk | hk
          · obtain ⟨r1, r2⟩ := q1 hk
            refine ⟨.inl r2, .inl ?_⟩
            rw [he, List.count_cons_self] at hc'
            omega
          · have hd1 := q2 (Nat.le_antisymm h.le hk)
            exact ⟨.inr hd1, .inr hd1⟩
        · obtain ⟨q1, q2⟩ := p1 ⟨he, hne⟩
          refine ⟨.inl (q2.trans hg'), .inl ?_⟩
          rw [List.count_cons_of_ne he] at hc'
          omega
    obtain ⟨s2, e2, h2⟩ := ih h1 key.1 hn' key.2
    refine ⟨s2, ?_, h2⟩
    show (step s e >>= fun s' => es.foldlM step s') = _
    rw [e1]
    exact e2

/-- **Start-up is complete as soon as the init task has had the processor for its own steps**, whatever the tasks
and the interrupts do in between, if no hardware call fails. -/
theorem C159_completes (evs : List Ev) (hn : Ev.init false ∉ evs)
    (hc : boot.length + 1 ≤ evs.count (.init true)) : ∃ s, run start evs = .ok s ∧ s.init = .done :=
  run_progress evs start_inv (.inl rfl) hn (.inl (by omega))

/-- **The order matters: if the init task had to wait between the creation of the GPS task and of its stream, the
task would use a stream that does not exist.** The same for the PC interface. -/
theorem C159_order_matters (s : St) (t : Task) (ht : s.mode t = .ready) (hi : s.init = .wants) (o : Obj)
    (ho : o ∈ uses t) (hm : o ∉ s.made) : step s (.act t (.use o)) = .error .assertFail := by
  have hr : MayRun s t := ⟨ht, by simp [initReady, hi]⟩
  simp only [step]
  rw [if_pos ⟨hr, by simpa [inCode] using ho⟩]
  simp [taskStep, hm]

/-- There are positions at which the GPS task exists and its stream does not. -/
example : ∃ k, Task.gps ∈ creates (boot.take k) ∧ Obj.gpsStream ∉ makes (boot.take k) := by
  refine ⟨(boot.findIdx (· == .op (.mkTask .gps))) + 1, ?_, ?_⟩ <;> decide +kernel

/-- The wheel speed task may run as soon as it is created, beside the init task. -/
example (s : St) (h : s.mode .wheelspeed = .ready) : MayRun s .wheelspeed := ⟨h, fun _ => .inl (by decide)⟩

/-- The PC interface may not. -/
example (s : St) (h : s.init = .goes) (hl : ∀ l, s.holder l = none) : ¬ MayRun s .pc := by
  rintro ⟨-, hr⟩
  rcases hr (by simp [initReady, h]) with h1 | ⟨l, h1⟩
  · exact absurd h1 (by decide)
  · rw [hl l] at h1; cases h1

end Verif.StartRace
