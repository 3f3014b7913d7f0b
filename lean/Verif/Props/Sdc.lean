import Verif.Spec.Sdc

set_option autoImplicit false

/-!
# Shutdown circuit: publication (C54) and agreement with the pins (C69)
-/

namespace Verif.Sdc

open Verif.SdcSpec

theorem upd_apply {α : Type} [DecidableEq α] (g : α → Bool) (a b : α) (v : Bool) :
    upd g a v b = if b = a then v else g b := rfl

theorem updateSdcInput_fst (c n : Bool) : (updateSdcInput c n).1 = n := by
  cases c <;> cases n <;> rfl

theorem updateSdcInput_snd (c n : Bool) : (updateSdcInput c n).2 = (c != n) := by
  cases c <;> cases n <;> rfl

theorem run_cons {order : List Field} {s s' : St} {e : Ev} {es : List Ev} :
    run order s (e :: es) = some s' ↔
      ∃ m, step order s e = some m ∧ run order m es = some s' := by
  show (step order s e).bind _ = _ ↔ _
  rw [Option.bind_eq_some_iff]

theorem run_append {order : List Field} : ∀ (a b : List Ev) (s : St),
    run order s (a ++ b) = (run order s a).bind fun m => run order m b
  | [], b, s => rfl
  | e :: a, b, s => by
    show (step order s e).bind _ = ((step order s e).bind _).bind _
    cases h : step order s e with
    | none => rfl
    | some m => exact run_append a b m

/-- A value still has to reach the published status, or is there already. -/
def Owed (s : St) (f : Field) : Prop :=
  s.published f = s.inputs f ∨ 0 < s.pending ∨ s.phase = .acquiring ∨
    (∃ rest, s.phase = .copying rest ∧ f ∈ rest) ∨ ∃ l, s.isr = some (l, true)

theorem owed_step {order : List Field} (ho : ∀ f, f ∈ order) {s s' : St} {e : Ev}
    (hw : s.pending < 2 ^ 32) (he : e ≠ .acquire false)
    (h : step order s e = some s') (f : Field) (hi : Owed s f) : Owed s' f := by
  unfold Owed at hi ⊢
  cases e with
  | pin g v => simp only [step, Option.some.injEq] at h; subst h; exact hi
  | imuPin v => simp only [step, Option.some.injEq] at h; subst h; exact hi
  | isrEnter l =>
    simp only [step] at h
    split at h
    · rename_i hc
      cases h
      rcases hi with a | a | a | a | ⟨l', a⟩
      · exact .inl a
      · exact .inr (.inl a)
      · exact .inr (.inr (.inl a))
      · exact .inr (.inr (.inr (.inl a)))
      · rw [hc.1] at a; cases a
    · cases h
  | isrRead g =>
    simp only [step] at h
    split at h
    · rename_i g' rest n hs
      split at h
      · rename_i hg
        cases h
        simp only [updateSdcInput_fst, updateSdcInput_snd, upd_apply]
        by_cases hc : s.inputs g = s.lvl g
        · rcases hi with a | a | a | a | ⟨l', a⟩
          · left; split
            · rename_i hfg; subst hfg; rw [← hc]; exact a
            · exact a
          · exact .inr (.inl a)
          · exact .inr (.inr (.inl a))
          · exact .inr (.inr (.inr (.inl a)))
          · rw [hs] at a; cases a
            exact .inr (.inr (.inr (.inr ⟨rest, rfl⟩)))
        · refine .inr (.inr (.inr (.inr ⟨rest, ?_⟩)))
          have : (s.inputs g != s.lvl g) = true := by simpa using hc
          rw [this, Bool.or_true]
      · cases h
    · cases h
  | isrExit =>
    simp only [step] at h
    split at h
    · rename_i n hs
      cases h
      rcases hi with a | a | a | a | ⟨l', a⟩
      · exact .inl a
      · right; left; dsimp only; split <;> omega
      · exact .inr (.inr (.inl a))
      · exact .inr (.inr (.inr (.inl a)))
      · rw [hs] at a; cases a
        right; left; simp
    · cases h
  | take =>
    simp only [step] at h
    split at h
    · rename_i hc
      rw [Nat.mod_eq_of_lt hw] at h
      split at h
      · cases h; exact .inr (.inr (.inl rfl))
      · rename_i hp
        cases h
        rcases hi with a | a | a | ⟨_, a, _⟩ | ⟨_, a⟩
        · exact .inl a
        · exact absurd a hp
        · rw [hc.2] at a; cases a
        · rw [hc.2] at a; cases a
        · rw [hc.1] at a; cases a
    · cases h
  | acquire ok =>
    simp only [step] at h
    split at h
    · cases h
      cases ok with
      | false => exact absurd rfl he
      | true => exact .inr (.inr (.inr (.inl ⟨order, rfl, ho f⟩)))
    · cases h
  | copy g =>
    simp only [step] at h
    split at h
    · rename_i hn
      split at h
      · rename_i g' rest hp
        split at h
        · rename_i hg
          cases h
          subst hg
          simp only [upd_apply]
          by_cases hf : f = g'
          · subst hf; left; simp
          · rcases hi with a | a | a | ⟨r, a, b⟩ | ⟨_, a⟩
            · left; rw [if_neg hf]; exact a
            · exact .inr (.inl a)
            · rw [hp] at a; cases a
            · rw [hp] at a; cases a
              rcases List.mem_cons.1 b with b | b
              · exact absurd b hf
              · exact .inr (.inr (.inr (.inl ⟨rest, rfl, b⟩)))
            · rw [hn] at a; cases a
        · cases h
      · cases h
    · cases h
  | release =>
    simp only [step] at h
    split at h
    · rename_i hc
      cases h
      rcases hi with a | a | a | ⟨r, a, b⟩ | ⟨_, a⟩
      · exact .inl a
      · exact .inr (.inl a)
      · rw [hc.2] at a; cases a
      · rw [hc.2] at a; cases a; cases b
      · rw [hc.1] at a; cases a
    · cases h

theorem owed_run {order : List Field} (ho : ∀ f, f ∈ order) (f : Field) :
    ∀ (es : List Ev) (s s' : St), Owed s f → Ev.acquire false ∉ es →
      (∀ pre m, pre <+: es → run order s pre = some m → m.pending < 2 ^ 32) →
      run order s es = some s' → Owed s' f
  | [], s, s', hi, _, _, h => by cases h; exact hi
  | e :: es, s, s', hi, ha, hw, h => by
    obtain ⟨m, h1, h2⟩ := run_cons.1 h
    refine owed_run ho f es m s' ?_ (fun x => ha (List.mem_cons_of_mem _ x)) ?_ h2
    · exact owed_step ho (hw [] s (List.nil_prefix) rfl)
        (fun x => ha (x ▸ List.mem_cons_self)) h1 f hi
    · intro pre k hp hk
      exact hw (e :: pre) k (List.cons_prefix_cons.2 ⟨rfl, hp⟩) (run_cons.2 ⟨m, h1, hk⟩)

/-- The stored inputs are the last values read, the levels the last levels driven. -/
theorem inputs_sampled {order : List Field} (f : Field) :
    ∀ (es : List Ev) (s s' : St), run order s es = some s' →
      s'.inputs f = sampled f (s.lvl f) (s.inputs f) es ∧ s'.lvl f = level f (s.lvl f) es
  | [], s, s', h => by cases h; exact ⟨rfl, rfl⟩
  | e :: es, s, s', h => by
    obtain ⟨m, h1, h2⟩ := run_cons.1 h
    obtain ⟨i1, i2⟩ := inputs_sampled f es m s' h2
    rw [i1, i2]
    clear i1 i2 h2 h
    cases e with
    | pin g v =>
      simp only [step, Option.some.injEq] at h1; subst h1
      simp only [sampled, level, upd_apply, eq_comm, and_self]
    | imuPin v => simp only [step, Option.some.injEq] at h1; subst h1; exact ⟨rfl, rfl⟩
    | isrRead g =>
      simp only [step] at h1
      split at h1
      · split at h1
        · rename_i hg
          cases h1
          simp only [sampled, level, upd_apply, updateSdcInput_fst]
          refine ⟨?_, trivial⟩
          congr 1
          by_cases hf : f = g
          · subst hf; simp
          · rw [if_neg hf, if_neg (Ne.symm hf)]
        · cases h1
      · cases h1
    | isrEnter l =>
      simp only [step] at h1
      split at h1 <;> cases h1
      exact ⟨rfl, rfl⟩
    | isrExit =>
      simp only [step] at h1
      split at h1 <;> cases h1
      exact ⟨rfl, rfl⟩
    | take =>
      simp only [step] at h1
      split at h1
      · split at h1 <;> cases h1 <;> exact ⟨rfl, rfl⟩
      · cases h1
    | acquire ok =>
      simp only [step] at h1
      split at h1 <;> cases h1
      exact ⟨rfl, rfl⟩
    | copy g =>
      simp only [step] at h1
      split at h1
      · split at h1
        · split at h1 <;> cases h1
          exact ⟨rfl, rfl⟩
        · cases h1
      · cases h1
    | release =>
      simp only [step] at h1
      split at h1 <;> cases h1
      exact ⟨rfl, rfl⟩

/-- **C54.** For every pin history, every interleaving of the handler with the task and every
order of copying the members: when the handler is not running, no notification is pending and
the task waits, each published value is the one last read from its pin. The lock waits without
limit, so its acquisition does not fail; the 32-bit notification count is assumed not to wrap
between two activations of the task. -/
theorem C54_published {order : List Field} (ho : ∀ f, f ∈ order) (lvl : Levels) (imu : Bool)
    (es : List Ev) (s : St) (h : run order (start lvl imu) es = some s)
    (hlock : Ev.acquire false ∉ es)
    (hwrap : ∀ pre m, pre <+: es → run order (start lvl imu) pre = some m → m.pending < 2 ^ 32)
    (hisr : s.isr = none) (hpend : s.pending = 0) (hidle : s.phase = .idle) (f : Field) :
    s.published f = sampled f (lvl f) false es := by
  have hi : Owed s f := owed_run ho f es _ s (.inl rfl) hlock hwrap h
  refine Eq.trans ?_ (inputs_sampled f es _ s h).1
  rcases hi with a | a | a | ⟨r, a, b⟩ | ⟨_, a⟩
  · exact a
  · omega
  · rw [hidle] at a; cases a
  · rw [hidle] at a; cases a
  · rw [hisr] at a; cases a

theorem copy_all {order : List Field} : ∀ (l : List Field) (s : St), s.isr = none →
    s.phase = .copying l →
    ∃ m, run order s (l.map .copy ++ [.release]) = some m ∧ m.isr = none ∧ m.phase = .idle ∧
      m.pending = s.pending ∧ m.exti = s.exti
  | [], s, hi, hp => by
    refine ⟨{ s with phase := .idle }, ?_, hi, rfl, rfl, rfl⟩
    simp [run, step, hi, hp]
  | f :: l, s, hi, hp => by
    obtain ⟨m, h1, h2⟩ := copy_all (order := order) l
      { s with published := upd s.published f (s.inputs f), phase := .copying l } hi rfl
    refine ⟨m, ?_, h2⟩
    rw [List.map_cons, List.cons_append, run_cons]
    refine ⟨_, ?_, h1⟩
    simp [step, hi, hp]

theorem one_pass {order : List Field} (s : St) (hi : s.isr = none)
    (hp : s.phase = .acquiring) :
    ∃ es m, run order s es = some m ∧ (∀ e ∈ es, IsTask e) ∧ m.isr = none ∧ m.phase = .idle ∧
      m.pending = s.pending ∧ m.exti = s.exti := by
  obtain ⟨m, h1, h2, h3, h4, h5⟩ := copy_all (order := order) order
    { s with phase := .copying order } hi rfl
  refine ⟨.acquire true :: (order.map .copy ++ [.release]), m, ?_, ?_, h2, h3, h4, h5⟩
  · rw [run_cons]
    exact ⟨_, by simp [step, hi, hp], h1⟩
  · intro e he
    simp only [List.mem_cons, List.mem_append, List.mem_map, List.not_mem_nil, or_false] at he
    rcases he with rfl | ⟨a, _, rfl⟩ | rfl <;> trivial

/-- **C54, progress.** Whenever the handler is not running, the task alone can bring the system
to rest by its own steps, whatever state the interleaving left it in. -/
theorem C54_settles {order : List Field} (s : St) (hi : s.isr = none)
    (hw : s.pending < 2 ^ 32) :
    ∃ es m, run order s es = some m ∧ (∀ e ∈ es, IsTask e) ∧
      m.isr = none ∧ m.pending = 0 ∧ m.phase = .idle := by
  have fromIdle : ∀ t : St, t.isr = none → t.pending < 2 ^ 32 → t.phase = .idle →
      ∃ es m, run order t es = some m ∧ (∀ e ∈ es, IsTask e) ∧
        m.isr = none ∧ m.pending = 0 ∧ m.phase = .idle := by
    intro t ht hw hp
    by_cases h0 : 0 < t.pending
    · obtain ⟨es, m, h1, h2, h3, h4, h5, _⟩ := one_pass (order := order)
        { t with pending := 0, phase := .acquiring } ht rfl
      refine ⟨.take :: es, m, ?_, ?_, h3, h5, h4⟩
      · rw [run_cons]
        refine ⟨_, ?_, h1⟩
        simp [step, ht, hp, Nat.mod_eq_of_lt hw, h0]
      · intro e he
        rcases List.mem_cons.1 he with rfl | he
        · trivial
        · exact h2 e he
    · exact ⟨[], t, rfl, by simp, ht, by omega, hp⟩
  have glue : ∀ (es : List Ev) (m : St), run order s es = some m → (∀ e ∈ es, IsTask e) →
      m.isr = none → m.phase = .idle → m.pending = s.pending →
      ∃ es m, run order s es = some m ∧ (∀ e ∈ es, IsTask e) ∧
        m.isr = none ∧ m.pending = 0 ∧ m.phase = .idle := by
    intro es m h1 h2 h3 h4 h5
    obtain ⟨es', m', g1, g2, g3⟩ := fromIdle m h3 (h5 ▸ hw) h4
    refine ⟨es ++ es', m', ?_, ?_, g3⟩
    · rw [run_append, h1]; exact g1
    · intro e he
      rcases List.mem_append.1 he with he | he
      · exact h2 e he
      · exact g2 e he
  cases hp : s.phase with
  | idle => exact fromIdle s hi hw hp
  | acquiring =>
    obtain ⟨es, m, h1, h2, h3, h4, h5, _⟩ := one_pass (order := order) s hi hp
    exact glue es m h1 h2 h3 h4 h5
  | copying l =>
    obtain ⟨m, h1, h2, h3, h4, _⟩ := copy_all (order := order) l s hi hp
    refine glue _ m h1 ?_ h2 h3 h4
    intro e he
    simp only [List.mem_append, List.mem_map, List.mem_cons, List.not_mem_nil, or_false] at he
    rcases he with ⟨a, _, rfl⟩ | rfl <;> trivial

/-! ## C69 -/

/-- Without a rising edge on any line nothing ever happens to a quiet system. -/
theorem quiet_stays {order : List Field} : ∀ (es : List Ev) (s s' : St),
    Quiet s → NoRise s.lvl s.imu es → run order s es = some s' →
      Quiet s' ∧ s'.published = s.published
  | [], s, s', hq, _, h => by cases h; exact ⟨hq, rfl⟩
  | e :: es, s, s', hq, hr, h => by
    obtain ⟨m, h1, h2⟩ := run_cons.1 h
    obtain ⟨q1, q2, q3, q4⟩ := hq
    cases e with
    | pin g v =>
      simp only [step, Option.some.injEq] at h1
      have ht : triggers (s.lvl g) v = false := by
        cases v with
        | false => simp [triggers]
        | true => simp [triggers, hr.1 rfl]
      subst h1
      obtain ⟨a, b⟩ := quiet_stays es _ s'
        (by exact ⟨by simpa [ht] using q1, q2, q3, q4⟩) (by exact hr.2) h2
      exact ⟨a, b⟩
    | imuPin v =>
      simp only [step, Option.some.injEq] at h1
      have ht : triggers s.imu v = false := by
        cases v with
        | false => simp [triggers]
        | true => simp [triggers, hr.1 rfl]
      subst h1
      obtain ⟨a, b⟩ := quiet_stays es _ s'
        (by exact ⟨by simpa [ht] using q1, q2, q3, q4⟩) (by exact hr.2) h2
      exact ⟨a, b⟩
    | isrEnter l => simp [step, q1] at h1
    | isrRead f => simp [step, q2] at h1
    | isrExit => simp [step, q2] at h1
    | take =>
      simp only [step, q2, q3, q4, Nat.zero_mod, Nat.lt_irrefl, if_false, and_self, if_true,
        Option.some.injEq] at h1
      subst h1
      obtain ⟨a, b⟩ := quiet_stays es _ s' (by exact ⟨q1, rfl, rfl, rfl⟩) (by exact hr) h2
      exact ⟨a, b⟩
    | acquire ok => simp [step, q4] at h1
    | copy f => simp [step, q4] at h1
    | release => simp [step, q4] at h1

/-- **C69 is false: falling changes are not noticed.** From every quiet state in which some input
is published as raised, after its pin goes low the published status keeps saying raised through
every continuation in which no line rises. -/
theorem C69_fall_unnoticed {order : List Field} (s : St) (hq : Quiet s) (f : Field)
    (hf : s.published f = true) (es : List Ev)
    (hr : NoRise (fun g => if g = f then false else s.lvl g) s.imu es) (s' : St)
    (h : run order s (.pin f false :: es) = some s') (hlow : level f false es = false) :
    s'.lvl f = false ∧ s'.published f = true := by
  constructor
  · rw [(inputs_sampled f _ s s' h).2]
    simpa [level] using hlow
  · rw [(quiet_stays (.pin f false :: es) s s' hq ⟨by simp, hr⟩ h).2]; exact hf

/-- **C69 is false: levels present at start-up are not noticed.** An input raised already when
the device is initialised is published as clear as long as no line rises. -/
theorem C69_startup_unnoticed {order : List Field} (lvl : Levels) (imu : Bool) (es : List Ev)
    (hr : NoRise lvl imu es) (s' : St) (h : run order (start lvl imu) es = some s')
    (f : Field) : s'.published f = false := by
  rw [(quiet_stays es (start lvl imu) s' ⟨fun _ => rfl, rfl, rfl, rfl⟩ hr h).2]; rfl

/-- What holds of the inputs once the last change was a rise: a line is pending, or every input
not about to be read agrees with its pin. -/
def Fresh (s : St) : Prop :=
  (∃ g, s.exti (.sdc g) = true) ∨
    ∀ f, (∀ rest n, s.isr = some (rest, n) → f ∉ rest) → s.inputs f = s.lvl f

theorem mem_readOrder (f : Field) : f ∈ readOrder := by cases f <;> decide

theorem fresh_run {order : List Field} : ∀ (es : List Ev) (s s' : St) (acc : Bool),
    (acc = true → Fresh s) → run order s es = some s' →
      LastRose s.lvl acc es = true → Fresh s'
  | [], s, s', acc, hf, h, hl => by cases h; exact hf hl
  | e :: es, s, s', acc, hf, h, hl => by
    obtain ⟨m, h1, h2⟩ := run_cons.1 h
    cases e with
    | pin g v =>
      simp only [step, Option.some.injEq] at h1
      subst h1
      refine fresh_run es _ s' _ ?_ h2 hl
      intro ha
      by_cases hv : v = s.lvl g
      · rw [if_pos hv] at ha
        have e1 : upd s.lvl g v = s.lvl := by
          funext k; rw [upd_apply]; split
          · rename_i hk; rw [hk]; exact hv
          · rfl
        have e2 : triggers (s.lvl g) v = false := by rw [hv]; cases s.lvl g <;> rfl
        rw [e1, e2]
        exact hf ha
      · rw [if_neg hv] at ha
        subst ha
        have : s.lvl g = false := by
          cases hl : s.lvl g with
          | false => rfl
          | true => exact absurd hl.symm hv
        refine .inl ⟨g, ?_⟩
        simp [this, triggers, upd_apply]
    | imuPin v =>
      simp only [step, Option.some.injEq] at h1
      subst h1
      refine fresh_run es _ s' acc ?_ h2 hl
      intro ha
      rcases hf ha with ⟨g, hg⟩ | hx
      · refine .inl ⟨g, ?_⟩
        dsimp only; split
        · simp [upd_apply, hg]
        · exact hg
      · exact .inr hx
    | isrEnter l =>
      simp only [step] at h1
      split at h1
      · rename_i hc
        cases h1
        refine fresh_run es _ s' acc ?_ h2 hl
        intro ha
        refine .inr fun f hn => ?_
        exact absurd (mem_readOrder f) (hn readOrder false rfl)
      · cases h1
    | isrRead g =>
      simp only [step] at h1
      split at h1
      · rename_i g' rest n hs
        split at h1
        · rename_i hg
          cases h1
          refine fresh_run es _ s' acc ?_ h2 hl
          intro ha
          rcases hf ha with hx | hx
          · exact .inl hx
          · refine .inr fun f hn => ?_
            simp only [upd_apply, updateSdcInput_fst]
            split
            · rename_i hfg; rw [hfg]
            · rename_i hfg
              refine hx f fun rest' n' hs' => ?_
              rw [hs] at hs'; cases hs'
              intro hm
              rcases List.mem_cons.1 hm with hm | hm
              · exact hfg (hm.trans hg)
              · exact hn rest _ rfl hm
        · cases h1
      · cases h1
    | isrExit =>
      simp only [step] at h1
      split at h1
      · rename_i n hs
        cases h1
        refine fresh_run es _ s' acc ?_ h2 hl
        intro ha
        rcases hf ha with hx | hx
        · exact .inl hx
        · refine .inr fun f _ => hx f fun rest' n' hs' => ?_
          rw [hs] at hs'; cases hs'; simp
      · cases h1
    | take =>
      simp only [step] at h1
      split at h1
      · split at h1 <;> cases h1 <;> exact fresh_run es _ s' acc (by exact hf) h2 (by exact hl)
      · cases h1
    | acquire ok =>
      simp only [step] at h1
      split at h1 <;> cases h1
      exact fresh_run es _ s' acc (by exact hf) h2 (by exact hl)
    | copy g =>
      simp only [step] at h1
      split at h1
      · split at h1
        · split at h1 <;> cases h1
          exact fresh_run es _ s' acc (by exact hf) h2 (by exact hl)
        · cases h1
      · cases h1
    | release =>
      simp only [step] at h1
      split at h1 <;> cases h1
      exact fresh_run es _ s' acc (by exact hf) h2 (by exact hl)

/-- **C69, the part that holds.** In every quiet state reached after a history whose last change
of a shutdown-circuit pin was a rise, every published value is the present level of its pin.
Missing: histories ending in a falling change, and levels present at start-up. -/
theorem C69_after_rise_partial {order : List Field} (ho : ∀ f, f ∈ order) (lvl : Levels)
    (imu : Bool) (es : List Ev) (s : St) (h : run order (start lvl imu) es = some s)
    (hlock : Ev.acquire false ∉ es)
    (hwrap : ∀ pre m, pre <+: es → run order (start lvl imu) pre = some m → m.pending < 2 ^ 32)
    (hrose : LastRose lvl false es = true) (hq : Quiet s) (f : Field) :
    s.published f = level f (lvl f) es := by
  obtain ⟨q1, q2, q3, q4⟩ := hq
  have hi := inputs_sampled f es _ s h
  refine (C54_published ho lvl imu es s h hlock hwrap q2 q3 q4 f).trans
    (Eq.trans (Eq.trans hi.1.symm ?_) hi.2)
  rcases fresh_run es (start lvl imu) s false (by simp) h hrose with ⟨g, hg⟩ | hx
  · rw [q1] at hg; cases hg
  · exact hx f fun rest n hs => by rw [q2] at hs; cases hs

/-! ## Cases -/

/-- The BMS pin rises, is read and published. -/
def raiseBms : List Ev :=
  [.pin .bms true, .isrEnter (.sdc .bms), .isrRead .bms, .isrRead .bspd, .isrRead .imd,
   .isrRead .out, .isrExit, .take, .acquire true, .copy .bms, .copy .bspd, .copy .imd,
   .copy .out, .release]

example : (run readOrder (start (fun _ => false) false) raiseBms).map
    (fun s => (s.published .bms, s.published .out, s.pending)) = some (true, false, 0) := by
  decide

/-- It falls again: never published. -/
example : (run readOrder (start (fun _ => false) false)
      (raiseBms ++ [.pin .bms false, .take])).map
    (fun s => (s.lvl .bms, s.published .bms)) = some (false, true) := by decide

/-- Until the second pass a reader can see a mixture: here the handler ran between the copies of
`bms` and `out`, both of which rose together. -/
example : (run readOrder (start (fun _ => false) false)
      ([.pin .imd true, .isrEnter (.sdc .imd), .isrRead .bms, .isrRead .bspd, .isrRead .imd,
        .isrRead .out, .isrExit, .take, .acquire true, .copy .bms, .pin .bms true, .pin .out true,
        .isrEnter (.sdc .bms), .isrRead .bms, .isrRead .bspd, .isrRead .imd, .isrRead .out,
        .isrExit, .copy .bspd, .copy .imd, .copy .out, .release])).map
    (fun s => (s.published .bms, s.published .out, s.pending)) = some (false, true, 1) := by
  decide

/-! ## C54: the lock -/

/-- The task holds the lock. -/
def holds (s : St) : Bool := match s.phase with
  | .copying _ => true
  | _ => false

/-- **C54, tearing.** For every interleaving: published values are written only while the lock of
the vehicle data is held, in particular not after a failed acquisition. -/
theorem C54_locked {order : List Field} : ∀ (es : List Ev) (s s' : St),
    run order s es = some s' → Locked (holds s) es
  | [], _, _, _ => by simp [Locked]
  | e :: es, s, s', h => by
    obtain ⟨m, h1, h2⟩ := run_cons.1 h
    have ih := C54_locked es m s' h2
    cases e with
    | pin g v => simp only [step, Option.some.injEq] at h1; subst h1; exact ih
    | imuPin v => simp only [step, Option.some.injEq] at h1; subst h1; exact ih
    | isrEnter l =>
      simp only [step] at h1
      split at h1 <;> cases h1
      exact ih
    | isrRead g =>
      simp only [step] at h1
      split at h1
      · split at h1 <;> cases h1
        exact ih
      · cases h1
    | isrExit =>
      simp only [step] at h1
      split at h1 <;> cases h1
      exact ih
    | take =>
      simp only [step] at h1
      split at h1
      · rename_i hc
        have e : holds s = false := by rw [holds, hc.2]
        show Locked (holds s) es
        rw [e]
        split at h1 <;> cases h1
        · exact ih
        · have e' : holds { s with pending := 0 } = false := by show holds s = false; exact e
          rwa [e'] at ih
      · cases h1
    | acquire ok =>
      simp only [step] at h1
      split at h1
      · rename_i hc
        cases h1
        refine ⟨by rw [holds, hc.2], ?_⟩
        cases ok <;> exact ih
      · cases h1
    | copy g =>
      simp only [step] at h1
      split at h1
      · split at h1
        · rename_i g' rest hp
          split at h1 <;> cases h1
          refine ⟨by rw [holds, hp], ?_⟩
          rw [holds, hp]
          exact ih
        · cases h1
      · cases h1
    | release =>
      simp only [step] at h1
      split at h1
      · rename_i hc
        cases h1
        exact ⟨by rw [holds, hc.2], ih⟩
      · cases h1

example : ¬ Locked false [.acquire false, .copy .bms] := by simp [Locked]

end Verif.Sdc
