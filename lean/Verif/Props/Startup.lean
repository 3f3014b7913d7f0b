import Verif.Model.Startup
import Verif.Model.Wheelspeed
import Mathlib.Tactic.ByContra

set_option autoImplicit false

/-!
# Start-up (C58, C70, C71, C72)
-/

namespace Verif.Startup

/-- Every hardware call succeeds. -/
def allOk : Hw → Bool := fun _ => true

/-- The calls are all in the sequence. -/
def hwOps : List Hw :=
  [.timStart, .logLock, .canFilter 0, .canFilter 1, .canFilter 2, .canStart 0, .canStart 1,
   .canStart 2, .canNotify 0, .canNotify 1, .canNotify 2, .adcStart]

theorem hw_mem (h : Hw) : h ∈ hwOps := by
  cases h with
  | timStart => decide
  | logLock => decide
  | canFilter b => revert b; decide
  | canStart b => revert b; decide
  | canNotify b => revert b; decide
  | adcStart => decide

theorem step_env (env : Hw → Bool) (s : St) (o : Op) :
    (∃ h, o = .hw h ∧ env h = false ∧ step env s o = none) ∨
      (step env s o = step allOk s o ∧ ∀ h, o = .hw h → env h = true) := by
  cases o with
  | hw h =>
    cases hh : env h with
    | false => exact .inl ⟨h, rfl, hh, by simp [step, hh]⟩
    | true => exact .inr ⟨by simp [step, hh, allOk], fun h' e => by cases e; exact hh⟩
  | _ => exact .inr ⟨rfl, fun h e => by cases e⟩

/-- The sequence under arbitrary hardware: it runs like the successful one up to the first failing
call, and stops there. -/
theorem exec_env (env : Hw → Bool) : ∀ (ops : List Op) (s : St),
    (exec env s ops = exec allOk s ops ∧
      ((exec allOk s ops).2 = true → ∀ h, Op.hw h ∈ ops → env h = true)) ∨
    ∃ pre h post, ops = pre ++ .hw h :: post ∧ env h = false ∧
      (exec allOk s pre).2 = true ∧ exec env s ops = ((exec allOk s pre).1, false)
  | [], s => .inl ⟨rfl, fun _ h hm => by cases hm⟩
  | o :: ops, s => by
    rcases step_env env s o with ⟨h, rfl, hf, hn⟩ | ⟨he, hh⟩
    · refine .inr ⟨[], h, ops, rfl, hf, rfl, ?_⟩
      simp [exec, hn]
    · cases hs : step allOk s o with
      | none =>
        refine .inl ⟨?_, ?_⟩
        · simp [exec, he, hs]
        · intro hc; simp [exec, hs] at hc
      | some s' =>
        have e1 : exec env s (o :: ops) = exec env s' ops := by simp [exec, he, hs]
        have e2 : ∀ l, exec allOk s (o :: l) = exec allOk s' l := fun l => by simp [exec, hs]
        rcases exec_env env ops s' with ⟨h1, h2⟩ | ⟨pre, h, post, hp, hf, hok, hx⟩
        · refine .inl ⟨by rw [e1, e2, h1], ?_⟩
          rw [e2]
          intro hc h hm
          rcases List.mem_cons.mp hm with rfl | hm
          · exact hh h rfl
          · exact h2 hc h hm
        · refine .inr ⟨o :: pre, h, post, by rw [hp]; rfl, hf, by rw [e2]; exact hok, ?_⟩
          rw [e1, e2, hx]

/-- The state after the whole sequence with working hardware. -/
def final : St := (exec allOk power boot).1

theorem boot_ok : exec allOk power boot = (final, true) := by
  have : (exec allOk power boot).2 = true := by decide +kernel
  exact Prod.ext rfl this

theorem hw_in_boot (h : Hw) : Op.hw h ∈ boot := by
  have : ∀ h ∈ hwOps, Op.hw h ∈ boot := by decide +kernel
  exact this h (hw_mem h)

/-- **C58, first half.** If every checked hardware call succeeds, the start-up completes: every
dependency check passes, all modules are registered with distinct nonzero ids, all ten tasks exist
and the eight periodic ones are on the timer (under distinct numbers). -/
theorem C58_completes (env : Hw → Bool) (h : ∀ x, env x = true) :
    ∃ s, exec env power boot = (s, true) ∧
      (∀ m : Mod, Depends.dependOn s.reg (idOf s m) = true) ∧
      (s.ids.map Prod.snd).Nodup ∧
      (∀ t : Task, t ∈ s.tasks) ∧
      TaskTimer.callback s.timer 2 = .ok
        ([Task.pc, .wheelspeed, .inverter, .bms, .discreteSense, .watchdog, .throttle,
          .stateManager].map Task.id) ∧
      ∀ a b : Task, a.id = b.id → a = b := by
  have he : env = allOk := funext h
  subst he
  refine ⟨final, boot_ok, ?_, ?_, ?_, ?_, ?_⟩
  · intro m; cases m <;> decide +kernel
  · decide +kernel
  · intro t; cases t <;> decide +kernel
  · decide +kernel
  · intro a b; cases a <;> cases b <;> decide

theorem step_tasks {env : Hw → Bool} {s s' : St} {o : Op} (h : step env s o = some s') :
    ∀ t ∈ s.tasks, t ∈ s'.tasks := by
  intro t ht
  cases o <;> simp only [step] at h <;> (try split at h) <;>
    first
      | (cases h; exact ht)
      | (cases h; exact List.mem_cons_of_mem _ ht)
      | cases h

theorem exec_tasks (env : Hw → Bool) : ∀ (ops : List Op) (s : St),
    ∀ t ∈ s.tasks, t ∈ (exec env s ops).1.tasks
  | [], _, _, ht => ht
  | o :: ops, s, t, ht => by
    unfold exec
    cases hs : step env s o with
    | none => exact ht
    | some s' => exact exec_tasks env ops s' t (step_tasks hs t ht)

theorem exec_append (env : Hw → Bool) : ∀ (a b : List Op) (s : St),
    (exec env s a).2 = true → exec env s (a ++ b) = exec env (exec env s a).1 b
  | [], _, _, _ => rfl
  | o :: a, b, s, h => by
    simp only [List.cons_append, exec] at h ⊢
    cases hs : step env s o with
    | none => rw [hs] at h; cases h
    | some s' =>
      rw [hs] at h
      exact exec_append env a b s' h

/-- The part of the sequence up to and including the last hardware call. -/
def hwPart : List Op := boot.take 54

theorem no_hw_after : ∀ h ∈ hwOps, Op.hw h ∉ boot.drop 54 := by decide +kernel

theorem hwPart_tasks : (exec allOk power hwPart).1.tasks = [.pc] := by decide +kernel

/-- A prefix that ends before a hardware call lies in `hwPart`. -/
theorem prefix_in_hwPart {pre post : List Op} {h : Hw} (e : boot = pre ++ .hw h :: post) :
    ∃ rest, hwPart = pre ++ rest := by
  have hl : pre.length < 54 := by
    by_contra hn
    have hd : boot.drop 54 = pre.drop 54 ++ .hw h :: post := by
      rw [e, List.drop_append_of_le_length (by omega)]
    exact no_hw_after h (hw_mem h) (by rw [hd]; simp)
  refine ⟨(Op.hw h :: post).take (54 - pre.length), ?_⟩
  unfold hwPart
  rw [e, List.take_append, List.take_of_length_le (by omega)]

theorem halted (env : Hw → Bool) (h : Hw) (hf : env h = false) :
    ∃ pre h' post, boot = pre ++ .hw h' :: post ∧ env h' = false ∧
      (exec allOk power pre).2 = true ∧
      exec env power boot = ((exec allOk power pre).1, false) := by
  rcases exec_env env boot power with ⟨_, h2⟩ | hx
  · have := h2 (by rw [boot_ok]) h (hw_in_boot h)
    rw [hf] at this
    cases this
  · exact hx

/-- **C58, second half.** If any checked hardware call fails, the start-up stops at the first such
call in the state the successful start-up has there: nothing of the rest is executed. No task
except the PC interface exists, and no task at all is ever scheduled, because the init task spins
at the highest priority. -/
theorem C58_fails_safe (env : Hw → Bool) (h : Hw) (hf : env h = false) :
    ∃ pre h' post s, boot = pre ++ .hw h' :: post ∧ env h' = false ∧
      exec allOk power pre = (s, true) ∧ exec env power boot = (s, false) ∧
      (∀ t ∈ s.tasks, t = .pc) ∧ ∀ t, ¬ mayRun s t := by
  obtain ⟨pre, h', post, e, hf', hok, hx⟩ := halted env h hf
  have ht : ∀ t ∈ (exec allOk power pre).1.tasks, t = .pc := by
    intro t ht
    obtain ⟨rest, hr⟩ := prefix_in_hwPart e
    have := exec_tasks allOk rest _ t ht
    rw [← exec_append allOk pre rest power hok, ← hr, hwPart_tasks] at this
    simpa using this
  refine ⟨pre, h', post, _, e, hf', Prod.ext rfl hok, hx, ht, ?_⟩
  rintro t ⟨hm, hp⟩
  rw [ht t hm] at hp
  exact absurd hp (by decide)

/-- The second CAN bus cannot be started: the PC interface task exists, the vehicle devices do
not. -/
example : let r := exec (fun h => decide (h ≠ .canStart 1)) power boot
    r.2 = false ∧ r.1.tasks = [.pc] ∧ r.1.ids.map Prod.fst = [.can, .pc, .crc, .uart, .taskTimer,
      .log] := by decide +kernel

/-! ## Interrupts during start-up -/

/-- States the start-up passes through, with their position. -/
def states : St → List Op → List St
  | s, [] => [s]
  | s, o :: os =>
    match step allOk s o with
    | none => [s]
    | some s' => s :: states s' os

/-- The start-up under `env` is in state `s` between two steps, or has stopped there. -/
def Reached (env : Hw → Bool) (s : St) : Prop :=
  ∃ pre post, boot = pre ++ post ∧ (exec env power pre).1 = s

theorem exec_mem_states : ∀ (pre post : List Op) (s : St),
    (exec allOk s pre).1 ∈ states s (pre ++ post)
  | [], post, s => by
    cases post with
    | nil => simp [exec, states]
    | cons o os =>
      simp only [exec, List.nil_append, states]
      split <;> simp
  | o :: pre, post, s => by
    simp only [exec, List.cons_append, states]
    cases hs : step allOk s o with
    | none => simp
    | some s' =>
      dsimp only
      exact List.mem_cons_of_mem _ (exec_mem_states pre post s')

theorem reached_mem {env : Hw → Bool} {s : St} (h : Reached env s) : s ∈ states power boot := by
  obtain ⟨pre, post, e, rfl⟩ := h
  rcases exec_env env pre power with ⟨h1, _⟩ | ⟨p, x, q, hp, _, _, hx⟩
  · rw [h1, e]; exact exec_mem_states pre post power
  · rw [hx, e, hp, List.append_assoc]; exact exec_mem_states p _ power

/-- What the handlers of timers, busses and ports rely on. -/
def safeB (s : St) : Bool :=
  (!s.timer.isInitialized ||
    match s.timer.timHandle with
    | none => false
    | some _ =>
      match TaskTimer.notifyLoop s.timer.tasks 0 s.timer.numTasks.toNat with
      | .error _ => false
      | .ok ts => decide (notify s ts = .ok ())) &&
  (!s.wheelReady || decide (Mod.wheelspeed ∈ s.buffers)) &&
  (s.canQueues.all fun q => decide (q.2 ∈ s.buffers)) &&
  (s.uartStreams.all fun q => decide (q.2 ∈ s.buffers))

theorem states_safe : ∀ s ∈ states power boot, safeB s = true := by decide +kernel

theorem send_ok {s : St} {ms : List Mod} (h : ∀ m ∈ ms, m ∈ s.buffers) : send s ms = .ok () := by
  unfold send
  rw [if_pos]
  simpa using h

/-- **C70 for timers, CAN and UART.** At every point of the start-up, whatever the hardware does,
an interrupt from any timer, CAN bus or serial port accesses nothing invalid, notifies only tasks
that exist and fills only buffers that exist. -/
theorem C70_others_partial (env : Hw → Bool) (s : St) (h : Reached env s) (i : Irq)
    (hi : ∀ a b c d, i ≠ .sdc a b c d) : handle s i = .ok () := by
  have hs := states_safe s (reached_mem h)
  unfold safeB at hs
  simp only [Bool.and_eq_true, List.all_eq_true, decide_eq_true_eq] at hs
  obtain ⟨⟨⟨h1, h2⟩, h3⟩, h4⟩ := hs
  cases i with
  | sdc a b c d => exact absurd rfl (hi a b c d)
  | timer n =>
    have hw : (if s.wheelReady = true ∧ n = 3 then send s [.wheelspeed] else .ok ()) =
        (.ok () : C Unit) := by
      split
      · rename_i hc
        rw [hc.1] at h2
        apply send_ok
        intro m hm
        simp only [List.mem_singleton] at hm
        subst hm
        simpa using h2
      · rfl
    have hn : ∃ ts, TaskTimer.callback s.timer n = .ok ts ∧ notify s ts = .ok () := by
      unfold TaskTimer.callback
      cases hinit : s.timer.isInitialized with
      | false => exact ⟨[], rfl, rfl⟩
      | true =>
        rw [hinit] at h1
        simp only [Bool.not_true, Bool.false_or] at h1
        simp only [Bool.not_true, Bool.false_eq_true, if_false]
        cases hh : s.timer.timHandle with
        | none => rw [hh] at h1; cases h1
        | some t =>
          rw [hh] at h1
          dsimp only at h1 ⊢
          split
          · cases hl : TaskTimer.notifyLoop s.timer.tasks 0 s.timer.numTasks.toNat with
            | error e => rw [hl] at h1; cases h1
            | ok ts => rw [hl] at h1; exact ⟨ts, rfl, by simpa using h1⟩
          · exact ⟨[], rfl, rfl⟩
    obtain ⟨ts, ht, hn⟩ := hn
    simp only [handle, ht, hn]
    exact hw
  | canRx b =>
    simp only [handle]
    split
    · apply send_ok
      intro m hm
      rw [List.mem_map] at hm
      obtain ⟨q, hq, rfl⟩ := hm
      exact h3 q (List.mem_filter.mp hq).1
    · rfl
  | uartRx d =>
    simp only [handle]
    split
    · apply send_ok
      intro m hm
      rw [List.mem_map] at hm
      obtain ⟨q, hq, rfl⟩ := hm
      exact h4 q (List.mem_filter.mp hq).1
    · rfl

/-- **C70 is false.** As long as the shutdown-circuit device has not been configured, which covers
the whole start-up up to that step and every failed start-up, an edge on any of its lines
dereferences a null pin, whatever the levels. -/
theorem C70_sdc_null (s : St) (h : s.sdcConfigured = false) (a b c d : Bool) :
    canOccur s (.sdc a b c d) ∧ handle s (.sdc a b c d) = .error .nullDeref :=
  ⟨trivial, by simp [handle, h]⟩

theorem exec_prefix_ok (env : Hw → Bool) : ∀ (a b : List Op) (s : St),
    (exec env s (a ++ b)).2 = true → (exec env s a).2 = true
  | [], _, _, _ => rfl
  | o :: a, b, s, h => by
    simp only [List.cons_append, exec] at h ⊢
    cases hs : step env s o with
    | none => rw [hs] at h; cases h
    | some s' =>
      rw [hs] at h
      exact exec_prefix_ok env a b s' h

theorem hwPart_unconfigured : ∀ s ∈ states power hwPart, s.sdcConfigured = false := by
  decide +kernel

/-- The hypothesis of `C70_sdc_null` holds throughout every failed start-up, including after it has
stopped. -/
theorem C70_sdc_null_reached (env : Hw → Bool) (h : Hw) (hf : env h = false) (s : St)
    (hr : Reached env s) : s.sdcConfigured = false := by
  obtain ⟨pre, post, e, rfl⟩ := hr
  have key : ∀ (p : List Op) (x : Hw) (q : List Op), boot = p ++ .hw x :: q →
      ∀ p' r, p = p' ++ r → (exec allOk power p').1.sdcConfigured = false := by
    intro p x q ep p' r er
    obtain ⟨rest, hrest⟩ := prefix_in_hwPart ep
    refine hwPart_unconfigured _ ?_
    rw [hrest, er, List.append_assoc]
    exact exec_mem_states p' _ power
  rcases exec_env env pre power with ⟨h1, h2⟩ | ⟨p, x, q, hp, _, _, hx⟩
  · have hpre : (exec allOk power pre).2 = true :=
      exec_prefix_ok allOk pre post power (by rw [← e, boot_ok])
    have hnot : Op.hw h ∉ pre := fun hm => by
      have := h2 hpre h hm
      rw [hf] at this
      cases this
    have hb := hw_in_boot h
    rw [e] at hb
    rcases List.mem_append.mp hb with hb | hb
    · exact absurd hb hnot
    · obtain ⟨a, b, rfl⟩ := List.append_of_mem hb
      rw [h1]
      exact key (pre ++ a) h b (by rw [e, List.append_assoc]) pre a rfl
  · rw [hx]
    exact key p x (q ++ post) (by rw [e, hp]; simp) p [] (by simp)

/-- In the step between the configuration and the creation of the task, an edge with any line high
notifies a task that does not exist. -/
theorem C70_sdc_no_task : ∃ pre post, boot = pre ++ .mkTask .sdc :: post ∧
    ∀ a b c d, (a || b || c || d) = true →
      handle (exec allOk power pre).1 (.sdc a b c d) = .error .assertFail := by
  refine ⟨boot.take (boot.idxOf (.mkTask .sdc)), boot.drop (boot.idxOf (.mkTask .sdc) + 1), ?_, ?_⟩
  · decide +kernel
  · decide +kernel

/-! ## The wheel speed timer -/

/-- What happens to the wheel speed module: a timer interrupt with the sensor levels at that
moment, or an activation of its task. -/
inductive WheelEv where
  | irq (inst : Nat) (front rear : Bool)
  | task (acquired : Bool)

/-- `MAPPING_TIMER_2KHZ` (deviceMapping.h 104): TIM3. -/
def wheelTimer : Nat := 3

/-- One event. -/
def wheelStep (w : Wheelspeed.St) : WheelEv → C Wheelspeed.St
  | .irq inst f r => .ok (Wheelspeed.sampleIsr w (decide (inst = wheelTimer)) f r)
  | .task acq => (Wheelspeed.tick w acq).map Prod.snd

/-- A history. -/
def wheelRun (w : Wheelspeed.St) : List WheelEv → C Wheelspeed.St
  | [] => .ok w
  | e :: es => match wheelStep w e with
    | .error u => .error u
    | .ok w' => wheelRun w' es

theorem states_timers : ∀ s ∈ states power boot, wheelTimer ∉ s.running := by decide +kernel

/-- No point of the start-up, failed or not, has the timer that drives wheel sensor sampling
running. Nothing starts a timer after start-up. -/
theorem C71_timer_never_runs (env : Hw → Bool) (s : St) (h : Reached env s) :
    ¬ canOccur s (.timer wheelTimer) :=
  states_timers s (reached_mem h)

/-- **C71 is false.** After the shipped start-up, whatever the wheels do, for ever: interrupts that
can occur leave the sample stream empty, and the published wheel speeds and counts keep the values
they had. -/
theorem C71_never_published (env : Hw → Bool) (s : St) (h : Reached env s) (teeth : UInt16)
    (p : WheelState) (es : List WheelEv)
    (hc : ∀ inst f r, .irq inst f r ∈ es → canOccur s (.timer inst)) :
    ∃ w, wheelRun (Wheelspeed.start teeth p) es = .ok w ∧ w.stream = [] ∧ w.published = p := by
  have key : ∀ (es : List WheelEv) (w : Wheelspeed.St), w.stream = [] → w.published = p →
      (∀ inst f r, .irq inst f r ∈ es → canOccur s (.timer inst)) →
      ∃ w', wheelRun w es = .ok w' ∧ w'.stream = [] ∧ w'.published = p := by
    intro es
    induction es with
    | nil => exact fun w h1 h2 _ => ⟨w, rfl, h1, h2⟩
    | cons e es ih =>
      intro w h1 h2 hc
      have hc' : ∀ inst f r, .irq inst f r ∈ es → canOccur s (.timer inst) :=
        fun i f r hm => hc i f r (List.mem_cons_of_mem _ hm)
      cases e with
      | irq inst f r =>
        have ho := hc inst f r List.mem_cons_self
        have hne : inst ≠ wheelTimer := fun e =>
          C71_timer_never_runs env s h (by rw [← e]; exact ho)
        have : wheelStep w (.irq inst f r) = .ok w := by
          simp [wheelStep, Wheelspeed.sampleIsr, hne]
        simp only [wheelRun, this]
        exact ih w h1 h2 hc'
      | task acq =>
        have : wheelStep w (.task acq) = .ok { w with counter := w.counter + 1 } := by
          obtain ⟨c, st, t, pub⟩ := w
          dsimp only at h1
          subst h1
          simp only [wheelStep, Wheelspeed.tick]
          split <;> simp [Except.map]
        simp only [wheelRun, this]
        exact ih _ h1 h2 hc'
  exact key es _ rfl rfl hc

/-- If the timer did interrupt, pulses would be published. -/
example : (wheelRun (Wheelspeed.start 1 ⟨0, 0, 0, 0⟩)
    [.irq 3 false false, .irq 3 true false, .task true]).map (fun w => w.published.wssCountFront) =
    .ok 1 := by decide +kernel

/-! ## Signalling of a failed start-up -/

/-- **C72 is false.** After a failed start-up the ECU error line keeps the level it had at
power-up for ever: every write of it comes from a task (the state machine or the PC interface), and
no task is ever scheduled. `writes` is the sequence of writes with the task that makes each. -/
theorem C72_not_signalled (env : Hw → Bool) (h : Hw) (hf : env h = false) (level : Bool)
    (writes : List (Task × Bool))
    (hw : ∀ w ∈ writes, mayRun (exec env power boot).1 w.1) :
    writes.foldl (fun _ w => w.2) level = level := by
  obtain ⟨_, _, _, s, _, _, _, hx, _, hn⟩ := C58_fails_safe env h hf
  rw [hx] at hw
  cases writes with
  | nil => rfl
  | cons w ws => exact absurd (hw w List.mem_cons_self) (hn w.1)

/-! ## Priorities -/

/-- The scheduler may select a task that asked for priority `p` while tasks that asked for the
priorities `ready` are ready: no ready task has a greater effective priority (FreeRTOS tasks.c
`taskSELECT_HIGHEST_PRIORITY_TASK`, time slicing among equals). -/
def maySelect (ready : List Nat) (p : Nat) : Prop := p ∈ ready ∧ ∀ q ∈ ready, clamp q ≤ clamp p

/-- **C89 is false.** Two tasks that asked for different priorities of at least 6 are time-sliced:
the one with the smaller priority may be selected while the other is ready. -/
theorem C89_collapse (p q : Nat) (hp : 6 ≤ p) (hpq : p < q) : maySelect [p, q] p := by
  refine ⟨by simp, ?_⟩
  intro r hr
  simp only [List.mem_cons, List.not_mem_nil, or_false] at hr
  unfold clamp maxPriorities
  rcases hr with rfl | rfl
  · exact Nat.le_refl _
  · split <;> split <;> omega

/-- C89 fails for tasks of the program: the watchdog task may run while the inverter task is ready,
and the watchdog task may run while start-up is still under way. -/
theorem C89_not :
    ¬ (∀ ready p, maySelect ready p → ∀ q ∈ ready, q ≤ p) ∧
    Task.watchdog.requested < Task.inverter.requested ∧
    maySelect [Task.watchdog.requested, Task.inverter.requested] Task.watchdog.requested ∧
    maySelect [Task.watchdog.requested, 15] Task.watchdog.requested := by
  refine ⟨fun h => ?_, by decide, C89_collapse _ _ (by decide) (by decide),
    C89_collapse _ _ (by decide) (by decide)⟩
  have := h [6, 7] 6 (C89_collapse 6 7 (by decide) (by decide)) 7 (by simp)
  omega

/-- C89 as far as it holds: whatever else is ready, a task that asked for a priority below 6 is
never selected while a task that asked for more is ready. Missing: priorities of at least 6
(`C89_collapse`). -/
theorem C89_partial (ready : List Nat) (p q : Nat) (hq : q ∈ ready) (hp : p < 6) (hpq : p < q) :
    ¬ maySelect ready p := by
  rintro ⟨_, h⟩
  have := h q hq
  unfold clamp maxPriorities at this
  split at this <;> split at this <;> omega

/-- The tasks below 6: throttle, state machine and PC interface yield to GPS and shutdown circuit,
and all of those to the five tasks above. -/
example : [Task.throttle, .stateManager, .pc].all (fun t => t.requested = 3) = true ∧
    [Task.gps, .sdc].all (fun t => t.requested = 4) = true ∧
    [Task.wheelspeed, .inverter, .bms, .discreteSense, .watchdog].all
      (fun t => t.priority = initPriority) = true := by decide

end Verif.Startup
