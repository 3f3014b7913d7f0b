import Verif.Model.Throttle
import Verif.Props.TorqueMap

set_option autoImplicit false

/-!
# C14, C15, C62: the throttle task
-/

namespace Verif.Throttle
open F32 InvDrv

/-! ## Range of the maps over all floats -/

theorem interp_forward_bounds (a : F32) (ha : IsFloat a) :
    ∃ v, interpolate mapForward a = fin v ∧ 0 ≤ v ∧ v ≤ 500 := by
  by_cases h : (fin 0).le a = true ∧ a.le (fin 1) = true
  · cases a with
    | fin q =>
      simp only [le_fin, decide_eq_true_eq] at h
      exact C13_forward_range q ha h.1 h.2
    | nan => simp [F32.le] at h
    | pinf => simp [F32.le] at h
    | ninf => simp [F32.le] at h
  · exact ⟨0, (C13_zero_outside a h).1, by norm_num, by norm_num⟩

theorem interp_reverse_bounds (a : F32) (ha : IsFloat a) :
    ∃ v, interpolate mapReverse a = fin v ∧ 0 ≤ v ∧ v ≤ 75 + 1/2^17 := by
  by_cases h : (fin 0).le a = true ∧ a.le (fin 1) = true
  · cases a with
    | fin q =>
      simp only [le_fin, decide_eq_true_eq] at h
      obtain ⟨v, h1, h2, h3⟩ := C13_reverse_range_partial q ha h.1 h.2
      exact ⟨v, h1, h2, h3⟩
    | nan => simp [F32.le] at h
    | pinf => simp [F32.le] at h
    | ninf => simp [F32.le] at h
  · exact ⟨0, (C13_zero_outside a h).2, by norm_num, by norm_num⟩

theorem magnitude_bounds (s : Thr) (a : F32) (ha : IsFloat a) :
    ∃ v, getTorqueMagnitude s a = fin v ∧ 0 ≤ v ∧ v ≤ 500 := by
  unfold getTorqueMagnitude
  split_ifs
  · exact ⟨0, rfl, by norm_num, by norm_num⟩
  · exact interp_forward_bounds a ha
  · obtain ⟨v, h1, h2, h3⟩ := interp_reverse_bounds a ha
    exact ⟨v, h1, h2, h3.trans (by norm_num)⟩
  · exact ⟨0, rfl, by norm_num, by norm_num⟩

theorem torqueToMsg_small {v : ℚ} (h0 : 0 ≤ v) (h1 : v ≤ 500) :
    ∃ m, torqueToMsg (fin v) = .ok m ∧ 0 ≤ m ∧ m ≤ 5000 := by
  have e10 : F32.round 10 = fin 10 := by decide +kernel
  have hr : (F32.round 10).mul (fin v) = fin (rnd (10 * v)) := by
    rw [e10, mul_fin, round_eq]
    rw [abs_le]; constructor <;> norm_num <;> linarith
  have a : 0 ≤ rnd (10 * v) := rnd_nonneg (by linarith)
  have b : rnd (10 * v) ≤ 5000 := by
    have := rnd_le_int (x := 10 * v) (n := 5000) (by norm_num) (by push_cast; linarith)
    simpa using this
  have ht : trunc (rnd (10 * v)) = ⌊rnd (10 * v)⌋ := by unfold trunc; rw [if_pos a]
  have f0 : 0 ≤ ⌊rnd (10 * v)⌋ := Int.floor_nonneg.mpr a
  have f1 : ⌊rnd (10 * v)⌋ ≤ 5000 := by
    have : (⌊rnd (10 * v)⌋ : ℚ) ≤ 5000 := (Int.floor_le _).trans b
    exact_mod_cast this
  refine ⟨⌊rnd (10 * v)⌋, ?_, f0, f1⟩
  unfold torqueToMsg
  rw [hr]
  simp only [toInt16?, ht]
  rw [if_pos (by constructor <;> omega)]

/-- C14, value of the request: on every activation the requested torque is zero
when torque is disabled or the vehicle state could not be read, and otherwise
the map value of the accelerator for the current direction. -/
theorem C14_requested_torque (s : Thr) (accel : Option F32) :
    ((s.enabled = false ∨ accel = none) → (tick s accel).torque = fin 0) ∧
    (∀ a, s.enabled = true → accel = some a → s.direction = 1 →
      (tick s accel).torque = interpolate mapForward a) ∧
    (∀ a, s.enabled = true → accel = some a → s.direction = 0 →
      (tick s accel).torque = interpolate mapReverse a) ∧
    (tick s accel).direction = s.direction := by
  refine ⟨?_, ?_, ?_, rfl⟩
  · rintro (h | h)
    · simp [tick, getTorqueMagnitude, h]
    · subst h
      have z : interpolate mapForward (fin 0) = fin 0 ∧ interpolate mapReverse (fin 0) = fin 0 :=
        C13_dead_zone _ (by decide +kernel) (by decide +kernel)
      simp only [tick, getTorqueMagnitude, Option.getD_none, z.1, z.2, ite_self]
  · rintro a h1 rfl h3
    simp [tick, getTorqueMagnitude, h1, h3, FORWARD]
  · rintro a h1 rfl h3
    simp [tick, getTorqueMagnitude, h1, h3, FORWARD, REVERSE]

example : (tick ⟨true, FORWARD⟩ (some (fin 1))).torque = fin 500 := by decide +kernel

/-- C14, representability: for every accelerator value, including NaN and the
infinities, the request is a number in `[0, 500]` Nm, the inverter driver never
rejects it as out of range, the call never reaches undefined behaviour, and
any frame it puts on the bus carries a 16-bit torque between 0 and 5000. -/
theorem C14_always_representable (s : Thr) (accel : Option F32)
    (ha : ∀ a, accel = some a → IsFloat a) (c : Cmd) (e : Env) :
    (∃ v, (tick s accel).torque = fin v ∧ 0 ≤ v ∧ v ≤ 500) ∧
    ∃ r, requestMotorTorque c e (tick s accel) = .ok r ∧ r.status ≠ .errorValue ∧
      ∀ f ∈ r.sent, f.bytes[0].toNat + 256 * f.bytes[1].toNat ≤ 5000 := by
  have hf : IsFloat (accel.getD (fin 0)) := by
    cases accel with
    | none => exact ⟨rnd_zero, by norm_num⟩
    | some a => exact ha a rfl
  obtain ⟨v, hv, h0, h1⟩ := magnitude_bounds s _ hf
  have ht : (tick s accel).torque = fin v := hv
  refine ⟨⟨v, ht, h0, h1⟩, ?_⟩
  obtain ⟨m, hm, m0, m1⟩ := torqueToMsg_small h0 h1
  have hmax : maxTorque = fin (13421363/4096) := by decide +kernel
  have c1 : ((fin v).lt (fin 0) || (fin v).gt maxTorque) = false := by
    rw [hmax, lt_fin, gt_fin, Bool.or_eq_false_iff]
    constructor <;> rw [decide_eq_false_iff_not] <;> intro h
    · linarith
    · norm_num at h; linarith
  unfold requestMotorTorque sendTorqueCommand
  rw [ht, c1]
  simp only [Bool.false_eq_true, if_false]
  split_ifs with l1 l2
  · exact ⟨_, rfl, by simp, by simp⟩
  · exact ⟨_, rfl, by simp, by simp⟩
  · refine ⟨⟨c, [⟨0x0C0, commandBytes m (tick s accel).direction true false, e.can 0⟩],
      if e.can 0 then .ok else .errorCan⟩, ?_, ?_, ?_⟩
    · simp only [sendCANCommand, hm]; rfl
    · dsimp only; split_ifs <;> simp
    · intro f hf'
      rw [List.mem_singleton] at hf'
      subst hf'
      have e1 : (m % 65536).toNat ≤ 5000 := by omega
      simp only [commandBytes]
      change (UInt8.ofNat _).toNat + 256 * (UInt8.ofNat _).toNat ≤ 5000
      rw [UInt8.toNat_ofNat', UInt8.toNat_ofNat']
      omega

/-- A NaN accelerator with torque enabled gives a zero request. -/
example : (tick ⟨true, FORWARD⟩ (some .nan)).torque = fin 0 := by decide +kernel

/-! ## C15: disabling torque while the throttle task runs -/

/-- A schedule contains no re-enable. -/
def NoEnable (es : List Ev) : Prop := ∀ e ∈ es, ∀ b, e = .setEnabled b → b = false

/-- The strict claim: in every schedule, after a completed disable (and no later
enable), every request is zero. -/
def NoTorqueAfterDisable : Prop :=
  ∀ before after : List Ev, NoEnable after →
    ∀ r ∈ (run (run Sys.init (before ++ [.setEnabled false])).1 after).2, r.torque = fin 0

/-- The strict claim is false: the task reads `enabled`, is preempted, the
disable completes, and the task then issues the torque it computed. -/
theorem C15_late_request_possible : ¬ NoTorqueAfterDisable := by
  intro h
  have := h [.setEnabled true, .task (some (fin 1)), .task none] [.task none, .task none]
    (by intro e he b hb
        simp only [List.mem_cons, List.not_mem_nil, or_false, or_self] at he
        subst he; cases hb)
    ⟨fin 500, FORWARD⟩ (by decide +kernel)
  revert this; decide

/-- The task holds no torque computed from an earlier `enabled = true`. -/
def Pc.quiet : Pc → Prop
  | .idle | .gotAccel _ => True
  | .sawEnabled _ | .notForward _ => False
  | .computed t => t = fin 0

theorem quiet_run (es : List Ev) : ∀ s : Sys, s.thr.enabled = false → s.pc.quiet → NoEnable es →
    ∀ r ∈ (run s es).2, r.torque = fin 0 := by
  induction es with
  | nil => intro s _ _ _ r hr; simp [run] at hr
  | cons e es ih =>
    intro s hs hq hn r hr
    have hn' : NoEnable es := fun x hx => hn x (List.mem_cons_of_mem _ hx)
    have key : (step s e).1.thr.enabled = false ∧ (step s e).1.pc.quiet ∧
        ∀ r ∈ (step s e).2, r.torque = fin 0 := by
      cases e with
      | setEnabled b =>
        have := hn _ (List.mem_cons_self ..) b rfl
        subst this
        exact ⟨rfl, hq, by simp [step]⟩
      | setDirection d => exact ⟨hs, hq, by simp [step]⟩
      | task accel =>
        rcases s with ⟨thr, pc⟩
        cases pc with
        | idle => exact ⟨hs, trivial, by simp [step]⟩
        | gotAccel a =>
          have hs' : thr.enabled = false := hs
          simp [step, hs', Pc.quiet]
        | sawEnabled a => exact absurd hq (by simp [Pc.quiet])
        | notForward a => exact absurd hq (by simp [Pc.quiet])
        | computed t =>
          have ht : t = fin 0 := hq
          refine ⟨hs, trivial, ?_⟩
          intro r hr
          simp [step] at hr
          subst hr; exact ht
    simp only [run, List.mem_append] at hr
    rcases hr with hr | hr
    · exact key.2.2 r hr
    · exact ih _ key.1 key.2.1 hn' r hr

/-- From any position, once disabled, only the first request can be non-zero. -/
theorem tail_quiet (es : List Ev) : ∀ s : Sys, s.thr.enabled = false → NoEnable es →
    ∀ r ∈ (run s es).2.tail, r.torque = fin 0 := by
  induction es with
  | nil => intro s _ _ r hr; simp [run] at hr
  | cons e es ih =>
    intro s hs hn r hr
    have hn' : NoEnable es := fun x hx => hn x (List.mem_cons_of_mem _ hx)
    have hen : (step s e).1.thr.enabled = false := by
      cases e with
      | setEnabled b =>
        have := hn _ (List.mem_cons_self ..) b rfl
        subst this; rfl
      | setDirection d => exact hs
      | task accel =>
        rcases s with ⟨thr, pc⟩
        cases pc <;> simp only [step] <;> (try split_ifs) <;> exact hs
    by_cases hemp : (step s e).2 = []
    · have : (run s (e :: es)).2 = (run (step s e).1 es).2 := by simp [run, hemp]
      rw [this] at hr
      exact ih _ hen hn' r hr
    · -- a request was issued: the task is idle again
      have hq : (step s e).1.pc = .idle ∧ ∃ q, (step s e).2 = [q] := by
        cases e with
        | setEnabled b => exact absurd rfl hemp
        | setDirection d => exact absurd rfl hemp
        | task accel =>
          rcases s with ⟨thr, pc⟩
          cases pc with
          | idle => exact absurd rfl hemp
          | gotAccel a => exact absurd (by simp only [step]; split_ifs <;> rfl) hemp
          | sawEnabled a => exact absurd (by simp only [step]; split_ifs <;> rfl) hemp
          | notForward a => exact absurd (by simp only [step]; split_ifs <;> rfl) hemp
          | computed t => exact ⟨rfl, _, rfl⟩
      obtain ⟨q, hq2⟩ := hq.2
      have : (run s (e :: es)).2.tail = (run (step s e).1 es).2 := by simp [run, hq2]
      rw [this] at hr
      exact quiet_run es _ hen (by rw [hq.1]; trivial) hn' r hr

/-- What holds in place of the strict claim: after a completed disable, at most
one request can be non-zero (the activation that was already past its check),
and none if the task was not past its check of the enable flag. -/
theorem C15_at_most_one_late_request_partial (before after : List Ev) (hn : NoEnable after) :
    (∀ r ∈ (run (run Sys.init (before ++ [.setEnabled false])).1 after).2.tail, r.torque = fin 0) ∧
    ((run Sys.init before).1.pc.quiet →
      ∀ r ∈ (run (run Sys.init (before ++ [.setEnabled false])).1 after).2, r.torque = fin 0) := by
  have runapp : ∀ (es : List Ev) (s : Sys), (run s (es ++ [.setEnabled false])).1 =
      { (run s es).1 with thr := { (run s es).1.thr with enabled := false } } := by
    intro es
    induction es with
    | nil => intro s; rfl
    | cons e es ih => intro s; simp only [List.cons_append, run]; exact ih _
  rw [runapp]
  exact ⟨tail_quiet after _ rfl hn, fun hq => quiet_run after _ rfl hq hn⟩

/-- The hypotheses are met by the schedule of the counterexample, where one late
request occurs and the next one is zero. -/
example : (run (run Sys.init [.setEnabled true, .task (some (fin 1)), .task none, .setEnabled false]).1
    [.task none, .task none, .task (some (fin 1)), .task none, .task none]).2 =
    [⟨fin 500, FORWARD⟩, ⟨fin 0, FORWARD⟩] := by decide +kernel

/-! ## C62: the direction sent belongs to the torque computed -/

/-- Torque available in a direction. -/
def directionLimit (d : UInt8) : ℚ := if d = 1 then 500 else 75 + 1/2^17

/-- The strict claim: no request exceeds what the map of its own direction allows. -/
def TorqueWithinDirection : Prop :=
  ∀ es : List Ev, (∀ a, Ev.task (some a) ∈ es → IsFloat a) →
    ∀ r ∈ (run Sys.init es).2, ∃ v, r.torque = fin v ∧ v ≤ directionLimit r.direction

/-- False: a direction change between computing the torque and issuing the
request sends the forward maximum in reverse. -/
theorem C62_forward_torque_in_reverse : ¬ TorqueWithinDirection := by
  intro h
  obtain ⟨v, hv, hl⟩ := h [.setEnabled true, .task (some (fin 1)), .task none, .task none, .setDirection 0, .task none]
    (by intro a ha
        simp at ha; subst ha
        exact ⟨by decide +kernel, by norm_num⟩)
    ⟨fin 500, 0⟩ (by decide +kernel)
  simp at hv; subst hv
  revert hl; decide +kernel

/-- What holds: an activation without a concurrent direction change is consistent. -/
theorem C62_consistent_without_interference_partial (s : Thr) (accel : Option F32)
    (ha : ∀ a, accel = some a → IsFloat a) :
    ∃ v, (tick s accel).torque = fin v ∧ 0 ≤ v ∧ v ≤ directionLimit (tick s accel).direction := by
  have hf : IsFloat (accel.getD (fin 0)) := by
    cases accel with
    | none => exact ⟨rnd_zero, by norm_num⟩
    | some a => exact ha a rfl
  have pos : 0 ≤ directionLimit s.direction := by unfold directionLimit; split_ifs <;> norm_num
  change ∃ v, getTorqueMagnitude s _ = fin v ∧ 0 ≤ v ∧ v ≤ directionLimit s.direction
  unfold getTorqueMagnitude
  split_ifs with h1 h2 h3
  · exact ⟨0, rfl, le_rfl, pos⟩
  · obtain ⟨v, a, b, c⟩ := interp_forward_bounds _ hf
    refine ⟨v, a, b, ?_⟩
    rw [h2]; simpa [directionLimit, FORWARD] using c
  · obtain ⟨v, a, b, c⟩ := interp_reverse_bounds _ hf
    refine ⟨v, a, b, ?_⟩
    rw [h3]; simpa [directionLimit, REVERSE] using c
  · exact ⟨0, rfl, le_rfl, pos⟩

/-- The interleaved view without interference is `tick`: running the task from
idle to idle issues exactly the request of `tick`. -/
theorem interleaved_refines_tick (s : Thr) (accel : Option F32) :
    ∃ n, run ⟨s, .idle⟩ (.task accel :: List.replicate n (.task none)) =
      (⟨s, .idle⟩, [tick s accel]) := by
  by_cases h1 : s.enabled = false
  · exact ⟨2, by simp [List.replicate, run, step, h1, tick, getTorqueMagnitude]⟩
  by_cases h2 : s.direction = FORWARD
  · exact ⟨3, by simp [List.replicate, run, step, h1, h2, tick, getTorqueMagnitude]⟩
  by_cases h3 : s.direction = REVERSE
  · exact ⟨4, by simp [List.replicate, run, step, h1, h3, tick, getTorqueMagnitude,
      show ¬ REVERSE = FORWARD by decide]⟩
  · exact ⟨4, by simp [List.replicate, run, step, h1, h2, h3, tick, getTorqueMagnitude]⟩

end Verif.Throttle
