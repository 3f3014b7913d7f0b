import Verif.Spec.Heartbeat
import Verif.Props.Fresh

set_option autoImplicit false

/-!
# C139: the inverter hears a command in every period
-/

namespace Verif.Vehicle
open F32 InvDrv

variable {cfg : Config} {m0 : FaultMgr.Internal}

/-- The three invariants together. -/
structure Beats (cfg : Config) (m0 : FaultMgr.Internal) (s : St) : Prop where
  inv : ∃ h, Inv cfg m0 h s
  drive : ∃ d, Rel s d ∧ Drive.Inv d

theorem beats_step {s s' : St} {e : Ev} {fs : List Sent} (hs : Beats cfg m0 s)
    (hf : ∀ v, e = .write v → F32.IsFloat v.inputs.accel) (h : step s e = .ok (s', fs)) :
    Beats cfg m0 s' ∧ (s.cmd.inverterEnabled = true →
      s'.cmd.inverterEnabled = true ∧ ∀ f ∈ fs, Drive.enableOf f = true) := by
  obtain ⟨⟨h0, hi⟩, d, hr, hd⟩ := hs
  obtain ⟨i1, ds, d1, q, r1, l, -⟩ := step_sim hi hr hf h
  obtain ⟨d1', f', q', hd1, -, hk⟩ := Drive.run_ok ds d hd l
  rw [q] at q'
  cases q'
  exact ⟨⟨⟨_, i1⟩, d1, r1, hd1⟩, fun hc => by rw [← r1.cmd]; exact hk (by rw [hr.cmd]; exact hc)⟩

theorem beats_run : ∀ (es : List Ev) {s s' : St} {fs : List Sent}, Beats cfg m0 s → FloatWrites es →
    run s es = .ok (s', fs) → Beats cfg m0 s' ∧ (s.cmd.inverterEnabled = true →
      s'.cmd.inverterEnabled = true ∧ ∀ f ∈ fs, Drive.enableOf f = true)
  | [], s, s', fs, hs, _, h => by
    simp only [run] at h; cases h; exact ⟨hs, fun hc => ⟨hc, by simp⟩⟩
  | e :: es, s, s', fs, hs, hf, h => by
    obtain ⟨s1, f1, f2, h1, h2, rfl⟩ := run_cons h
    obtain ⟨a1, a2⟩ := beats_step hs (fun v hv => hf v (by simp [hv])) h1
    obtain ⟨b1, b2⟩ := beats_run es a1 (fun v hv => hf v (List.mem_cons_of_mem _ hv)) h2
    refine ⟨b1, fun hc => ?_⟩
    obtain ⟨c1, c2⟩ := a2 hc
    obtain ⟨d1, d2⟩ := b2 c1
    refine ⟨d1, fun f hm => ?_⟩
    rcases List.mem_append.mp hm with hm | hm
    · exact c2 f hm
    · exact d2 f hm

/-- A frame with the enable bit leaves the driver enabled. -/
theorem enabled_after {s s' : St} {e : Ev} {fs : List Sent} (hs : Beats cfg m0 s)
    (h : step s e = .ok (s', fs)) {f : Sent} (hf : f ∈ fs) : Drive.enableOf f = true →
    s'.cmd.inverterEnabled = true := by
  intro hen
  obtain ⟨-, d, hr, hd⟩ := hs
  by_cases hpc : e.isPc = true
  · obtain ⟨rfl, -, -⟩ := pc_step hpc h
    cases hf
  cases e with
  | pcBatch b c => exact absurd rfl hpc
  | pcAct l => exact absurd rfl hpc
  | write v => simp only [step] at h; cases h; cases hf
  | copy ok =>
    simp only [step] at h
    split at h
    · split at h
      · cases h
      · cases h; cases hf
    · cases h; cases hf
  | handle ok =>
    simp only [step] at h
    split at h
    · cases h; cases hf
    · split at h
      · cases h
      · cases h; cases hf
  | call en =>
    simp only [step] at h
    split at h
    · cases h; cases hf
    · rename_i o os hp
      unfold applyOut at h
      dsimp only at h
      cases o with
      | ecuError b => simp only [Drive.apply] at h; cases h; cases hf
      | motorDirection x => simp only [Drive.apply] at h; cases h; cases hf
      | torqueEnabled x => simp only [Drive.apply] at h; cases h; cases hf
      | enableInverter =>
        obtain ⟨r, hx, -, -, hl, -⟩ := Drive.enable_ok s.cmd en (by rw [← hr.cmd]; exact hd.noDischarge)
        simp only [Drive.apply, hx] at h
        cases h
        cases hlk : en.lock with
        | true => exact hl hlk
        | false =>
          unfold sendInverterEnabled at hx
          rw [hlk] at hx
          simp only [Bool.not_false, if_true] at hx
          cases hx; cases hf
  | throttle ok en =>
    simp only [step] at h
    generalize Throttle.step s.thr (.task (if ok = true then some s.vd.inputs.accel else none)) = r at h
    obtain ⟨thr, rq⟩ := r
    dsimp only at h
    cases rq with
    | nil => simp only [Drive.issue] at h; cases h; cases hf
    | cons q qs =>
      simp only [Drive.issue, Throttle.requestMotorTorque] at h
      cases hx : sendTorqueCommand s.cmd en q.torque q.direction with
      | error u => rw [hx] at h; cases h
      | ok x =>
        rw [hx] at h
        cases h
        unfold sendTorqueCommand at hx
        split at hx
        · cases hx; cases hf
        split at hx
        · cases hx; cases hf
        split at hx
        · cases hx; cases hf
        · rename_i hne
          simp only [Bool.not_eq_true, Bool.not_eq_false'] at hne
          simp only [bind, Except.bind, pure, Except.pure] at hx
          split at hx
          · cases hx
          · cases hx; simpa using hne

theorem frames_empty_step {s : St} {t : Nat} {e : Ev} {A : Hist} {s' : St} {fs : List Sent}
    (h : step s e = .ok (s', fs)) : frames s ((t, e) :: A) = fs.map (fun f => (t, f)) ++ frames s' A := by
  simp only [frames, h]

/-- From the middle of an activation, or with one to come, to between two activations: a frame. -/
theorem some_frame : ∀ (A : Hist) {s s' : St} {fs : List Sent}, Beats cfg m0 s → FloatWrites (events A) →
    s.cmd.inverterEnabled = true → run s (events A) = .ok (s', fs) →
    (∀ ok en, Ev.throttle ok en ∈ events A → en.lock = true) →
    (s.thr.pc ≠ .idle ∨ ∃ ok en, Ev.throttle ok en ∈ events A) → s'.thr.pc = .idle →
    frames s A ≠ []
  | [], s, s', fs, _, _, _, h, _, hp, hid => by
    simp only [events, List.map_nil, run] at h
    cases h
    rcases hp with hp | ⟨ok, en, hm⟩
    · exact absurd hid hp
    · simp [events] at hm
  | (t, e) :: A, s, s', fs, hs, hf, hc, h, hl, hp, hid => by
    have hev : events ((t, e) :: A) = e :: events A := rfl
    rw [hev] at h hf hl hp
    obtain ⟨s1, f1, f2, h1, h2, rfl⟩ := run_cons h
    obtain ⟨a1, a2⟩ := beats_step hs (fun v hv => hf v (by simp [hv])) h1
    have rest := fun hp' => some_frame A a1 (fun v hv => hf v (List.mem_cons_of_mem _ hv)) (a2 hc).1 h2
      (fun ok en hm => hl ok en (List.mem_cons_of_mem _ hm)) hp' hid
    rw [frames_empty_step h1]
    -- an event of another task leaves the throttle task where it is
    by_cases hthr : ∃ ok en, e = .throttle ok en
    · obtain ⟨ok, en, rfl⟩ := hthr
      have hlk := hl ok en List.mem_cons_self
      by_cases hcomp : ∃ x, s.thr.pc = .computed x
      · obtain ⟨x, hx⟩ := hcomp
        obtain ⟨-, d, hr, hd⟩ := hs
        have hpk := hd.pc
        rw [hr.thr, hx] at hpk
        obtain ⟨v, rfl, v0, v1⟩ := hpk
        obtain ⟨r, hr1, -, -, hne⟩ := Drive.torque_ok s.cmd en v0 v1
        have hdir : s.thr.thr.direction = FORWARD := by rw [← hr.thr]; exact hd.dir
        simp only [step, Throttle.step, hx, hdir, Drive.issue, Throttle.requestMotorTorque, hr1] at h1
        cases h1
        have := hne hlk hc
        intro hn
        apply this
        have := (List.append_eq_nil_iff.mp hn).1
        exact List.map_eq_nil_iff.mp this
      · have hne : s1.thr.pc ≠ .idle := by
          simp only [step] at h1
          have hpc : (Throttle.step s.thr (.task (if ok = true then some s.vd.inputs.accel else none))).1.pc ≠ .idle := by
            obtain ⟨vd, mgr, status, pending, ⟨thr, pc⟩, cmd, ecu⟩ := s
            revert hcomp
            cases pc with
            | computed x => intro hcomp; exact absurd ⟨x, rfl⟩ hcomp
            | _ => intro _; (simp only [Throttle.step]; (try split) <;> simp)
          split at h1
          · cases h1
          · cases h1; exact hpc
        intro hn
        exact rest (.inl hne) (List.append_eq_nil_iff.mp hn).2
    · have hpc1 : s1.thr.pc = s.thr.pc := by
        by_cases hpc : e.isPc = true
        · obtain ⟨-, hsd, -⟩ := pc_step hpc h1
          rw [hsd.throttle]
        cases e with
        | pcBatch b c => exact absurd rfl hpc
        | pcAct l => exact absurd rfl hpc
        | throttle ok en => exact absurd ⟨ok, en, rfl⟩ hthr
        | write v => simp only [step] at h1; cases h1; rfl
        | copy ok =>
          simp only [step] at h1
          split at h1
          · split at h1
            · cases h1
            · cases h1; rfl
          · cases h1; rfl
        | handle ok =>
          simp only [step] at h1
          split at h1
          · cases h1; rfl
          · split at h1
            · cases h1
            · cases h1; rfl
        | call en =>
          simp only [step] at h1
          split at h1
          · cases h1; rfl
          · rename_i o os hpd
            unfold applyOut at h1
            dsimp only at h1
            cases o with
            | enableInverter =>
              simp only [Drive.apply] at h1
              cases hx : sendInverterEnabled s.cmd en true with
              | error u => rw [hx] at h1; cases h1
              | ok r => rw [hx] at h1; cases h1; rfl
            | _ => simp only [Drive.apply] at h1; cases h1; rfl
      have hp' : s1.thr.pc ≠ .idle ∨ ∃ ok en, Ev.throttle ok en ∈ events A := by
        rcases hp with hp | ⟨ok, en, hm⟩
        · exact .inl (by rw [hpc1]; exact hp)
        · rcases List.mem_cons.mp hm with hm | hm
          · exact absurd ⟨ok, en, hm.symm⟩ hthr
          · exact .inr ⟨ok, en, hm⟩
      intro hn
      exact rest hp' (List.append_eq_nil_iff.mp hn).2

variable (cfg) (sm : StateMgr.StateManager) (dec : MsgFrame.Dec) (buf : Nat → UInt8)
  (ecu control : Bool)

/-- **C139.** Let the throttle task run once per timer period. From the first command frame that
enables the inverter on, every later period contains a command frame handed to the CAN layer, with
the enable bit; whatever state the vehicle is in. -/
theorem C139_command_every_period
    (hsm : StateMgr.smInit true true true (StateMgr.wired cfg) = .ok (.ok, sm))
    (P K : Nat) (H : Hist) (ho : Ordered H) (hf : FloatWrites (events H))
    (hall : ∃ s fs, run (start sm dec buf ecu control) (events H) = .ok (s, fs))
    (ht : ThrottleRuns P K (start sm dec buf ecu control) H)
    (x : Nat × Sent) (hx : x ∈ frames (start sm dec buf ecu control) H)
    (hen : Drive.enableOf x.2 = true) (k : Nat) (hk : k < K) (hxk : x.1 < k * P) :
    ∃ y ∈ frames (start sm dec buf ecu control) H, k * P ≤ y.1 ∧ y.1 < (k + 1) * P ∧
      Drive.enableOf y.2 = true := by
  obtain ⟨m0, -, i0, r0⟩ := start_inv cfg sm dec buf ecu control hsm
  have hfine : Beats cfg m0 (start sm dec buf ecu control) :=
    ⟨⟨_, i0⟩, _, r0, Drive.start_inv 10 cfg.vcu.hvActiveStateWait cfg.vcu.hvChargeTimeout ecu⟩
  generalize start sm dec buf ecu control = s0 at *
  have hle : k * P ≤ (k + 1) * P := Nat.mul_le_mul_right _ (by omega)
  have hmem : ∀ (A : Hist), (∀ y ∈ A, y ∈ H) → FloatWrites (events A) := by
    intro A hA v hv
    obtain ⟨y, hy, hyv⟩ := List.mem_map.mp hv
    exact hf v (List.mem_map.mpr ⟨y, hA y hy, hyv⟩)
  -- the driver is enabled at the interrupt
  obtain ⟨sk, fk, hrk⟩ := at_interrupt ho hall (k * P)
  have hcut := since_split ho (k * P)
  obtain ⟨pre, e, post, s1, f1, s2, f2, hH, q1, q2, hxm⟩ := frame_origin (H := before H (k * P)) (x := x) (by
    rw [hcut, frames_append hrk] at hx
    rcases List.mem_append.mp hx with hx | hx
    · exact hx
    · obtain ⟨e, he⟩ := frames_time hx
      have := (List.mem_filter.mp he).2
      simp at this
      omega)
  have hpre : ∀ y ∈ before H (k * P), y ∈ H := fun y hy => (List.mem_filter.mp hy).1
  have hrk' := hrk
  rw [hH] at hrk
  have hevH : events (pre ++ (x.1, e) :: post) = events pre ++ e :: events post := by
    unfold events; rw [List.map_append]; rfl
  rw [hevH] at hrk
  obtain ⟨s1', g1, g2, p1, p2, -⟩ := run_split hrk
  rw [q1] at p1; cases p1
  obtain ⟨s2', g3, g4, p3, p4, -⟩ := run_cons p2
  rw [q2] at p3; cases p3
  have fw : ∀ (A : Hist), (∀ y ∈ A, y ∈ before H (k * P)) → FloatWrites (events A) :=
    fun A hA => hmem A fun y hy => hpre y (hA y hy)
  obtain ⟨fine1, -⟩ := beats_run _ hfine (fw pre (fun y hy => by rw [hH]; exact List.mem_append_left _ hy)) q1
  have hfe : ∀ v, e = .write v → F32.IsFloat v.inputs.accel := by
    intro v hv
    refine fw [(x.1, e)] (fun y hy => ?_) v (by simp [events, hv])
    rw [List.mem_singleton] at hy
    rw [hH, hy]; simp
  obtain ⟨fine2, -⟩ := beats_step fine1 hfe q2
  have en2 := enabled_after fine1 q2 hxm hen
  obtain ⟨finek, hkeep⟩ := beats_run _ fine2 (fw post (fun y hy => by rw [hH]; simp [hy])) p4
  have enk := (hkeep en2).1
  -- the period
  obtain ⟨sn, fn, hrn⟩ := at_interrupt ho hall ((k + 1) * P)
  have hbs := before_split ho hle
  have hevn : events (before H ((k + 1) * P)) =
      events (before H (k * P)) ++ events (during H (k * P) ((k + 1) * P)) := by
    rw [hbs]; exact List.map_append
  have hidn := ht.1 (k + 1) (by omega) sn fn hrn
  rw [hevn] at hrn
  obtain ⟨sk', u1, u2, v1, v2, -⟩ := run_split hrn
  rw [hrk'] at v1; cases v1
  have hdw : FloatWrites (events (during H (k * P) ((k + 1) * P))) :=
    hmem _ fun y hy => (List.mem_filter.mp hy).1
  have hne := some_frame _ finek hdw enk v2 (ht.2 k hk).2 (.inr (ht.2 k hk).1) hidn
  obtain ⟨y, hy⟩ := List.exists_mem_of_ne_nil _ hne
  have hyt : k * P ≤ y.1 ∧ y.1 < (k + 1) * P := by
    obtain ⟨e', he'⟩ := frames_time hy
    have := (List.mem_filter.mp he').2
    simpa using this
  have hye : Drive.enableOf y.2 = true := by
    obtain ⟨-, h'⟩ := beats_run _ finek hdw v2
    refine (h' enk).2 y.2 ?_
    rw [← frames_map v2]
    exact List.mem_map_of_mem hy
  refine ⟨y, ?_, hyt.1, hyt.2, hye⟩
  rw [since_split ho ((k + 1) * P), hbs, List.append_assoc, frames_append hrk', frames_append v2]
  exact List.mem_append_right _ (List.mem_append_left _ hy)

/-- **C139, no silence.** After the first command frame that enables the inverter there is never a
silence of two timer periods. -/
theorem C139_no_silence
    (hsm : StateMgr.smInit true true true (StateMgr.wired cfg) = .ok (.ok, sm))
    (P K : Nat) (hP : 0 < P) (H : Hist) (ho : Ordered H) (hf : FloatWrites (events H))
    (hall : ∃ s fs, run (start sm dec buf ecu control) (events H) = .ok (s, fs))
    (ht : ThrottleRuns P K (start sm dec buf ecu control) H)
    (x : Nat × Sent) (hx : x ∈ frames (start sm dec buf ecu control) H)
    (hen : Drive.enableOf x.2 = true) (τ : Nat) (hτ : x.1 ≤ τ) (hK : τ + 2 * P ≤ K * P) :
    ∃ y ∈ frames (start sm dec buf ecu control) H, τ < y.1 ∧ y.1 < τ + 2 * P ∧
      Drive.enableOf y.2 = true := by
  have e1 := Nat.div_add_mod τ P
  have e2 := Nat.mod_lt τ hP
  have e3 : (τ / P + 1) * P = P * (τ / P) + P := by ring
  have e4 : (τ / P + 1 + 1) * P = P * (τ / P) + 2 * P := by ring
  have hk : τ / P + 1 < K := by
    by_contra hn
    have := Nat.mul_le_mul_right P (not_lt.mp hn)
    omega
  obtain ⟨y, hy, h1, h2, h3⟩ := C139_command_every_period cfg sm dec buf ecu control hsm P K H ho hf hall ht
    x hx hen (τ / P + 1) hk (by omega)
  exact ⟨y, hy, by omega, by omega, h3⟩

/-- The demonstration drive of C123, through the fault: one command in each period after the inverter
has been enabled. -/
example :
    (match demoStart with
    | .ok s => ((frames s timedDrive).filter (fun x => Drive.enableOf x.2)).map (fun x => x.1 / 10000) ==
        [5, 6, 7, 8, 9, 10, 11, 12, 13, 14, 15]
    | .error _ => false) = true := by decide +kernel

end Verif.Vehicle
