import Verif.Proofs.VsmTiming

set_option autoImplicit false

/-!
# Properties of the vehicle state machine (C01 - C06)

`World.start tick wait timeout ecu` is the machine right after initialisation
with an arbitrary tick period, HV wait and HV charge timeout.  `inp` is an
arbitrary history of inputs (fault-manager verdict, access result, button,
inverter state), one per tick.  `st`/`outs` are state and outputs after `n` ticks.
-/

namespace Verif.Vsm

variable (tick wait timeout : UInt32) (ecu : Bool) (inp : Nat → In)

/-- C01.  Once in FAULT, always in FAULT, whatever happens next. -/
theorem C01_fault_absorbing (n : Nat)
    (h : st (World.start tick wait timeout ecu) inp n = .fault) :
    ∀ m, n ≤ m → st (World.start tick wait timeout ecu) inp m = .fault := by
  intro m hm
  obtain ⟨k, rfl⟩ := Nat.exists_eq_add_of_le hm
  clear hm
  induction k with
  | zero => exact h
  | succ k ih => exact ((spec_at (stable_start tick wait timeout ecu) inp (n+k)).fault ih).1

/-- Inputs used by the examples: a fault-free drive-off with the inverter ready. -/
def demoInputs : Nat → In := fun n => ⟨.noFault, true, n == 3 || n == 9 || n == 12, 5⟩
/-- The same with a drive fault from tick 11 on. -/
def demoFaultInputs : Nat → In := fun n =>
  if n < 11 then demoInputs n else ⟨.fault, true, false, 5⟩

example : st (World.start 10 20 7000 false) demoFaultInputs 12 = .fault := by decide

/-- C02.  In every run, a drive fault reported at any tick after the first one
puts the machine in FAULT at that tick; from the following tick on, for ever,
the machine is in FAULT, torque is disabled, direction is forward and the ECU
error is asserted. -/
theorem C02_fault_is_safe (n : Nat) (hn : 1 ≤ n) (hf : (inp n).fault = .fault) :
    st (World.start tick wait timeout ecu) inp (n+1) = .fault ∧
    ∀ m, n + 2 ≤ m →
      st (World.start tick wait timeout ecu) inp m = .fault ∧
      (outs (World.start tick wait timeout ecu) inp m).torqueEnabled = false ∧
      (outs (World.start tick wait timeout ecu) inp m).direction = .forward ∧
      (outs (World.start tick wait timeout ecu) inp m).ecuError = true := by
  have hs := stable_start tick wait timeout ecu
  have hr := reach tick wait timeout ecu inp n
  have hp := path_inv tick wait timeout ecu inp n
  have sp := spec_at hs inp n
  have h1 : st (World.start tick wait timeout ecu) inp (n+1) = .fault := by
    rcases hstate : st (World.start tick wait timeout ecu) inp n with _ | _ | _ | _ | _ | _ | _ | _ | k
    · have := hp.1 hstate; omega
    · exact (sp.fault hstate).1
    · have := (sp.lvStartup hstate).1; rw [hf] at this; exact this
    iterate 5 exact (sp.faulted (by unfold st at hstate; simp [hstate]) (by simp [hf])).1
    exact absurd hstate (hr.enum k)
  refine ⟨h1, fun m hm => ?_⟩
  obtain ⟨k, rfl⟩ := Nat.exists_eq_add_of_le hm
  have hk := C01_fault_absorbing tick wait timeout ecu inp (n+1) h1 (n+1+k) (by omega)
  have e : n + 2 + k = (n + 1 + k) + 1 := by omega
  rw [e]
  have sk := (spec_at hs inp (n+1+k)).fault hk
  refine ⟨sk.1, ?_⟩
  unfold outs; rw [sk.2.1]; simp

/-- C02, second half: from LV_READY on, an LV error (or any verdict other than
"no fault") is treated like a drive fault. -/
theorem C02_any_fault_from_lvReady (n : Nat)
    (hst : st (World.start tick wait timeout ecu) inp n ∈
      [.lvReady, .hvActive, .hvCharging, .activeNeutral, .activeForward])
    (hf : (inp n).fault ≠ .noFault) :
    st (World.start tick wait timeout ecu) inp (n+1) = .fault :=
  ((spec_at (stable_start tick wait timeout ecu) inp n).faulted hst hf).1

example : st (World.start 10 20 7000 false) demoInputs 10 = .activeForward := by decide
example : (demoFaultInputs 11).fault = .fault ∧
    st (World.start 10 20 7000 false) demoFaultInputs 11 = .activeForward ∧
    (outs (World.start 10 20 7000 false) demoFaultInputs 12).torqueEnabled = true ∧
    (outs (World.start 10 20 7000 false) demoFaultInputs 13).torqueEnabled = false := by decide

/-- C03.  After every number of ticks, torque is enabled exactly when the
machine is in ACTIVE_FORWARD, or it is in FAULT and was in ACTIVE_FORWARD one
tick ago (the fault handler has not run yet). -/
theorem C03_torque_only_in_forward (n : Nat) :
    (outs (World.start tick wait timeout ecu) inp n).torqueEnabled = true ↔
      st (World.start tick wait timeout ecu) inp n = .activeForward ∨
      (st (World.start tick wait timeout ecu) inp n = .fault ∧
        ∃ m, n = m + 1 ∧ st (World.start tick wait timeout ecu) inp m = .activeForward) :=
  (reach tick wait timeout ecu inp n).torque

/-- C03, companion: the requested direction is forward at all times, the ECU
error line is asserted throughout LV start-up and LV ready, released in the HV
and drive states, and asserted in FAULT except for the one tick after leaving an
HV or drive state. -/
theorem C03_ecu_error_line (n : Nat) :
    (outs (World.start tick wait timeout ecu) inp n).direction = .forward ∧
    (st (World.start tick wait timeout ecu) inp n ∈ [.lvStartup, .lvReady] →
      (outs (World.start tick wait timeout ecu) inp n).ecuError = true) ∧
    (st (World.start tick wait timeout ecu) inp n ∈
        [.hvActive, .hvCharging, .activeNeutral, .activeForward] →
      (outs (World.start tick wait timeout ecu) inp n).ecuError = false) ∧
    (st (World.start tick wait timeout ecu) inp n = .fault →
      ((outs (World.start tick wait timeout ecu) inp n).ecuError = true ↔
        ¬ ∃ m, n = m + 1 ∧ st (World.start tick wait timeout ecu) inp m ∈
          [.hvActive, .hvCharging, .activeNeutral, .activeForward])) :=
  have r := reach tick wait timeout ecu inp n
  ⟨r.dir, r.ecu, r.ecuOff, r.ecuFault⟩

example : (outs (World.start 10 20 7000 false) demoInputs 10).torqueEnabled = true ∧
    (outs (World.start 10 20 7000 false) demoInputs 9).torqueEnabled = false := by decide

/-- C04.  Every run that is driving forward has followed the documented
start-up path. -/
theorem C04_ordered_startup (n : Nat)
    (h : st (World.start tick wait timeout ecu) inp n = .activeForward) :
    ∃ a b c d e, DrivePath (World.start tick wait timeout ecu) inp a b c d e n := by
  obtain ⟨a, b, c, d, e, ⟨⟨⟨⟨⟨p1, p2⟩, q1, q2, _⟩, r0, r1, r2, _⟩, s0, s1, s2, _⟩, t0, t1, t2, t3, t4⟩,
    u1, u2, u3, u4, u5⟩ := (path_inv tick wait timeout ecu inp n).2.2.2.2.2.2 h
  refine ⟨a, b, c, d, e, ⟨by omega, rfl, p2, q2, r0, ?_, r2, s0, ?_, ?_, s2, t0, t2, t3, ⟨u3, u4⟩, u5, t4⟩⟩
  · intro j h1 h2
    refine (reach tick wait timeout ecu inp j).ecuOff ?_
    show st (World.start tick wait timeout ecu) inp j ∈ _
    by_cases hc : j ≤ c
    · simp [r2 j h1 hc]
    · by_cases hd : j ≤ d
      · simp [s2 j (by omega) hd]
      · rcases t3 j (by omega) h2 with h | h <;> simp [h]
  · intro j h1
    refine (reach tick wait timeout ecu inp j).enables0 ?_
    show st (World.start tick wait timeout ecu) inp j ∈ _
    by_cases h0 : j = 0
    · subst h0; simp [st, traj, World.start, vsmInit]
    · by_cases ha : j ≤ a
      · simp [p2 j (by omega) ha]
      · by_cases hb : j ≤ b
        · simp [q2 j (by omega) hb]
        · simp [r2 j (by omega) h1]
  · intro j h1 h2
    have hr := (reach tick wait timeout ecu inp j).enables
    have hm : (traj (World.start tick wait timeout ecu) inp j).vsm.vsmState ∈
        [St.hvCharging, .activeNeutral, .activeForward] := by
      show st (World.start tick wait timeout ecu) inp j ∈ _
      by_cases hd : j ≤ d
      · simp [s2 j h1 hd]
      · rcases t3 j (by omega) h2 with h | h <;> simp [h]
    rw [if_pos hm] at hr; exact hr

example : st (World.start 10 20 7000 false) demoInputs 11 = .activeForward := by decide

/-- C05.  In a button-sampling state, a tick is a driver transition exactly when
it is a button edge: no fault, a sample is available and pressed, and the
previous sample was released. -/
theorem C05_edge_triggered (n : Nat)
    (hst : samplesButton (st (World.start tick wait timeout ecu) inp n) = true) :
    driverTransition (World.start tick wait timeout ecu) inp n ↔
      ButtonEdge (World.start tick wait timeout ecu) inp n := by
  have hs := stable_start tick wait timeout ecu
  have hen : ∀ n k, st (World.start tick wait timeout ecu) inp n ≠ .other k :=
    fun n k => (reach tick wait timeout ecu inp n).enum k
  have hprev := prev_eq_lastSample (inp := inp) hs rfl hen n
  have sp := spec_at hs inp n
  rcases hstate : st (World.start tick wait timeout ecu) inp n with _ | _ | _ | _ | _ | _ | _ | _ | k
  all_goals rw [hstate] at hst
  all_goals first | (exfalso; simp [samplesButton] at hst; done) | skip
  · by_cases hf : (inp n).fault = .noFault
    · have h2 := (sp.lvReady hstate hf).2
      rw [hprev] at h2
      constructor
      · intro hd
        simp only [driverTransition, hstate] at hd
        split at h2
        · rename_i hc; exact ⟨hf, hc.1, hc.2.1, hc.2.2⟩
        · have : st (World.start tick wait timeout ecu) inp (n+1) = .lvReady := h2.1
          simp [this] at hd
      · intro hb
        rw [if_pos ⟨hb.access, hb.pressed, hb.wasReleased⟩] at h2
        exact Or.inl ⟨hstate, h2.1⟩
    · have h3 : st (World.start tick wait timeout ecu) inp (n+1) = .fault :=
        (sp.faulted (by unfold st at hstate; simp [hstate]) hf).1
      constructor
      · intro hd; simp [driverTransition, hstate, h3] at hd
      · intro hb; exact absurd hb.noFault hf
  · by_cases hf : (inp n).fault = .noFault
    · have h2 := (sp.neutral hstate hf).2
      rw [hprev] at h2
      constructor
      · intro hd
        simp only [driverTransition, hstate] at hd
        split at h2
        · rename_i hc; exact ⟨hf, hc.1, hc.2.1, hc.2.2⟩
        · have : st (World.start tick wait timeout ecu) inp (n+1) = .activeNeutral := h2.1
          simp [this] at hd
      · intro hb
        rw [if_pos ⟨hb.access, hb.pressed, hb.wasReleased⟩] at h2
        exact Or.inr (Or.inl ⟨hstate, h2.1⟩)
    · have h3 : st (World.start tick wait timeout ecu) inp (n+1) = .fault :=
        (sp.faulted (by unfold st at hstate; simp [hstate]) hf).1
      constructor
      · intro hd; simp [driverTransition, hstate, h3] at hd
      · intro hb; exact absurd hb.noFault hf
  · by_cases hf : (inp n).fault = .noFault
    · have h2 := (sp.forward hstate hf).2
      rw [hprev] at h2
      constructor
      · intro hd
        simp only [driverTransition, hstate] at hd
        split at h2
        · rename_i hc; exact ⟨hf, hc.1, hc.2.1, hc.2.2⟩
        · have : st (World.start tick wait timeout ecu) inp (n+1) = .activeForward := h2.1
          simp [this] at hd
      · intro hb
        rw [if_pos ⟨hb.access, hb.pressed, hb.wasReleased⟩] at h2
        exact Or.inr (Or.inr ⟨hstate, h2.1⟩)
    · have h3 : st (World.start tick wait timeout ecu) inp (n+1) = .fault :=
        (sp.faulted (by unfold st at hstate; simp [hstate]) hf).1
      constructor
      · intro hd; simp [driverTransition, hstate, h3] at hd
      · intro hb; exact absurd hb.noFault hf

/-- C05.  While the button is held (pressed at every tick from `a` to `b`) at
most one driver transition happens. -/
theorem C05_held_button_acts_once (a b : Nat)
    (hheld : ∀ j, a ≤ j → j ≤ b → (inp j).button = true)
    (i j : Nat) (hai : a ≤ i) (hij : i < j) (hjb : j ≤ b)
    (hi : driverTransition (World.start tick wait timeout ecu) inp i) :
    ¬ driverTransition (World.start tick wait timeout ecu) inp j := by
  intro hj
  have samp : ∀ n, driverTransition (World.start tick wait timeout ecu) inp n →
      samplesButton (st (World.start tick wait timeout ecu) inp n) = true := by
    rintro n (h | h | h) <;> rw [h.1] <;> rfl
  have ei := (C05_edge_triggered tick wait timeout ecu inp i (samp i hi)).mp hi
  have ej := (C05_edge_triggered tick wait timeout ecu inp j (samp j hj)).mp hj
  have : ∀ k, i < k → k ≤ j → lastSample (World.start tick wait timeout ecu) inp k = true := by
    intro k
    induction k with
    | zero => intro h; omega
    | succ k ih =>
      intro h1 h2
      unfold lastSample
      by_cases hk : i = k
      · subst hk; rw [if_pos ⟨samp i hi, ei.noFault, ei.access⟩]; exact ei.pressed
      · have := ih (by omega) (by omega)
        split
        · exact hheld k (by omega) (by omega)
        · exact this
  have := this j hij (Nat.le_refl j)
  rw [ej.wasReleased] at this
  exact absurd this (by decide)

example : driverTransition (World.start 10 20 7000 false) demoInputs 3 ∧
    driverTransition (World.start 10 20 7000 false) demoInputs 9 := by
  unfold driverTransition; decide

/-- C06, HV dwell.  If HV_ACTIVE is entered at tick `m` (from any other state)
and no fault is reported, and `N` is the first step count with
`tick * N >= wait` (no 32-bit overflow up to `N`), then the machine is in
HV_ACTIVE for exactly the steps `0..N`, then in HV_CHARGING, and the inverter is
enabled exactly once, at the step that leaves HV_ACTIVE. -/
theorem C06_hv_dwell (m N : Nat)
    (hprev : st (World.start tick wait timeout ecu) inp m ≠ .hvActive)
    (henter : st (World.start tick wait timeout ecu) inp (m+1) = .hvActive)
    (hfirst : ∀ j, j < N → tick.toNat * j < wait.toNat)
    (hreach : wait.toNat ≤ tick.toNat * N)
    (hnowrap : tick.toNat * N < 2^32) (hN : N < 2^32)
    (hnf : ∀ j, j ≤ N → (inp (m+1+j)).fault = .noFault) :
    (∀ j, j ≤ N → st (World.start tick wait timeout ecu) inp (m+1+j) = .hvActive ∧
      outs (World.start tick wait timeout ecu) inp (m+1+j) =
        outs (World.start tick wait timeout ecu) inp (m+1)) ∧
    st (World.start tick wait timeout ecu) inp (m+1+N+1) = .hvCharging ∧
    (outs (World.start tick wait timeout ecu) inp (m+1+N+1)).inverterEnables =
      (outs (World.start tick wait timeout ecu) inp (m+1)).inverterEnables + 1 := by
  have hs := stable_start tick wait timeout ecu
  have hs1 := stable_traj hs inp (m+1)
  have ht : (traj (World.start tick wait timeout ecu) inp (m+1)).vsm.ticksInState = 0 := by
    apply ticks_reset
    show st _ inp (m+1) ≠ st _ inp m
    rw [henter]; exact fun h => hprev h.symm
  have hcfg := cfg_traj (World.start tick wait timeout ecu) inp (m+1)
  have c1 : (traj (World.start tick wait timeout ecu) inp (m+1)).vsm.tickRateMs = tick := hcfg.1
  have c2 : (traj (World.start tick wait timeout ecu) inp (m+1)).vsm.hvActiveStateWait = wait := hcfg.2.1
  have stay := hvActive_stay (inp := fun j => inp (m+1+j)) hs1 henter ht N
    (fun j hj => hnf j (by omega))
    (by
      intro j hj
      rw [c1, c2, mul_ofNat_toNat _ (by omega)]
      · exact hfirst j hj
      · exact Nat.lt_of_le_of_lt (Nat.mul_le_mul_left _ (by omega : j ≤ N)) hnowrap)
  have conv : ∀ j, j ≤ N → st (World.start tick wait timeout ecu) inp (m+1+j) = .hvActive ∧
      outs (World.start tick wait timeout ecu) inp (m+1+j) =
        outs (World.start tick wait timeout ecu) inp (m+1) := by
    intro j hj
    have := stay j hj
    unfold st outs at *
    rw [traj_add]
    exact ⟨this.1, this.2.2⟩
  refine ⟨conv, ?_⟩
  have hN' := conv N (Nat.le_refl N)
  have sp := spec_at hs inp (m+1+N)
  have h2 := (sp.hvActive hN'.1 (hnf N (Nat.le_refl N))).2
  have hcfg' := cfg_traj (World.start tick wait timeout ecu) inp (m+1+N)
  have htk : (traj (World.start tick wait timeout ecu) inp (m+1+N)).vsm.ticksInState = UInt32.ofNat N := by
    have := (stay N (Nat.le_refl N)).2.1
    rw [traj_add]; exact this
  rw [hcfg'.1, hcfg'.2.1, htk] at h2
  rw [if_pos (by
    rw [UInt32.le_iff_toNat_le]
    show wait.toNat ≤ (tick * UInt32.ofNat N).toNat
    rw [mul_ofNat_toNat hnowrap hN]; exact hreach)] at h2
  refine ⟨h2.1, ?_⟩
  have h3 : outs (World.start tick wait timeout ecu) inp (m+1+N+1) = _ := h2.2.2
  rw [h3]
  show (outs (World.start tick wait timeout ecu) inp (m+1+N)).inverterEnables + 1 = _
  rw [hN'.2]

example : st (World.start 10 20 7000 false) demoInputs 3 ≠ .hvActive ∧
    st (World.start 10 20 7000 false) demoInputs (3+1) = .hvActive ∧
    (20:UInt32).toNat ≤ (10:UInt32).toNat * 2 ∧
    st (World.start 10 20 7000 false) demoInputs (3+1+2+1) = .hvCharging := by decide

/-- C06, HV charge.  Entered at tick `m`; as long as no fault is reported, no
sample shows the inverter READY and no accessible sample is late
(`tick*j > timeout`), the machine stays in HV_CHARGING; the first sample that
shows READY moves it to ACTIVE_NEUTRAL, otherwise the first accessible late
sample moves it to FAULT. -/
theorem C06_hv_charge (m K : Nat)
    (hprev : st (World.start tick wait timeout ecu) inp m ≠ .hvCharging)
    (henter : st (World.start tick wait timeout ecu) inp (m+1) = .hvCharging)
    (hnowrap : tick.toNat * K < 2^32) (hK : K < 2^32)
    (hnf : ∀ j, j ≤ K → (inp (m+1+j)).fault = .noFault)
    (hnotReady : ∀ j, j < K → ¬ ((inp (m+1+j)).access = true ∧ (inp (m+1+j)).invVsm = 5))
    (hnotLate : ∀ j, j < K → (inp (m+1+j)).access = true → tick.toNat * j ≤ timeout.toNat) :
    (∀ j, j ≤ K → st (World.start tick wait timeout ecu) inp (m+1+j) = .hvCharging) ∧
    ((inp (m+1+K)).access = true → (inp (m+1+K)).invVsm = 5 →
      st (World.start tick wait timeout ecu) inp (m+1+K+1) = .activeNeutral) ∧
    ((inp (m+1+K)).access = true → (inp (m+1+K)).invVsm ≠ 5 → timeout.toNat < tick.toNat * K →
      st (World.start tick wait timeout ecu) inp (m+1+K+1) = .fault) := by
  have hs := stable_start tick wait timeout ecu
  have hs1 := stable_traj hs inp (m+1)
  have ht : (traj (World.start tick wait timeout ecu) inp (m+1)).vsm.ticksInState = 0 := by
    apply ticks_reset
    show st _ inp (m+1) ≠ st _ inp m
    rw [henter]; exact fun h => hprev h.symm
  have hcfg := cfg_traj (World.start tick wait timeout ecu) inp (m+1)
  have c1 : (traj (World.start tick wait timeout ecu) inp (m+1)).vsm.tickRateMs = tick := hcfg.1
  have c3 : (traj (World.start tick wait timeout ecu) inp (m+1)).vsm.hvChargeTimeout = timeout := hcfg.2.2
  have stay := hvCharging_stay (inp := fun j => inp (m+1+j)) hs1 henter ht K
    (fun j hj => hnf j (by omega)) hnotReady
    (by
      intro j hj ha
      rw [c1, c3, mul_ofNat_toNat _ (by omega)]
      · exact hnotLate j hj ha
      · exact Nat.lt_of_le_of_lt (Nat.mul_le_mul_left _ (by omega : j ≤ K)) hnowrap)
  have conv : ∀ j, j ≤ K → st (World.start tick wait timeout ecu) inp (m+1+j) = .hvCharging := by
    intro j hj
    have := stay j hj
    unfold st at *
    rw [traj_add]
    exact this.1
  have hKst := conv K (Nat.le_refl K)
  have sp := spec_at hs inp (m+1+K)
  have h2 := (sp.hvCharging hKst (hnf K (Nat.le_refl K))).2.2
  have hcfg' := cfg_traj (World.start tick wait timeout ecu) inp (m+1+K)
  have htk : (traj (World.start tick wait timeout ecu) inp (m+1+K)).vsm.ticksInState = UInt32.ofNat K := by
    have := (stay K (Nat.le_refl K)).2
    rw [traj_add]; exact this
  rw [hcfg'.1, hcfg'.2.2, htk] at h2
  refine ⟨conv, fun ha hr => ?_, fun ha hr hl => ?_⟩
  · rw [if_pos ⟨ha, hr⟩] at h2; exact h2
  · rw [if_neg (by simp [hr]), if_pos ⟨ha, by
      rw [UInt32.lt_iff_toNat_lt]
      show timeout.toNat < (tick * UInt32.ofNat K).toNat
      rw [mul_ofNat_toNat hnowrap hK]; exact hl⟩] at h2
    exact h2.1

/-- C06, limit of the guarantee: with the shipped 10 ms tick and the largest
configurable wait, the wrapped 32-bit product never reaches the wait and
HV_ACTIVE is never left without a fault. -/
theorem C06_wrap_never_leaves_hvActive (m : Nat)
    (henter : st (World.start 10 0xFFFFFFFF timeout ecu) inp (m+1) = .hvActive)
    (hnf : ∀ j, (inp (m+1+j)).fault = .noFault) :
    ∀ j, st (World.start 10 0xFFFFFFFF timeout ecu) inp (m+1+j) = .hvActive := by
  intro j
  induction j with
  | zero => exact henter
  | succ j ih =>
    have hs := stable_start 10 0xFFFFFFFF timeout ecu
    have h2 := ((spec_at hs inp (m+1+j)).hvActive ih (hnf j)).2
    have hcfg := cfg_traj (World.start 10 0xFFFFFFFF timeout ecu) inp (m+1+j)
    rw [hcfg.1, hcfg.2.1] at h2
    rw [if_neg (by
      rw [UInt32.le_iff_toNat_le, UInt32.toNat_mul]
      show ¬ 4294967295 ≤ 10 * _ % 2^32
      generalize (traj (World.start 10 0xFFFFFFFF timeout ecu) inp (m+1+j)).vsm.ticksInState.toNat = x
      omega)] at h2
    exact h2.1

example : st (World.start 10 0xFFFFFFFF 7000 false) demoInputs 4 = .hvActive ∧
    (World.start 10 0xFFFFFFFF 7000 false).vsm.tickRateMs = 10 := by decide
example : st (World.start 10 20 7000 false) demoInputs 6 ≠ .hvCharging ∧
    st (World.start 10 20 7000 false) demoInputs 7 = .hvCharging ∧
    st (World.start 10 20 7000 false) demoInputs 8 = .activeNeutral := by decide

end Verif.Vsm
