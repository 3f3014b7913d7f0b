import Verif.Proofs.StateManager

set_option autoImplicit false

/-!
# Properties of the assembled state-manager task (C10, and end-to-end C02/C09)
-/

namespace Verif.StateMgr
open Verif.Vsm Verif.FaultMgr Verif.FaultSpec

/-- C10 is false for the shipped wiring: initialisation succeeds
(with any configuration), and then the very first notified wake-up of the task
dereferences NULL, whatever the vehicle data. -/
theorem C10_shipped_wiring_dereferences_null :
    ∀ cfg, ∃ sm, smInit true true true (shipped cfg) = .ok (.ok, sm) ∧
      ∀ (out : Outputs) (e : Env) (es : List Env), e.notified > 0 →
        smRun ⟨sm, out⟩ (e :: es) = .error .nullDeref := by
  intro cfg
  refine ⟨_, rfl, ?_⟩
  intro out e es he
  exact run_null _ e es he rfl

example : ∃ e : Env, e.notified > 0 := ⟨⟨1, none, none⟩, by decide⟩

/-- C10, what holds: with the missing pointer set (as the unit tests do by hand),
for every configuration initialisation succeeds and every history of wake-ups
executes without undefined behaviour.  Missing: the shipped wiring does not set
the pointer. -/
theorem C10_wired_runs_partial (cfg : Config) :
    ∃ sm, smInit true true true (wired cfg) = .ok (.ok, sm) ∧
      ∀ (out : Outputs) (es : List Env), ∃ s, smRun ⟨sm, out⟩ es = .ok s := by
  obtain ⟨sm, m0, h1, -, -, h2⟩ := init_wired cfg
  refine ⟨sm, h1, fun out es => ?_⟩
  obtain ⟨s, hs, -⟩ := run_ok cfg ⟨sm, out⟩ (h2 out).1 es
  exact ⟨s, hs⟩

/-- C02/C09 end to end, on vehicle data: take the correctly wired task and any
history of wake-ups in which some documented drive fault has occurred in the
samples seen up to wake-up `e` (at least one earlier wake-up ran), and at least
one later wake-up runs.  Then the task ends in FAULT with torque disabled, the
direction forward and the ECU error asserted. -/
theorem C02_end_to_end (cfg : Config) (ecu : Bool)
    (hl : inputSamples cfg 10 ≤ 65535) (hlb : bmsSamples cfg 10 ≤ 65535)
    (before : List Env) (e : Env) (after : List Env)
    (hbefore : ∃ x ∈ before, x.notified > 0) (he : e.notified > 0)
    (hafter : ∃ x ∈ after, x.notified > 0)
    (hcopy : e.copy.isSome)
    (hfault : DriveFault cfg 10
      (((before ++ [e]).filter (fun x => decide (x.notified > 0))).filterMap Env.copy)) :
    ∃ sm s, smInit true true true (wired cfg) = .ok (.ok, sm) ∧
      smRun ⟨sm, outStart ecu⟩ (before ++ [e] ++ after) = .ok s ∧
      s.sm.vsm.core.vsmState = .fault ∧
      s.out.torqueEnabled = false ∧ s.out.direction = .forward ∧ s.out.ecuError = true := by
  obtain ⟨sm, m0, h1, h0, hm, h2⟩ := init_wired cfg
  obtain ⟨hw, hstart⟩ := h2 (outStart ecu)
  obtain ⟨s, hs, -, hsw, -⟩ := run_ok cfg ⟨sm, outStart ecu⟩ hw (before ++ [e] ++ after)
  refine ⟨sm, s, h1, hs, ?_⟩
  have hstart' : World.ofSys ⟨sm, outStart ecu⟩ =
      World.start 10 cfg.vcu.hvActiveStateWait cfg.vcu.hvChargeTimeout ecu := hstart
  rw [hstart', hm] at hsw
  have hact : active (before ++ [e] ++ after) = active before ++ [e] ++ active after := by
    simp [active, he]
  rw [hact] at hsw
  generalize hB : active before = B at *
  generalize hA : active after = A at *
  have hBpos : 1 ≤ B.length := by
    obtain ⟨x, hx, hn⟩ := hbefore
    have : x ∈ B := by rw [← hB]; simp [active, hx, hn]
    exact List.length_pos_of_mem this
  have hApos : 1 ≤ A.length := by
    obtain ⟨x, hx, hn⟩ := hafter
    have : x ∈ A := by rw [← hA]; simp [active, hx, hn]
    exact List.length_pos_of_mem this
  have hdf : DriveFault cfg 10 ((B.map Env.copy ++ [e.copy]).filterMap id) := by
    have : (before ++ [e]).filter (fun x => decide (x.notified > 0)) = B ++ [e] := by
      rw [← hB]; simp [active, he]
    rw [this] at hfault
    have e2 : (B ++ [e]).filterMap Env.copy = (B.map Env.copy ++ [e.copy]).filterMap id := by
      rw [← List.map_singleton, ← List.map_append, List.filterMap_map]; rfl
    rw [← e2]; exact hfault
  set is := inputsOf cfg m0 (B ++ [e] ++ A) with his
  set inp : Nat → In := fun n => is.getD n ⟨.noFault, false, false, 0⟩ with hinp
  have htr := run_eq_traj (World.start 10 cfg.vcu.hvActiveStateWait cfg.vcu.hvChargeTimeout ecu) is inp
    (fun n hn => by simp [hinp, List.getD_eq_getElem?_getD, hn])
  rw [htr] at hsw
  have hlen : is.length = B.length + 1 + A.length := by
    rw [his, inputsOf_length]; simp; omega
  have hinpB : (inp B.length).fault = .fault := by
    have : inp B.length = handlerInput (FaultMgr.step cfg (fmAfter cfg m0 B) e.copy).1 e.access := by
      simp only [hinp, his, List.append_assoc, inputsOf_append, List.getD_eq_getElem?_getD]
      rw [List.getElem?_append_right (by rw [inputsOf_length])]
      simp [inputsOf_length, inputsOf]
    rw [this]
    have hst := (C09_status_exact cfg 10 m0 h0 hl hlb (B.map Env.copy) e.copy).1.mpr ⟨hcopy, hdf⟩
    have : (FaultMgr.step cfg (fmAfter cfg m0 B) e.copy).1 = .fault := hst
    rw [this]; cases e.access <;> rfl
  have hfin := (C02_fault_is_safe 10 cfg.vcu.hvActiveStateWait cfg.vcu.hvChargeTimeout ecu inp
    B.length hBpos hinpB).2 is.length (by omega)
  unfold st outs at hfin
  rw [← hsw] at hfin
  exact hfin

/-- Non-vacuous: two zero samples (state of charge 0 is below the default limit). -/
example : DriveFault Config.default 10
    ((([⟨1, some VData.zero, none⟩] ++ [⟨1, some VData.zero, none⟩] : List Env).filter
      (fun x => decide (x.notified > 0))).filterMap Env.copy) := by
  refine Or.inr (Or.inr (Or.inr (Or.inr (Or.inr (Or.inr (Or.inr (Or.inl ⟨VData.zero, ?_, ?_⟩)))))))
  · simp
  · unfold lowSoc; decide +kernel

theorem inputsOf_get (cfg : Config) : ∀ (xs : List Env) (m : Internal) (n : Nat)
    (hn : n < xs.length),
    (inputsOf cfg m xs)[n]'(by rw [inputsOf_length]; exact hn) =
      handlerInput (FaultMgr.step cfg (fmAfter cfg m (xs.take n)) xs[n].copy).1 xs[n].access
  | [], _, _, hn => absurd hn (Nat.not_lt_zero _)
  | x :: xs, m, 0, _ => rfl
  | x :: xs, m, n + 1, hn => by
    simp only [inputsOf, List.getElem_cons_succ, List.take_succ_cons]
    rw [inputsOf_get cfg xs _ n (by simpa using hn)]
    rfl

/-- The vehicle data that wake-up `n` of a history of active wake-ups acquires. -/
def acquired (A : List Env) (n : Nat) : Option VData := A[n]?.bind Env.access

/-- C04/C05/C09 end to end, on vehicle data: whenever the correctly wired task is driving forward
after some history of wake-ups, the vehicle data it saw contained a pressed start button (wake-up
`b`), later an inverter that reports READY (`d`), later a pressed button (`e`), and between the two
presses a released button (`r`), all in successfully acquired samples. From the first press on
every copy of the data for the fault checks succeeded, and no documented drive fault is in the
samples seen. -/
theorem C04_end_to_end (cfg : Config) (ecu : Bool)
    (hl : inputSamples cfg 10 ≤ 65535) (hlb : bmsSamples cfg 10 ≤ 65535) (es : List Env) :
    ∃ sm s, smInit true true true (wired cfg) = .ok (.ok, sm) ∧
      smRun ⟨sm, outStart ecu⟩ es = .ok s ∧
      (s.sm.vsm.core.vsmState = .activeForward →
        ∀ A, A = es.filter (fun x => decide (x.notified > 0)) →
        ∃ b d r e : Nat, b < d ∧ d < e ∧ b < r ∧ r < e ∧ e < A.length ∧
          (∃ x, acquired A b = some x ∧ x.dash.buttonPressed = true) ∧
          (∃ x, acquired A d = some x ∧ x.inverter.vsmState = 5) ∧
          (∃ x, acquired A r = some x ∧ x.dash.buttonPressed = false) ∧
          (∃ x, acquired A e = some x ∧ x.dash.buttonPressed = true) ∧
          (∀ x ∈ A.drop b, x.copy.isSome) ∧
          ¬ DriveFault cfg 10 (A.filterMap Env.copy)) := by
  obtain ⟨sm, m0, h1, h0, hm, h2⟩ := init_wired cfg
  obtain ⟨hw, hstart⟩ := h2 (outStart ecu)
  obtain ⟨s, hs, -, hsw, -⟩ := run_ok cfg ⟨sm, outStart ecu⟩ hw es
  refine ⟨sm, s, h1, hs, ?_⟩
  intro hfwd A hA
  have hstart' : World.ofSys ⟨sm, outStart ecu⟩ =
      World.start 10 cfg.vcu.hvActiveStateWait cfg.vcu.hvChargeTimeout ecu := hstart
  rw [hstart', hm] at hsw
  have hA' : active es = A := hA.symm
  rw [hA'] at hsw
  set is := inputsOf cfg m0 A with his
  have hlen : is.length = A.length := inputsOf_length ..
  set inp : Nat → In := fun n => is.getD n ⟨.noFault, false, false, 0⟩ with hinp
  have htr := run_eq_traj (World.start 10 cfg.vcu.hvActiveStateWait cfg.vcu.hvChargeTimeout ecu)
    is inp (fun n hn => by simp [hinp, List.getD_eq_getElem?_getD, hn])
  rw [htr] at hsw
  have hst : st (World.start 10 cfg.vcu.hvActiveStateWait cfg.vcu.hvChargeTimeout ecu) inp
      is.length = .activeForward := by
    unfold st; rw [← hsw]; exact hfwd
  have hin : ∀ n, (hn : n < A.length) → inp n =
      handlerInput (FaultMgr.step cfg (fmAfter cfg m0 (A.take n)) A[n].copy).1 A[n].access := by
    intro n hn
    rw [← inputsOf_get cfg A m0 n hn]
    simp [hinp, List.getD_eq_getElem?_getD, ← his, hlen, hn]
  have hacc : ∀ n, n < A.length → (inp n).access = true →
      ∃ x, acquired A n = some x ∧ (inp n).button = x.dash.buttonPressed ∧
        (inp n).invVsm = x.inverter.vsmState.toNat := by
    intro n hn ha
    rw [hin n hn] at ha ⊢
    unfold acquired
    rw [List.getElem?_eq_getElem hn, Option.bind_some]
    cases hx : A[n].access with
    | none => rw [hx] at ha; cases ha
    | some x => exact ⟨x, rfl, rfl, rfl⟩
  have hflt : ∀ n, (hn : n < A.length) → (inp n).fault = .noFault →
      A[n].copy.isSome ∧ ¬ DriveFault cfg 10 ((A.take (n + 1)).filterMap Env.copy) := by
    intro n hn hf
    rw [hin n hn] at hf
    have hf' : (FaultMgr.step cfg (fmAfter cfg m0 (A.take n)) A[n].copy).1 = .noFault := by
      cases hx : A[n].access with
      | none => rw [hx] at hf; exact hf
      | some x => rw [hx] at hf; exact hf
    have := (C09_status_exact cfg 10 m0 h0 hl hlb ((A.take n).map Env.copy) A[n].copy).2.2.mp hf'
    refine ⟨this.1, ?_⟩
    have e2 : (A.take (n + 1)).filterMap Env.copy =
        ((A.take n).map Env.copy ++ [A[n].copy]).filterMap id := by
      rw [List.take_succ_eq_append_getElem hn, ← List.map_singleton, ← List.map_append,
        List.filterMap_map]; rfl
    rw [e2]; exact this.2
  obtain ⟨a, b, c, d, e, hp⟩ := C04_ordered_startup 10 cfg.vcu.hvActiveStateWait
    cfg.vcu.hvChargeTimeout ecu inp is.length hst
  obtain ⟨o1, o2, o3, o4, o5, o6⟩ := hp.order
  obtain ⟨xb, hb1, hb2, _⟩ := hacc b (by omega) hp.hvRequest.access
  obtain ⟨xd, hd1, _, hd3⟩ := hacc d (by omega) hp.inverterReady.1
  obtain ⟨xe, he1, he2, _⟩ := hacc e (by omega) hp.driveRequest.2.access
  -- a released sample between the two presses
  have hrel : ∃ r, b < r ∧ r < e ∧ (inp r).access = true ∧ (inp r).button = false := by
    by_contra hno
    have key : ∀ k, b + 1 + k ≤ e → lastSample (World.start 10 cfg.vcu.hvActiveStateWait
        cfg.vcu.hvChargeTimeout ecu) inp (b + 1 + k) = true := by
      intro k
      induction k with
      | zero =>
        intro _
        show lastSample _ inp (b + 1) = true
        unfold lastSample
        rw [if_pos ⟨by rw [hp.ready b (by omega) (by omega)]; rfl, hp.hvRequest.noFault,
          hp.hvRequest.access⟩]
        exact hp.hvRequest.pressed
      | succ k ih =>
        intro hk
        show lastSample _ inp (b + 1 + k + 1) = true
        unfold lastSample
        split
        · rename_i hc
          by_contra hb
          exact hno ⟨b + 1 + k, by omega, by omega, hc.2.2, by simpa using hb⟩
        · exact ih (by omega)
    have h3 := key (e - (b + 1)) (by omega)
    rw [show b + 1 + (e - (b + 1)) = e by omega, hp.driveRequest.2.wasReleased] at h3
    cases h3
  obtain ⟨r, hr1, hr2, hr3, hr4⟩ := hrel
  obtain ⟨xr, hx1, hx2, _⟩ := hacc r (by omega) hr3
  refine ⟨b, d, r, e, by omega, o5, hr1, hr2, by omega, ⟨xb, hb1, hb2 ▸ hp.hvRequest.pressed⟩,
    ⟨xd, hd1, ?_⟩, ⟨xr, hx1, hx2 ▸ hr4⟩, ⟨xe, he1, he2 ▸ hp.driveRequest.2.pressed⟩, ?_, ?_⟩
  · have := hp.inverterReady.2
    rw [hd3] at this
    exact UInt8.toNat_inj.mp this
  · intro x hx
    obtain ⟨k, hk, rfl⟩ := List.getElem_of_mem hx
    rw [List.length_drop] at hk
    rw [List.getElem_drop]
    exact (hflt (b + k) (by omega) (hp.noFaults (b + k) (by omega) (by omega))).1
  · have := (hflt (is.length - 1) (by omega) (hp.noFaults _ (by omega) (by omega))).2
    rw [show is.length - 1 + 1 = A.length by omega, List.take_length] at this
    exact this

/-- A healthy sample with the given button and inverter state. -/
def demoData (button : Bool) (inv : UInt8) : VData :=
  { VData.zero with
    dash := ⟨button, false⟩
    battery := { VData.zero.battery with stateOfCarge := .fin 2000 }
    inverter := { VData.zero.inverter with vsmState := inv } }

/-- A wake-up that sees it. -/
def demoWake (button : Bool) (inv : UInt8) : Env :=
  ⟨1, some (demoData button inv), some (demoData button inv)⟩

/-- With the shipped configuration except for a 20 ms HV wait, this history ends in drive. -/
example :
    ((smInit true true true (wired { Config.default with vcu := ⟨20, 7000⟩ })).bind fun r =>
      (smRun ⟨r.2, outStart false⟩
        [demoWake false 0, demoWake false 0, demoWake true 0, demoWake false 0, demoWake false 0,
         demoWake false 0, demoWake false 5, demoWake false 5, demoWake true 5]).map
          fun s => (s.sm.vsm.core.vsmState, s.out.torqueEnabled)) =
      .ok (.activeForward, true) := by decide +kernel

end Verif.StateMgr
