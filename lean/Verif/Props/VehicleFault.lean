import Verif.Props.PcIsolation
import Verif.Props.Drive
import Verif.Props.StateManager
import Verif.Props.FaultManager

set_option autoImplicit false

/-!
# From a fault in the vehicle data to zero torque on the bus (C104)
-/

namespace Verif.Vehicle
open InvDrv Verif.FaultSpec

/-! ## What the state manager copied -/

/-- The sample a step takes for the fault checks, if it takes one: `some none` when the data could
not be copied. -/
def copied (s : St) : Ev → Option (Option VData)
  | .copy ok => if s.status = none ∧ s.pending = [] then some (if ok then some s.vd else none) else none
  | _ => none

/-- All samples of a history, oldest first. -/
def copies (s : St) : List Ev → List (Option VData)
  | [] => []
  | e :: es => (copied s e).toList ++
    match step s e with
    | .ok r => copies r.1 es
    | .error _ => []

/-- The data written by the other tasks are floats. -/
def FloatWrites (es : List Ev) : Prop := ∀ d, Ev.write d ∈ es → F32.IsFloat d.inputs.accel

/-! ## Simulation by the torque path model -/

/-- The torque path model is in the same situation. -/
structure Rel (s : St) (d : Drive.St) : Prop where
  vsm : d.vsm = s.mgr.vsm.core
  pending : d.pending = s.pending
  thr : d.thr = s.thr
  cmd : d.cmd = s.cmd

/-- Fault manager after these samples. -/
def after (cfg : Config) (m0 : FaultMgr.Internal) (h : List (Option VData)) : FaultMgr.Internal :=
  h.foldl (fun m d => (FaultMgr.step cfg m d).2) m0

/-- Invariant, for the samples taken so far. -/
structure Inv (cfg : Config) (m0 : FaultMgr.Internal) (h : List (Option VData)) (s : St) : Prop where
  i : s.mgr.vsm.inputState ≠ none
  c : s.mgr.vsm.control ≠ none
  t : s.mgr.vsm.throttleController ≠ none
  d : s.mgr.vsm.faultMgr.vehicleData ≠ none
  conf : s.mgr.vsm.faultMgr.vehicleConfig = some cfg
  internal : s.mgr.vsm.faultMgr.internal = after cfg m0 h
  busy : s.status ≠ none → s.pending = []
  status : ∀ f, s.status = some f → ∃ h' d, h = h' ++ [d] ∧ f = (FaultMgr.step cfg (after cfg m0 h') d).1
  settled : s.mgr.vsm.core.nextState = s.mgr.vsm.core.vsmState
  valid : ∀ n, s.mgr.vsm.core.vsmState ≠ .other n
  started : s.status.toList.length + 1 ≤ h.length → s.mgr.vsm.core.vsmState ≠ .init
  float : F32.IsFloat s.vd.inputs.accel

/-- A step of the state machine leaves INIT and stays among the named states. -/
theorem vsm_step_state (v : Vsm.Vsm) (i : Vsm.In) (hn : v.nextState = v.vsmState)
    (hv : ∀ n, v.vsmState ≠ .other n) :
    (Vsm.step v i).1.vsmState ≠ .init ∧ ∀ n, (Vsm.step v i).1.vsmState ≠ .other n := by
  have key : ∀ w : Vsm.Vsm, (Vsm.advance w).vsmState = w.nextState := by
    intro w
    unfold Vsm.advance
    dsimp only
    by_cases h : w.vsmState ≠ w.nextState
    · rw [if_pos h]
    · rw [if_neg h]; exact not_not.mp h
  have h1 : (Vsm.step v i).1.vsmState = (Vsm.handle v i).1.nextState := key _
  rw [h1]
  unfold Vsm.handle
  cases hs : v.vsmState with
  | init => simp [Vsm.stateInit]
  | lvStartup =>
    simp only [Vsm.stateLvStartup]; rw [hs] at hn
    repeat' split
    all_goals simp [hn]
  | lvReady =>
    simp only [Vsm.stateLvReady]; rw [hs] at hn
    repeat' split
    all_goals simp [hn]
  | hvActive =>
    simp only [Vsm.stateHvActive]; rw [hs] at hn
    repeat' split
    all_goals simp [hn]
  | hvCharging =>
    simp only [Vsm.stateHvCharging]; rw [hs] at hn
    repeat' split
    all_goals simp [hn]
  | activeNeutral =>
    simp only [Vsm.stateActiveNeutral]; rw [hs] at hn
    repeat' split
    all_goals simp [hn]
  | activeForward =>
    simp only [Vsm.stateActiveForward]; rw [hs] at hn
    repeat' split
    all_goals simp [hn]
  | fault => simp [Vsm.stateFault, hn, hs]
  | other n => exact absurd hs (hv n)

/-- A step that is told of a drive fault, anywhere but in INIT, ends in FAULT. -/
theorem vsm_step_fault (v : Vsm.Vsm) (i : Vsm.In) (hf : i.fault = .fault)
    (hn : v.nextState = v.vsmState) (hi : v.vsmState ≠ .init) (hv : ∀ n, v.vsmState ≠ .other n) :
    (Vsm.step v i).1.vsmState = .fault ∧ (Vsm.step v i).1.nextState = .fault ∧
    ∀ o ∈ (Vsm.step v i).2, o = .motorDirection .forward ∨ o = .torqueEnabled false ∨ o = .ecuError true := by
  have hset := Drive.settled_vsm v i
  have key : ∀ w : Vsm.Vsm, (Vsm.advance w).vsmState = w.nextState := by
    intro w
    unfold Vsm.advance
    dsimp only
    by_cases h : w.vsmState ≠ w.nextState
    · rw [if_pos h]
    · rw [if_neg h]; exact not_not.mp h
  have h1 : (Vsm.step v i).1.vsmState = (Vsm.handle v i).1.nextState := key _
  have h2 : (Vsm.step v i).2 = (Vsm.handle v i).2 := rfl
  have hne : i.fault ≠ .noFault := by rw [hf]; decide
  suffices h : (Vsm.handle v i).1.nextState = .fault ∧
      ∀ o ∈ (Vsm.handle v i).2, o = .motorDirection .forward ∨ o = .torqueEnabled false ∨ o = .ecuError true by
    exact ⟨h1.trans h.1, hset.trans (h1.trans h.1), h2 ▸ h.2⟩
  unfold Vsm.handle
  cases hs : v.vsmState with
  | init => exact absurd hs hi
  | lvStartup => simp [Vsm.stateLvStartup, hf]
  | lvReady => simp [Vsm.stateLvReady, hf]
  | hvActive => simp [Vsm.stateHvActive, hf]
  | hvCharging => simp [Vsm.stateHvCharging, hf]
  | activeNeutral => simp [Vsm.stateActiveNeutral, hf]
  | activeForward => simp [Vsm.stateActiveForward, hf]
  | fault => simp [Vsm.stateFault, hn, hs]
  | other n => exact absurd hs (hv n)

theorem after_snoc (cfg : Config) (m0 : FaultMgr.Internal) (h : List (Option VData)) (d : Option VData) :
    after cfg m0 (h ++ [d]) = (FaultMgr.step cfg (after cfg m0 h) d).2 := by
  simp [after]

theorem Inv.same {cfg : Config} {m0 : FaultMgr.Internal} {h : List (Option VData)} {s s' : St}
    (hi : Inv cfg m0 h s) (hm : s'.mgr = s.mgr) (hs : s'.status = s.status)
    (hp : s'.pending = s.pending ∨ s.status = none) (hf : F32.IsFloat s'.vd.inputs.accel) :
    Inv cfg m0 h s' := by
  refine ⟨hm ▸ hi.i, hm ▸ hi.c, hm ▸ hi.t, hm ▸ hi.d, hm ▸ hi.conf, hm ▸ hi.internal, ?_, ?_, hm ▸ hi.settled,
    hm ▸ hi.valid, ?_, hf⟩
  · intro hn
    rw [hs] at hn
    rcases hp with hp | hp
    · rw [hp]; exact hi.busy hn
    · exact absurd hp hn
  · rw [hs]; exact hi.status
  · rw [hs, hm]; exact hi.started

/-- One event keeps the invariant, and the torque path model can follow it. -/
theorem step_sim {cfg : Config} {m0 : FaultMgr.Internal} {h : List (Option VData)} {s s' : St}
    {d : Drive.St} {e : Ev} {fs : List Sent} (hi : Inv cfg m0 h s) (hr : Rel s d)
    (hw : ∀ v, e = .write v → F32.IsFloat v.inputs.accel) (hs : step s e = .ok (s', fs)) :
    Inv cfg m0 (h ++ (copied s e).toList) s' ∧
    ∃ ds d', Drive.run d ds = .ok (d', fs) ∧ Rel s' d' ∧ Drive.FloatEvents ds ∧
      (∀ i, Drive.Ev.tick i ∈ ds → ∃ ok, e = .handle ok) ∧ ds.length ≤ 1 := by
  have hnil : ∀ (h' : s' = s) (hf : fs = []), ∃ ds d', Drive.run d ds = .ok (d', fs) ∧ Rel s' d' ∧
      Drive.FloatEvents ds ∧ (∀ i, Drive.Ev.tick i ∈ ds → ∃ ok, e = .handle ok) ∧ ds.length ≤ 1 := by
    rintro rfl rfl
    exact ⟨[], d, rfl, hr, fun _ _ hm => (by cases hm), fun _ hm => (by cases hm), Nat.zero_le _⟩
  by_cases hpc : e.isPc = true
  · obtain ⟨rfl, hsd, -⟩ := pc_step hpc hs
    have hc : copied s e = none := by cases e <;> first | rfl | cases hpc
    rw [hc, Option.toList_none, List.append_nil]
    refine ⟨hi.same hsd.manager hsd.status (.inl hsd.pending) (hsd.inputs ▸ hi.float), [], d, rfl,
      ⟨hr.vsm.trans (by rw [hsd.manager]), hr.pending.trans hsd.pending.symm,
        hr.thr.trans hsd.throttle.symm, hr.cmd.trans hsd.command.symm⟩,
      fun _ _ hm => (by cases hm), fun _ hm => (by cases hm), Nat.zero_le _⟩
  cases e with
  | pcBatch b c => exact absurd rfl hpc
  | pcAct l => exact absurd rfl hpc
  | write v =>
    simp only [step] at hs
    cases hs
    rw [show copied s (.write v) = none from rfl, Option.toList_none, List.append_nil]
    refine ⟨hi.same rfl rfl (.inl rfl) (hw v rfl), [], d, rfl, ⟨hr.vsm, hr.pending, hr.thr, hr.cmd⟩,
      fun _ _ hm => (by cases hm), fun _ hm => (by cases hm), Nat.zero_le _⟩
  | copy ok =>
    simp only [step] at hs
    simp only [copied]
    by_cases hc : s.status = none ∧ s.pending = []
    · rw [if_pos hc] at hs ⊢
      rw [StateMgr.fmStepObj_ok cfg _ _ hi.d hi.conf] at hs
      dsimp only at hs
      cases hs
      refine ⟨⟨hi.i, hi.c, hi.t, hi.d, hi.conf, ?_, fun _ => hc.2, ?_, hi.settled, hi.valid, ?_, hi.float⟩,
        [], d, rfl, ⟨hr.vsm, hr.pending, hr.thr, hr.cmd⟩, fun _ _ hm => (by cases hm),
        fun _ hm => (by cases hm), Nat.zero_le _⟩
      · rw [Option.toList_some, after_snoc, ← hi.internal]
      · intro f hf
        cases hf
        exact ⟨h, _, rfl, by rw [← hi.internal]⟩
      · intro hn
        refine hi.started ?_
        rw [hc.1]
        simp at hn ⊢
        omega
    · rw [if_neg hc] at hs ⊢
      cases hs
      rw [Option.toList_none, List.append_nil]
      exact ⟨hi, hnil rfl rfl⟩
  | handle ok =>
    rw [show copied s (.handle ok) = none from rfl, Option.toList_none, List.append_nil]
    simp only [step] at hs
    cases hst : s.status with
    | none =>
      rw [hst] at hs
      cases hs
      exact ⟨hi, hnil rfl rfl⟩
    | some f =>
      rw [hst] at hs
      dsimp only at hs
      rw [if_neg (by simp [hi.i, hi.c, hi.t])] at hs
      have hp : s.pending = [] := hi.busy (by rw [hst]; simp)
      obtain ⟨v1, v2⟩ := vsm_step_state s.mgr.vsm.core
        (StateMgr.handlerInput f (if ok then some s.vd else none)) hi.settled hi.valid
      have v3 := Drive.settled_vsm s.mgr.vsm.core (StateMgr.handlerInput f (if ok then some s.vd else none))
      cases hs
      refine ⟨⟨hi.i, hi.c, hi.t, hi.d, hi.conf, hi.internal, fun hn => absurd rfl hn, (by rintro f' ⟨⟩), v3,
        v2, fun _ => v1, hi.float⟩, [.tick (StateMgr.handlerInput f (if ok then some s.vd else none))],
        { d with
          vsm := (Vsm.step d.vsm (StateMgr.handlerInput f (if ok then some s.vd else none))).1
          pending := (Vsm.step d.vsm (StateMgr.handlerInput f (if ok then some s.vd else none))).2 },
        ?_, ⟨?_, ?_, hr.thr, hr.cmd⟩, ?_, fun _ _ => ⟨ok, rfl⟩, le_rfl⟩
      · simp only [Drive.run, Drive.step, hr.pending, hp]
        rfl
      · dsimp only; rw [hr.vsm]
      · dsimp only; rw [hr.vsm]
      · intro a en hm
        simp at hm
  | call en =>
    rw [show copied s (.call en) = none from rfl, Option.toList_none, List.append_nil]
    simp only [step] at hs
    cases hp : s.pending with
    | nil => rw [hp] at hs; cases hs; exact ⟨hi, hnil rfl rfl⟩
    | cons o os =>
      rw [hp] at hs
      dsimp only at hs
      have hst : s.status = none := by
        by_contra hn
        rw [hi.busy hn] at hp; cases hp
      have hfl : Drive.FloatEvents [Drive.Ev.call en] := by
        intro a en' hm; simp at hm
      have hnt : ∀ i, Drive.Ev.tick i ∈ [Drive.Ev.call en] → ∃ ok, Ev.call en = .handle ok := by
        intro i hm; simp at hm
      unfold applyOut at hs
      dsimp only at hs
      have hdp : d.pending = o :: os := hr.pending.trans hp
      cases o with
      | ecuError b =>
        simp only [Drive.apply] at hs
        cases hs
        refine ⟨hi.same rfl rfl (.inr hst) hi.float, [.call en], { d with pending := os, ecuError := b }, ?_,
          ⟨hr.vsm, rfl, hr.thr, hr.cmd⟩, hfl, hnt, le_rfl⟩
        simp only [Drive.run, Drive.step, hdp, Drive.apply]
        rfl
      | motorDirection x =>
        simp only [Drive.apply] at hs
        cases hs
        refine ⟨hi.same rfl rfl (.inr hst) hi.float, [.call en],
          { d with pending := os, thr := (Throttle.step s.thr (.setDirection (Drive.dirCode x))).1 }, ?_,
          ⟨hr.vsm, rfl, rfl, hr.cmd⟩, hfl, hnt, le_rfl⟩
        simp only [Drive.run, Drive.step, hdp, Drive.apply, hr.thr]
        rfl
      | torqueEnabled x =>
        simp only [Drive.apply] at hs
        cases hs
        refine ⟨hi.same rfl rfl (.inr hst) hi.float, [.call en],
          { d with pending := os, thr := (Throttle.step s.thr (.setEnabled x)).1 }, ?_,
          ⟨hr.vsm, rfl, rfl, hr.cmd⟩, hfl, hnt, le_rfl⟩
        simp only [Drive.run, Drive.step, hdp, Drive.apply, hr.thr]
        rfl
      | enableInverter =>
        simp only [Drive.apply] at hs
        cases hx : sendInverterEnabled s.cmd en true with
        | error u => rw [hx] at hs; cases hs
        | ok r =>
          rw [hx] at hs
          dsimp only at hs
          cases hs
          refine ⟨hi.same rfl rfl (.inr hst) hi.float, [.call en],
            { d with pending := os, cmd := r.cmd }, ?_,
            ⟨hr.vsm, rfl, hr.thr, rfl⟩, hfl, hnt, le_rfl⟩
          simp only [Drive.run, Drive.step, hdp, Drive.apply, hr.cmd, hx, List.append_nil]
  | throttle ok en =>
    rw [show copied s (.throttle ok en) = none from rfl, Option.toList_none, List.append_nil]
    simp only [step] at hs
    cases hx : Drive.issue s.cmd en
        (Throttle.step s.thr (.task (if ok then some s.vd.inputs.accel else none))).2 with
    | error u => rw [hx] at hs; cases hs
    | ok r =>
      obtain ⟨c, g⟩ := r
      rw [hx] at hs
      dsimp only at hs
      cases hs
      refine ⟨hi.same rfl rfl (.inl rfl) hi.float,
        [.throttle (if ok then some s.vd.inputs.accel else none) en],
        { d with thr := (Throttle.step s.thr (.task (if ok then some s.vd.inputs.accel else none))).1, cmd := c },
        ?_, ⟨hr.vsm, hr.pending, rfl, rfl⟩, ?_, (fun i hm => by simp at hm), le_rfl⟩
      · simp only [Drive.run, Drive.step, hr.thr, hr.cmd, hx, List.append_nil]
      · intro a en' hm
        simp only [List.mem_singleton, Drive.Ev.throttle.injEq] at hm
        cases ok with
        | false => cases hm.1
        | true => obtain ⟨h1, -⟩ := hm; cases h1; exact hi.float

theorem drive_append {d d1 d2 : Drive.St} {a b : List Drive.Ev} {f1 f2 : List Sent}
    (h1 : Drive.run d a = .ok (d1, f1)) (h2 : Drive.run d1 b = .ok (d2, f2)) :
    Drive.run d (a ++ b) = .ok (d2, f1 ++ f2) := by
  induction a generalizing d f1 with
  | nil => simp only [Drive.run] at h1; cases h1; exact h2
  | cons e es ih =>
    obtain ⟨s', g, g', h3, h4, rfl⟩ := Drive.run_cons h1
    simp only [List.cons_append, Drive.run, h3, ih h4, List.append_assoc]

/-- A whole history. -/
theorem run_sim {cfg : Config} {m0 : FaultMgr.Internal} : ∀ (es : List Ev) (h : List (Option VData))
    (s s' : St) (d : Drive.St) (fs : List Sent), Inv cfg m0 h s → Rel s d → FloatWrites es →
    run s es = .ok (s', fs) →
    Inv cfg m0 (h ++ copies s es) s' ∧
    ∃ ds d', Drive.run d ds = .ok (d', fs) ∧ Rel s' d' ∧ Drive.FloatEvents ds
  | [], h, s, s', d, fs, hi, hr, _, hs => by
    simp only [run] at hs
    cases hs
    simp only [copies, List.append_nil]
    exact ⟨hi, [], d, rfl, hr, fun _ _ hm => (by cases hm)⟩
  | e :: es, h, s, s', d, fs, hi, hr, hf, hs => by
    obtain ⟨s1, f1, f2, h1, h2, rfl⟩ := run_cons hs
    obtain ⟨i1, ds1, d1, q1, r1, l1, -⟩ := step_sim hi hr (fun v hv => hf v (by simp [hv])) h1
    obtain ⟨i2, ds2, d2, q2, r2, l2⟩ := run_sim es _ s1 s' d1 f2 i1 r1
      (fun v hv => hf v (List.mem_cons_of_mem _ hv)) h2
    refine ⟨?_, ds1 ++ ds2, d2, drive_append q1 q2, r2, ?_⟩
    · simp only [copies, h1]
      rw [← List.append_assoc]
      exact i2
    · intro a en hm
      rcases List.mem_append.mp hm with hm | hm
      · exact l1 a en hm
      · exact l2 a en hm

/-- While a verdict of the fault manager is waiting for its handler, only the handler consumes it. -/
theorem split_handle : ∀ (es : List Ev) (s s' : St) (fs : List Sent) (f : Vsm.FaultStatus),
    s.status = some f → s'.status = none → run s es = .ok (s', fs) →
    ∃ a ok b s1 f1 f2, es = a ++ .handle ok :: b ∧ run s a = .ok (s1, f1) ∧ s1.status = some f ∧
      run s1 (.handle ok :: b) = .ok (s', f2) ∧ fs = f1 ++ f2
  | [], s, s', fs, f, h1, h2, hr => by
    simp only [run] at hr
    cases hr
    rw [h1] at h2; cases h2
  | e :: es, s, s', fs, f, h1, h2, hr => by
    by_cases he : ∃ ok, e = .handle ok
    · obtain ⟨ok, rfl⟩ := he
      exact ⟨[], ok, es, s, [], fs, rfl, rfl, h1, hr, rfl⟩
    · obtain ⟨sx, g1, g2, q1, q2, rfl⟩ := run_cons hr
      have hst : sx.status = some f := by
        by_cases hpc : e.isPc = true
        · obtain ⟨-, hsd, -⟩ := pc_step hpc q1
          rw [hsd.status, h1]
        cases e with
        | pcBatch b c => exact absurd rfl hpc
        | pcAct l => exact absurd rfl hpc
        | handle ok => exact absurd ⟨ok, rfl⟩ he
        | write v => simp only [step] at q1; cases q1; exact h1
        | copy ok =>
          simp only [step] at q1
          rw [if_neg (by rw [h1]; simp)] at q1
          cases q1; exact h1
        | call en =>
          simp only [step] at q1
          split at q1
          · cases q1; exact h1
          · unfold applyOut at q1
            split at q1
            · cases q1
            · cases q1; exact h1
        | throttle ok en =>
          simp only [step] at q1
          split at q1
          · cases q1
          · cases q1; exact h1
      obtain ⟨a, ok, b, s1, f1, f2, e1, e2, e3, e4, e5⟩ := split_handle es sx s' g2 f hst h2 q2
      refine ⟨e :: a, ok, b, s1, g1 ++ f1, f2, by rw [e1]; rfl, ?_, e3, e4, by rw [e5, List.append_assoc]⟩
      simp only [run, q1, e2]

theorem heldFor_append {α : Type} {bad : α → Prop} {n : Nat} {h : List α} (k : List α)
    (hh : HeldFor bad n h) : HeldFor bad n (h ++ k) := by
  obtain ⟨a, b, c, rfl, h1, h2⟩ := hh
  exact ⟨a, b, c ++ k, by simp only [List.append_assoc], h1, h2⟩

/-- A fault stays in the history. -/
theorem driveFault_append {cfg : Config} {tick : UInt32} {h : List VData} (k : List VData)
    (hh : DriveFault cfg tick h) : DriveFault cfg tick (h ++ k) := by
  rcases hh with h | h | h | h | h | h | h | ⟨d, h1, h2⟩ | ⟨d, h1, h2⟩
  · exact .inl (heldFor_append k h)
  · exact .inr (.inl (heldFor_append k h))
  · exact .inr (.inr (.inl (heldFor_append k h)))
  · exact .inr (.inr (.inr (.inl (heldFor_append k h))))
  · exact .inr (.inr (.inr (.inr (.inl (heldFor_append k h)))))
  · exact .inr (.inr (.inr (.inr (.inr (.inl (heldFor_append k h))))))
  · exact .inr (.inr (.inr (.inr (.inr (.inr (.inl (heldFor_append k h)))))))
  · exact .inr (.inr (.inr (.inr (.inr (.inr (.inr (.inl ⟨d, List.mem_append_left _ h1, h2⟩)))))))
  · exact .inr (.inr (.inr (.inr (.inr (.inr (.inr (.inr ⟨d, List.mem_append_left _ h1, h2⟩)))))))

theorem drive_state_fault : ∀ (es : List Drive.Ev) (s s' : Drive.St) (fs : List Sent), Drive.Faulted s →
    Drive.run s es = .ok (s', fs) → Drive.Faulted s'
  | [], s, s', fs, h, hr => by simp only [Drive.run] at hr; cases hr; exact h
  | e :: es, s, s', fs, h, hr => by
    obtain ⟨s1, f1, f2, h1, h2, rfl⟩ := Drive.run_cons hr
    exact drive_state_fault es s1 s' f2 (Drive.faulted_step h h1).1 h2

variable (cfg : Config) (sm : StateMgr.StateManager) (dec : MsgFrame.Dec) (buf : Nat → UInt8)
  (ecu control : Bool)

theorem start_inv (hsm : StateMgr.smInit true true true (StateMgr.wired cfg) = .ok (.ok, sm)) :
    ∃ m0, FaultMgr.init cfg 10 = .ok m0 ∧ Inv cfg m0 [] (start sm dec buf ecu control) ∧
      Rel (start sm dec buf ecu control)
        (Drive.start 10 cfg.vcu.hvActiveStateWait cfg.vcu.hvChargeTimeout ecu) := by
  obtain ⟨sm', m0, h1, h0, hm, h2⟩ := StateMgr.init_wired cfg
  rw [hsm] at h1
  cases h1
  obtain ⟨hw, hst⟩ := h2 (StateMgr.outStart ecu)
  have hcore : sm.vsm.core = (Vsm.World.start 10 cfg.vcu.hvActiveStateWait cfg.vcu.hvChargeTimeout false).vsm :=
    congrArg Vsm.World.vsm hst
  refine ⟨m0, h0, ⟨hw.i, hw.c, hw.t, hw.d, hw.cfg, hm, fun h => absurd rfl h, (by rintro f ⟨⟩), ?_, ?_,
    fun h => absurd h (by simp [start]), ?_⟩, ⟨?_, rfl, rfl, rfl⟩⟩
  · show sm.vsm.core.nextState = sm.vsm.core.vsmState
    rw [hcore]; rfl
  · intro n
    show sm.vsm.core.vsmState ≠ _
    rw [hcore]
    exact fun h => by cases h
  · show F32.IsFloat (.fin 0)
    exact ⟨by decide +kernel, by norm_num⟩
  · exact hcore.symm

/-- The fault is in the samples including the one the next step of the state manager takes, which is
not its first. -/
theorem seen_fault_ends_torque
    (hsm : StateMgr.smInit true true true (StateMgr.wired cfg) = .ok (.ok, sm))
    (hl : inputSamples cfg 10 ≤ 65535) (hlb : bmsSamples cfg 10 ≤ 65535)
    (es1 es2 es3 es4 : List Ev) (ok3 : Bool) (s1 s2 s3 s4 : St) (f1 f2 f3 f4 : List Sent)
    (hf : FloatWrites (es1 ++ es2 ++ es3 ++ es4))
    (h1 : run (start sm dec buf ecu control) es1 = .ok (s1, f1))
    (hCne : copies (start sm dec buf ecu control) es1 ≠ [])
    (hfault : DriveFault cfg 10
      ((copies (start sm dec buf ecu control) es1).filterMap id ++ [s1.vd]))
    (hq1 : s1.status = none ∧ s1.pending = [])
    (h2 : run s1 (.copy true :: es2) = .ok (s2, f2)) (hq2 : s2.status = none ∧ s2.pending = [])
    (h3 : run s2 (.copy ok3 :: es3) = .ok (s3, f3)) (hq3 : s3.status = none ∧ s3.pending = [])
    (h4 : run s3 es4 = .ok (s4, f4)) :
    s4.mgr.vsm.core.vsmState = .fault ∧ (∀ f ∈ f4.tail, Drive.torqueOf f = 0) ∧
    (s3.thr.pc = .idle → ∀ f ∈ f4, Drive.torqueOf f = 0) := by
  obtain ⟨m0, hm0, i0, r0⟩ := start_inv cfg sm dec buf ecu control hsm
  have fw : ∀ es, (∀ e ∈ es, e ∈ es1 ++ es2 ++ es3 ++ es4) → FloatWrites es :=
    fun es hsub v hv => hf v (hsub _ hv)
  obtain ⟨i1, ds1, d1, q1, r1, l1⟩ := run_sim es1 [] _ s1 _ f1 i0 r0
    (fw es1 (fun e he => by simp [he])) h1
  rw [List.nil_append] at i1
  generalize hC : copies (start sm dec buf ecu control) es1 = C at *
  -- the first further step sees the fault
  obtain ⟨sA, gA, gB, qA, qB, rfl⟩ := run_cons h2
  obtain ⟨iA, dsA, dA, q2, r2, l2, -⟩ := step_sim i1 r1 (by simp) qA
  have hcA : copied s1 (.copy true) = some (some s1.vd) := by
    simp only [copied]; rw [if_pos hq1]; rfl
  rw [hcA, Option.toList_some] at iA
  have hstA : sA.status = some .fault := by
    simp only [step] at qA
    rw [if_pos hq1, StateMgr.fmStepObj_ok cfg _ _ i1.d i1.conf] at qA
    cases qA
    dsimp only
    congr 1
    rw [i1.internal]
    exact (FaultMgr.C09_status_exact cfg 10 m0 hm0 hl hlb C (some s1.vd)).1.mpr
      ⟨rfl, by rw [List.filterMap_append]; exact hfault⟩
  obtain ⟨a, ok, b, sB, g1, g2, eB, qB1, hstB, qB2, rfl⟩ := split_handle es2 sA s2 gB .fault hstA hq2.1 qB
  obtain ⟨iB, dsB, dB, q3, r3, l3⟩ := run_sim a _ sA sB dA g1 iA r2
    (fw a (fun e he => by simp [eB, he])) qB1
  obtain ⟨sC, g3, g4, qC1, qC2, rfl⟩ := run_cons qB2
  obtain ⟨iC, dsC, dC, q4, r4, l4, -⟩ := step_sim iB r3 (by simp) qC1
  have hnotinit : sB.mgr.vsm.core.vsmState ≠ .init := by
    refine iB.started ?_
    rw [hstB]
    have := List.length_pos_iff.mpr hCne
    simp
    omega
  have hFC : Drive.Faulted dC := by
    simp only [step, hstB] at qC1
    rw [if_neg (by simp [iB.i, iB.c, iB.t])] at qC1
    obtain ⟨e1, e2, e3⟩ := vsm_step_fault sB.mgr.vsm.core
      (StateMgr.handlerInput .fault (if ok then some sB.vd else none))
      (by cases ok <;> rfl) iB.settled hnotinit iB.valid
    cases qC1
    exact ⟨by rw [r4.vsm]; exact e1, by rw [r4.vsm]; exact e2, by rw [r4.pending]; exact e3⟩
  obtain ⟨iD, dsD, dD, q5, r5, l5⟩ := run_sim b _ sC s2 dC g4 iC r4
    (fw b (fun e he => by simp [eB, he])) qC2
  have hFD := drive_state_fault dsD dC dD g4 hFC q5
  -- the second further step
  obtain ⟨sE, gE, gF, qE, qF, rfl⟩ := run_cons h3
  obtain ⟨iE, dsE, dE, q6, r6, l6, -⟩ := step_sim iD r5 (by simp) qE
  have hFE := drive_state_fault dsE dD dE gE hFD q6
  obtain ⟨f, hstE⟩ : ∃ f, sE.status = some f := by
    simp only [step] at qE
    rw [if_pos hq2, StateMgr.fmStepObj_ok cfg _ _ iD.d iD.conf] at qE
    cases qE
    exact ⟨_, rfl⟩
  obtain ⟨a', ok', b', sF, k1, k2, eF, qF1, hstF, qF2, rfl⟩ := split_handle es3 sE s3 gF f hstE hq3.1 qF
  obtain ⟨iF, dsF, dF, q7, r7, l7⟩ := run_sim a' _ sE sF dE k1 iE r6
    (fw a' (fun e he => by simp [eF, he])) qF1
  have hFF := drive_state_fault dsF dE dF k1 hFE q7
  have hpF : dF.pending = [] := r7.pending.trans (iF.busy (by rw [hstF]; simp))
  obtain ⟨sG, k3, k4, qG1, qG2, rfl⟩ := run_cons qF2
  have hG : ∃ i dG, Drive.step dF (.tick i) = .ok (dG, k3) ∧ Rel sG dG ∧
      Inv cfg m0 (C ++ [some s1.vd] ++ copies sA a ++ (copied sB (.handle ok)).toList ++ copies sC b ++
        (copied s2 (.copy ok3)).toList ++ copies sE a') sG := by
    obtain ⟨iG, -⟩ := step_sim iF r7 (by simp) qG1
    simp only [step, hstF] at qG1
    rw [if_neg (by simp [iF.i, iF.c, iF.t])] at qG1
    cases qG1
    rw [show copied sF (.handle ok') = none from rfl, Option.toList_none, List.append_nil] at iG
    refine ⟨StateMgr.handlerInput f (if ok' then some sF.vd else none),
      { dF with
        vsm := (Vsm.step dF.vsm (StateMgr.handlerInput f (if ok' then some sF.vd else none))).1
        pending := (Vsm.step dF.vsm (StateMgr.handlerInput f (if ok' then some sF.vd else none))).2 },
      ?_, ⟨?_, ?_, r7.thr, r7.cmd⟩, iG⟩
    · simp only [Drive.step, hpF]
    · dsimp only; rw [r7.vsm]
    · dsimp only; rw [r7.vsm]
  obtain ⟨i, dG, q8, r8, iG⟩ := hG
  obtain ⟨iH, dsH, dH, q9, r9, l9⟩ := run_sim b' _ sG s3 dG k4 iG r8
    (fw b' (fun e he => by simp [eF, he])) qG2
  obtain ⟨iK, dsK, dK, q10, r10, l10⟩ := run_sim es4 _ s3 s4 dH f4 iH r9
    (fw es4 (fun e he => by simp [he])) h4
  have qAll := drive_append (drive_append (drive_append (drive_append (drive_append (drive_append q1 q2) q3) q4) q5) q6) q7
  have qTick : Drive.run dF (.tick i :: dsH) = .ok (dH, k3 ++ k4) := by
    simp only [Drive.run, q8, q9]
  obtain ⟨c1, c2, c3⟩ := Drive.C77_at_most_one_partial 10 cfg.vcu.hvActiveStateWait
    cfg.vcu.hvChargeTimeout ecu (ds1 ++ dsA ++ dsB ++ dsC ++ dsD ++ dsE ++ dsF) dsH dsK i dF dH dK _ _ f4 (by
      intro x en hm
      simp only [List.mem_append, List.mem_cons, reduceCtorEq, false_or] at hm
      rcases hm with ((((((((hm | hm) | hm) | hm) | hm) | hm) | hm)) | hm) | hm
      · exact l1 x en hm
      · exact l2 x en hm
      · exact l3 x en hm
      · exact l4 x en hm
      · exact l5 x en hm
      · exact l6 x en hm
      · exact l7 x en hm
      · exact l9 x en hm
      · exact l10 x en hm) qAll hFF.state hpF qTick (r9.pending.trans hq3.2) q10
  refine ⟨by rw [← r10.vsm]; exact c1, c2, fun hidle => c3 ?_⟩
  rw [r9.thr, hidle]
  trivial

/-- **C104.** Take the correctly wired firmware and any history of the vehicle, with the tasks
interleaved at every access to shared data and any traffic from the PC. Suppose the samples the
state manager has copied so far contain a documented drive fault (`es1`, ending between two steps
of the state manager). Let the state manager then complete two more steps (`es2`, `es3`, with
anything in between; in the first of them the vehicle data can be copied). Then the state machine
is in FAULT, stays there, and of all command frames sent from then on (`es4`) only the first may
still carry torque; if the throttle task was not in the middle of an activation, none does. -/
theorem C104_fault_ends_torque
    (hsm : StateMgr.smInit true true true (StateMgr.wired cfg) = .ok (.ok, sm))
    (hl : inputSamples cfg 10 ≤ 65535) (hlb : bmsSamples cfg 10 ≤ 65535)
    (es1 es2 es3 es4 : List Ev) (ok3 : Bool) (s1 s2 s3 s4 : St) (f1 f2 f3 f4 : List Sent)
    (hf : FloatWrites (es1 ++ es2 ++ es3 ++ es4))
    (h1 : run (start sm dec buf ecu control) es1 = .ok (s1, f1))
    (hfault : DriveFault cfg 10 ((copies (start sm dec buf ecu control) es1).filterMap id))
    (hq1 : s1.status = none ∧ s1.pending = [])
    (h2 : run s1 (.copy true :: es2) = .ok (s2, f2)) (hq2 : s2.status = none ∧ s2.pending = [])
    (h3 : run s2 (.copy ok3 :: es3) = .ok (s3, f3)) (hq3 : s3.status = none ∧ s3.pending = [])
    (h4 : run s3 es4 = .ok (s4, f4)) :
    s4.mgr.vsm.core.vsmState = .fault ∧ (∀ f ∈ f4.tail, Drive.torqueOf f = 0) ∧
    (s3.thr.pc = .idle → ∀ f ∈ f4, Drive.torqueOf f = 0) := by
  have hCne : copies (start sm dec buf ecu control) es1 ≠ [] := by
    intro h0
    rw [h0] at hfault
    have : ∀ {bad : VData → Prop} {n : Nat}, 0 < n → ¬ HeldFor bad n [] := by
      rintro bad n hn ⟨a, b, c, e1, e2, -⟩
      have := congrArg List.length e1
      simp at this
      omega
    have p1 : 0 < inputSamples cfg 10 := Nat.succ_pos _
    have p2 : 0 < bmsSamples cfg 10 := Nat.succ_pos _
    rcases hfault with h | h | h | h | h | h | h | ⟨d, h, -⟩ | ⟨d, h, -⟩
    all_goals first | exact this p1 h | exact this p2 h | exact absurd h (by simp)
  exact seen_fault_ends_torque cfg sm dec buf ecu control hsm hl hlb es1 es2 es3 es4 ok3 s1 s2 s3 s4
    f1 f2 f3 f4 hf h1 hCne (driveFault_append _ hfault) hq1 h2 hq2 h3 hq3 h4

/-! ## A drive-off, PC traffic, and a fault -/

/-- A sample with this button, inverter state, accelerator position and BMS fault line. -/
def sample (button : Bool) (inv : UInt8) (accel : ℚ) (fault : Bool) : VData :=
  { StateMgr.demoData button inv with
    inputs := { VData.zero.inputs with accel := .fin accel }
    battery := { VData.zero.battery with stateOfCarge := .fin 2000, bmsFaultIndicator := fault } }

/-- A complete step of the state manager on that data. -/
def whole (d : VData) : List Ev :=
  [.write d, .copy true, .handle true, .call Drive.okEnv, .call Drive.okEnv, .call Drive.okEnv]

/-- `n` accesses of the throttle task. -/
def pedal (n : Nat) : List Ev := List.replicate n (.throttle true Drive.okEnv)

/-- Start-up to drive. -/
def driveOff : List Ev :=
  [sample false 0 0 false, sample false 0 0 false, sample true 0 0 false, sample false 0 0 false,
   sample false 0 0 false, sample false 0 0 false, sample false 5 0 false, sample false 5 0 false,
   sample true 5 1 false].flatMap whole

/-- A request that sets the ECU error line, as three batches, and its action. -/
def pcTraffic : List Ev :=
  [.pcBatch [0x3A, 0, 1, 1, 1, 0, 0, 0] (fun _ _ => some 0), .pcBatch [0, 0, 0, 0, 1, 0, 0, 0] (fun _ _ => some 0),
   .pcBatch [0, 0x0D, 0x0A] (fun _ _ => some 0), .pcAct true]

/-- Firmware with a 20 ms HV wait, control from the PC enabled. -/
def demoStart : C St :=
  (StateMgr.smInit true true true (StateMgr.wired { Config.default with vcu := ⟨20, 7000⟩ })).map
    fun r => start r.2 ⟨19, 0, 0, 1024, fun _ => 0⟩ (fun _ => 0) false true

/-- Driving: three activations send torque; the PC's request arrives in the middle of one and sets
the error line, without effect on the frames. -/
example :
    (match demoStart with
    | .ok s =>
      match run s (driveOff ++ pedal 6 ++ pcTraffic ++ pedal 6), run s (driveOff ++ pedal 6 ++ pedal 6) with
      | .ok (a, fs), .ok (b, gs) =>
        fs.map Drive.torqueOf == gs.map Drive.torqueOf && (fs.map Drive.torqueOf).drop 2 == [5000, 5000, 5000] &&
          a.ecuError && !b.ecuError
      | _, _ => false
    | .error _ => false) = true := by decide +kernel

/-- Then the BMS reports a fault in one sample: after two further steps of the state manager the
torque command is zero. -/
example :
    (match demoStart with
    | .ok s =>
      match run s (driveOff ++ pedal 6 ++ whole (sample false 5 1 true)) with
      | .ok (a, _) =>
        decide (a.status = none) && a.pending.isEmpty &&
        (match run a (whole (sample false 5 1 false)).tail with
        | .ok (b, _) =>
          decide (b.status = none) && b.pending.isEmpty &&
          (match run b ((whole (sample false 5 1 false)).tail ++ pedal 8) with
          | .ok (c, fs) => decide (c.mgr.vsm.core.vsmState = .fault) && fs.map Drive.torqueOf == [5000, 0, 0]
          | .error _ => false)
        | .error _ => false)
      | .error _ => false
    | .error _ => false) = true := by decide +kernel

end Verif.Vehicle
