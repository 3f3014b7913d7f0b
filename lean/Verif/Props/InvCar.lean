import Verif.Props.CanFresh
import Verif.Props.VehicleFault
import Verif.Props.Car
import Verif.Spec.InvCar

set_option autoImplicit false

/-!
# C141: no torque before the inverter has reported on the bus that it is ready
-/

namespace Verif.Vehicle
open InvDrv

/-- Neither in nor on the way to the states in which the driver can select drive. -/
structure Early (s : St) : Prop where
  neutral : s.mgr.vsm.core.vsmState ≠ .activeNeutral
  forward : s.mgr.vsm.core.vsmState ≠ .activeForward

/-- The one way out. -/
theorem leave_early (v : Vsm.Vsm) (i : Vsm.In) (hs : v.nextState = v.vsmState) (hn : v.vsmState ≠ .activeNeutral)
    (hf : v.vsmState ≠ .activeForward)
    (h : (Vsm.step v i).1.vsmState = .activeNeutral ∨ (Vsm.step v i).1.vsmState = .activeForward) :
    v.vsmState = .hvCharging ∧ i.access = true ∧ i.invVsm = 5 := by
  have key : ∀ w : Vsm.Vsm, (Vsm.advance w).vsmState = w.nextState := by
    intro w
    unfold Vsm.advance
    dsimp only
    by_cases h : w.vsmState ≠ w.nextState
    · rw [if_pos h]
    · rw [if_neg h]; exact not_not.mp h
  have h' : (Vsm.handle v i).1.nextState = .activeNeutral ∨ (Vsm.handle v i).1.nextState = .activeForward := by
    rw [← key]; exact h
  clear h key
  unfold Vsm.handle at h'
  split at h'
  · simp [Vsm.stateInit] at h'
  · rename_i hv
    unfold Vsm.stateLvStartup at h'; revert h'; repeat' split
    all_goals simp_all
  · unfold Vsm.stateLvReady at h'; revert h'; repeat' split
    all_goals simp_all
  · unfold Vsm.stateHvActive at h'; revert h'; repeat' split
    all_goals simp_all
  · rename_i hv
    unfold Vsm.stateHvCharging at h'; revert h'; repeat' split
    all_goals simp_all [Vsm.invReady]
  · rename_i hv; exact absurd hv hn
  · rename_i hv; exact absurd hv hf
  · rename_i hv
    simp [Vsm.stateFault, hs, hv] at h'
  · simp at h'

/-- Outside the handler the state machine stays where it is. -/
theorem core_same {s s' : St} {e : Ev} {fs : List Sent} (he : ∀ ok, e ≠ .handle ok) (h : step s e = .ok (s', fs)) :
    s'.mgr.vsm.core = s.mgr.vsm.core := by
  by_cases hpc : e.isPc = true
  · rw [(pc_step hpc h).2.1.manager]
  cases e with
  | write d => cases h; rfl
  | copy ok =>
    simp only [step] at h
    split at h
    · split at h
      · cases h
      · cases h; rfl
    · cases h; rfl
  | handle ok => exact absurd rfl (he ok)
  | call en =>
    simp only [step] at h
    split at h
    · cases h; rfl
    · unfold applyOut at h
      split at h
      · cases h
      · cases h; rfl
  | throttle ok en =>
    simp only [step] at h
    split at h
    · cases h
    · cases h; rfl
  | pcBatch b c => exact absurd rfl hpc
  | pcAct l => exact absurd rfl hpc

/-- The step that leaves. -/
theorem early_step {s s' : St} {e : Ev} {fs : List Sent} (hs : s.mgr.vsm.core.nextState = s.mgr.vsm.core.vsmState)
    (he : Early s) (h : step s e = .ok (s', fs)) :
    Early s' ∨ (e = .handle true ∧ s.mgr.vsm.core.vsmState = .hvCharging ∧ s.vd.inverter.vsmState = 5) := by
  by_cases hh : ∃ ok, e = .handle ok
  · obtain ⟨ok, rfl⟩ := hh
    by_cases hE : Early s'
    · exact .inl hE
    right
    simp only [step] at h
    split at h
    · cases h; exact absurd he hE
    · split at h
      · cases h
      rename_i f hf hnn
      cases h
      have hl := leave_early s.mgr.vsm.core (StateMgr.handlerInput f (if ok then some s.vd else none)) hs
        he.neutral he.forward (by
          by_contra hc
          rw [not_or] at hc
          exact hE ⟨hc.1, hc.2⟩)
      cases ok with
      | false => simp [StateMgr.handlerInput] at hl
      | true =>
        refine ⟨rfl, hl.1, ?_⟩
        have := hl.2.2
        simp only [StateMgr.handlerInput, if_true] at this
        exact UInt8.toNat_inj.mp this
  · left
    have hc := core_same (fun ok hok => hh ⟨ok, hok⟩) h
    exact ⟨by rw [hc]; exact he.neutral, by rw [hc]; exact he.forward⟩

/-- Over a history. -/
theorem early_run {cfg : Config} {m0 : FaultMgr.Internal} : ∀ (es : List Ev) (hist : List (Option VData)) (s s' : St)
    (d : Drive.St) (fs : List Sent), Inv cfg m0 hist s → Rel s d → Drive.Inv d → Drive.Off d → Early s →
    FloatWrites es → run s es = .ok (s', fs) → (∃ f ∈ fs, Drive.torqueOf f ≠ 0) →
    ∃ p q r g, es = p ++ .handle true :: q ∧ run s p = .ok (r, g) ∧ r.mgr.vsm.core.vsmState = .hvCharging ∧
      r.vd.inverter.vsmState = 5
  | [], _, s, s', d, fs, _, _, _, _, _, _, hr, ⟨f, hf, _⟩ => by
    simp only [run] at hr; cases hr; cases hf
  | e :: es, hist, s, s', d, fs, hi, hrel, hd, hoff, hE, hfl, hr, hex => by
    simp only [run] at hr
    split at hr
    · cases hr
    rename_i s1 f1 h1
    split at hr
    · cases hr
    rename_i s2 f2 h2
    cases hr
    obtain ⟨hi1, ds, d1, hdr, hrel1, hfd, -, hlen⟩ := step_sim hi hrel (fun v hv => hfl v (by simp [hv])) h1
    rcases early_step hi.settled hE h1 with hE1 | ⟨rfl, hc, hv⟩
    swap
    · exact ⟨[], es, s, [], rfl, rfl, hc, hv⟩
    have hst1 : d1.vsm.vsmState ≠ .activeForward := by rw [hrel1.vsm]; exact hE1.forward
    have hfl' : FloatWrites es := fun v hv => hfl v (List.mem_cons_of_mem _ hv)
    -- the torque path stays off during this step
    have hoff1 : Drive.Inv d1 ∧ Drive.Off d1 ∧ ∀ f ∈ f1, Drive.torqueOf f = 0 := by
      cases ds with
      | nil =>
        simp only [Drive.run] at hdr; cases hdr
        exact ⟨hd, hoff, fun f hf => by cases hf⟩
      | cons x xs =>
        cases xs with
        | cons y ys => simp at hlen
        | nil =>
          obtain ⟨dm, g1, g2, q1, q2, rfl⟩ := Drive.run_cons hdr
          simp only [Drive.run] at q2; cases q2
          obtain ⟨dm', g1', q1', ok⟩ := Drive.step_ok d hd x (Drive.floats_head hfd)
          rw [q1] at q1'; cases q1'
          obtain ⟨o1, o2⟩ := Drive.off_step hd hoff (Drive.floats_head hfd) q1 hst1
          refine ⟨ok.inv, o1, ?_⟩
          rw [List.append_nil]; exact o2
    obtain ⟨hd1, ho1, hz⟩ := hoff1
    have hex2 : ∃ f ∈ f2, Drive.torqueOf f ≠ 0 := by
      obtain ⟨f, hf, hne⟩ := hex
      rcases List.mem_append.mp hf with hf | hf
      · exact absurd (hz f hf) hne
      · exact ⟨f, hf, hne⟩
    obtain ⟨p, q, r, g, e1, e2, e3⟩ := early_run es _ s1 _ d1 _ hi1 hrel1 hd1 ho1 hE1 hfl' h2 hex2
    refine ⟨e :: p, q, r, f1 ++ g, by rw [e1]; rfl, ?_, e3⟩
    simp only [run, h1, e2]

/-- Torque only after the state manager, waiting for the inverter, has found it ready in the vehicle data. -/
theorem ready_before_torque (cfg : Config) (sm : StateMgr.StateManager) (dec : MsgFrame.Dec) (buf : Nat → UInt8)
    (ecu control : Bool) (hsm : StateMgr.smInit true true true (StateMgr.wired cfg) = .ok (.ok, sm))
    (es : List Ev) (hf : FloatWrites es) (s : St) (fs : List Sent)
    (hr : run (start sm dec buf ecu control) es = .ok (s, fs)) (hex : ∃ f ∈ fs, Drive.torqueOf f ≠ 0) :
    ∃ p q r g, es = p ++ .handle true :: q ∧ run (start sm dec buf ecu control) p = .ok (r, g) ∧
      r.mgr.vsm.core.vsmState = .hvCharging ∧ r.vd.inverter.vsmState = 5 := by
  obtain ⟨m0, -, hi, hrel⟩ := start_inv cfg sm dec buf ecu control hsm
  refine early_run es [] _ s _ fs hi hrel (Drive.start_inv _ _ _ _) ⟨rfl, trivial, by simp [Drive.start]⟩ ?_ hf hr hex
  have : sm.vsm.core.vsmState = .init := by
    have h := hrel.vsm
    have h' : (start sm dec buf ecu control).mgr.vsm.core = sm.vsm.core := rfl
    rw [h'] at h
    rw [← h]; rfl
  refine ⟨?_, ?_⟩
  · show sm.vsm.core.vsmState ≠ _
    rw [this]; decide
  · show sm.vsm.core.vsmState ≠ _
    rw [this]; decide

/-- Only a write changes what the data say of the inverter. -/
theorem step_inverter {s s' : St} {fs : List Sent} {e : Ev} (h : step s e = .ok (s', fs)) (he : ∀ d, e ≠ .write d) :
    s'.vd.inverter = s.vd.inverter := by
  by_cases hpc : e.isPc = true
  · exact (pc_step hpc h).2.1.inverter
  cases e with
  | write d => exact absurd rfl (he d)
  | copy ok =>
    simp only [step] at h
    split at h
    · split at h
      · cases h
      · cases h; rfl
    · cases h; rfl
  | handle ok =>
    simp only [step] at h
    split at h
    · cases h; rfl
    · split at h
      · cases h
      · cases h; rfl
  | call en =>
    simp only [step] at h
    split at h
    · cases h; rfl
    · unfold applyOut at h
      split at h
      · cases h
      · cases h; rfl
  | throttle ok en =>
    simp only [step] at h
    split at h
    · cases h
    · cases h; rfl
  | pcBatch b c => exact absurd rfl hpc
  | pcAct l => exact absurd rfl hpc

end Verif.Vehicle

namespace Verif.InvCar
open Verif.Can Verif.CanSpec Verif.CanFresh

variable (buses : Nat → RxBus) (dev k : Nat)

/-- What the control software sees of a history. -/
def vehOf (s : St) : List Ev → List Vehicle.Ev
  | [] => []
  | e :: H => toVeh dev k s e ++
    match step buses dev k s e with
    | .error _ => []
    | .ok (s', _) => vehOf s' H

theorem toVeh_cases (s : St) (e : Ev) : toVeh dev k s e = [] ∨ ∃ x, toVeh dev k s e = [x] := by
  cases e with
  | rx e =>
    cases e with
    | isr d g fifo => exact Or.inl rfl
    | read j =>
      simp only [toVeh]
      split
      · split
        · exact Or.inl rfl
        · exact Or.inr ⟨_, rfl⟩
      · exact Or.inl rfl
  | veh e => cases e <;> exact Or.inr ⟨_, rfl⟩

theorem run_split {s s' : St} {e : Ev} {H : List Ev} {fs : List InvDrv.Sent}
    (h : run buses dev k s (e :: H) = .ok (s', fs)) :
    ∃ s1 f1 f2, step buses dev k s e = .ok (s1, f1) ∧ run buses dev k s1 H = .ok (s', f2) ∧ fs = f1 ++ f2 := by
  simp only [run] at h
  split at h
  · cases h
  rename_i s1 f1 h1
  split at h
  · cases h
  rename_i s2 f2 h2
  cases h
  exact ⟨s1, f1, f2, h1, h2, rfl⟩

theorem step_split {s s' : St} {e : Ev} {fs : List InvDrv.Sent} (h : step buses dev k s e = .ok (s', fs)) :
    Vehicle.run s.v (toVeh dev k s e) = .ok (s'.v, fs) ∧ s'.rx = rxOf buses s.rx e := by
  simp only [step] at h
  split at h
  · cases h
  rename_i v g hv
  cases h
  exact ⟨hv, rfl⟩

/-- The run of the control software inside a run of the whole. -/
theorem run_veh (H : List Ev) : ∀ (s s' : St) (fs : List InvDrv.Sent), run buses dev k s H = .ok (s', fs) →
    Vehicle.run s.v (vehOf buses dev k s H) = .ok (s'.v, fs) := by
  induction H with
  | nil => intro s s' fs h; simp only [run] at h; cases h; rfl
  | cons e H ih =>
    intro s s' fs h
    obtain ⟨s1, f1, f2, h1, h2, rfl⟩ := run_split buses dev k h
    simp only [vehOf, h1]
    exact Vehicle.run_append (step_split buses dev k h1).1 (ih s1 s' f2 h2)

/-- Every moment of the control software is one of the whole. -/
theorem veh_split (H : List Ev) : ∀ (s s' : St) (fs : List InvDrv.Sent), run buses dev k s H = .ok (s', fs) →
    ∀ pre e post, vehOf buses dev k s H = pre ++ e :: post →
    ∃ A B s1 g, H = A ++ B ∧ run buses dev k s A = .ok (s1, g) ∧ vehOf buses dev k s A = pre := by
  induction H with
  | nil => intro s s' fs _ pre e post h; simp [vehOf] at h
  | cons e0 H ih =>
    intro s s' fs h pre e post hv
    obtain ⟨s1, f1, f2, h1, h2, rfl⟩ := run_split buses dev k h
    simp only [vehOf, h1] at hv
    have go : ∀ pre', vehOf buses dev k s1 H = pre' ++ e :: post → toVeh dev k s e0 ++ pre' = pre →
        ∃ A B s1 g, e0 :: H = A ++ B ∧ run buses dev k s A = .ok (s1, g) ∧ vehOf buses dev k s A = pre := by
      intro pre' hp hq
      obtain ⟨A, B, s3, g, hH, hA, hV⟩ := ih s1 s' f2 h2 pre' e post hp
      refine ⟨e0 :: A, B, s3, f1 ++ g, by rw [hH]; rfl, ?_, ?_⟩
      · simp only [run, h1, hA]
      · simp only [vehOf, h1, hV, hq]
    rcases toVeh_cases dev k s e0 with h0 | ⟨y, h0⟩
    · refine go pre ?_ (by rw [h0]; rfl)
      rw [h0] at hv; exact hv
    · rw [h0] at hv
      cases pre with
      | nil => exact ⟨[], e0 :: H, s, [], rfl, rfl, rfl⟩
      | cons p pre =>
        simp only [List.singleton_append, List.cons_append, List.cons.injEq] at hv
        refine go pre hv.2 ?_
        rw [h0, ← hv.1]; rfl

/-- A frame sets the state if it reports it. -/
theorem handle_state (f : CanFrame) (d : VData) (hb : f.busInstance = dev) :
    (InvDrv.handleFrame dev true f d).inverter.vsmState = if isReport f then f.data[0] else d.inverter.vsmState := by
  unfold InvDrv.handleFrame
  rw [if_neg (by simpa using hb)]
  by_cases hd : f.dlc = 8
  · by_cases h : f.msgId = 0xAA
    · have : isReport f = true := by simp [isReport, hd, h]
      rw [this, h]
      simp [InvDrv.handlerOf, hd, InvDrv.handleInternalStates]
    · have : isReport f = false := by simp [isReport, h]
      rw [this]
      unfold InvDrv.handlerOf
      simp only [h, if_false, hd, ne_eq, not_true_eq_false, if_true, Bool.false_eq_true]
      split
      · rfl
      · rename_i g hg
        revert hg
        repeat' split
        all_goals first
          | (intro hg; injection hg with hg; subst hg; rfl)
          | (intro hg; cases hg)
  · have : isReport f = false := by simp [isReport, hd]
    rw [this]
    split
    · rfl
    · simp [hd]

/-- What the data say of the inverter's state is its last report among the frames its task has taken. -/
structure Inv (rx0 : RxState) (evs : List RxEv) (s : St) : Prop where
  rx : s.rx = after buses rx0 evs
  state : s.v.vd.inverter.vsmState = ((s.rx.got k).reverse.find? isReport).elim (0 : UInt8) (fun f => f.data[0])
  float : F32.IsFloat s.v.vd.inputs.accel

theorem write_vd {s s' : Vehicle.St} {fs : List InvDrv.Sent} {d : VData}
    (h : Vehicle.run s [.write d] = .ok (s', fs)) : s'.vd.inverter = d.inverter ∧ s'.vd.inputs = d.inputs := by
  simp only [Vehicle.run, Vehicle.step, Except.ok.injEq, Prod.mk.injEq] at h
  rw [← h.1]; exact ⟨rfl, rfl⟩

theorem handlerOf_inputs {id : UInt32} {h : Payload → VData → VData} (hh : InvDrv.handlerOf id = some h) (p : Payload)
    (d : VData) : (h p d).inputs = d.inputs := by
  revert hh
  unfold InvDrv.handlerOf
  repeat' split
  all_goals first
    | (intro hg; injection hg with hg; subst hg; rfl)
    | (intro hg; cases hg)

theorem handle_inputs (f : CanFrame) (d : VData) : (InvDrv.handleFrame dev true f d).inputs = d.inputs := by
  unfold InvDrv.handleFrame
  split
  · rfl
  · split
    · rfl
    · rename_i h hh
      split
      · rfl
      · simp only [if_true]; exact handlerOf_inputs hh _ _

/-- The inverter's queue on bus `dev`: one registration, nothing in it at the start. -/
structure Wired (rx0 : RxState) : Prop where
  reg : (buses dev).regs.filter (fun r => r.queue == inverterReg.queue) = [inverterReg]
  other : ∀ d, d ≠ dev → (buses d).regs.filter (fun r => r.queue == inverterReg.queue) = []
  empty : (rx0.qs inverterReg.queue).items = []
  got : rx0.got inverterReg.queue = []

/-- What waits in the queue and what was taken comes from the bus. -/
theorem got_bus {rx0 : RxState} (hw : Wired buses dev rx0) (evs : List RxEv) (hstd : AllStandard evs) :
    ∀ f, f ∈ (after buses rx0 evs).got inverterReg.queue ∨ f ∈ ((after buses rx0 evs).qs inverterReg.queue).items →
      f ∈ busFrames dev evs := by
  intro f hf
  have h := (C24_stream buses dev _ _ hw.reg hw.other rx0 hw.empty hw.got evs hstd).subset
    (List.mem_append.mpr hf)
  exact (List.mem_filter.mp h).1

theorem after_snoc (rx0 : RxState) (evs : List RxEv) (e : RxEv) :
    after buses rx0 (evs ++ [e]) = rxStep buses (after buses rx0 evs) e := after_concat buses rx0 evs e

theorem inv_step {rx0 : RxState} (hw : Wired buses dev rx0) {evs : List RxEv} {s s' : St} {fs : List InvDrv.Sent} {e : Ev}
    (hi : Inv buses inverterReg.queue rx0 evs s) (hf : FloatWrites [e]) (hstd : AllStandard evs)
    (h : step buses dev inverterReg.queue s e = .ok (s', fs)) :
    Inv buses inverterReg.queue rx0 (evs ++ rxs [e]) s' := by
  obtain ⟨hv, hrx'⟩ := step_split buses dev _ h
  cases e with
  | rx e =>
    have hrx : rxs [Ev.rx e] = [e] := rfl
    rw [hrx]
    have hafter : s'.rx = after buses rx0 (evs ++ [e]) := by
      rw [after_snoc, ← hi.rx, hrx']; rfl
    cases e with
    | isr d g fifo =>
      simp only [toVeh, Vehicle.run, Except.ok.injEq, Prod.mk.injEq] at hv
      refine ⟨hafter, ?_, ?_⟩
      · rw [← hv.1, hrx']; exact hi.state
      · rw [← hv.1]; exact hi.float
    | read j =>
      by_cases hj : j = inverterReg.queue
      · subst hj
        simp only [toVeh, if_true] at hv
        cases hq : (s.rx.qs inverterReg.queue).items with
        | nil =>
          rw [hq] at hv
          simp only [Vehicle.run, Except.ok.injEq, Prod.mk.injEq] at hv
          have hs : s'.rx = s.rx := by rw [hrx']; simp only [rxOf, rxStep, hq]
          refine ⟨hafter, ?_, ?_⟩
          · rw [← hv.1, hs]; exact hi.state
          · rw [← hv.1]; exact hi.float
        | cons f rest =>
          rw [hq] at hv
          dsimp only at hv
          obtain ⟨b1, b2⟩ := write_vd hv
          have hg : s'.rx.got inverterReg.queue = s.rx.got inverterReg.queue ++ [f] := by
            rw [hrx']; simp only [rxOf, rxStep, hq, if_true]
          have hbus : f.busInstance = dev := by
            refine busFrames_bus dev evs (got_bus buses dev hw evs hstd f (.inr ?_))
            rw [← hi.rx, hq]; exact List.mem_cons_self
          refine ⟨hafter, ?_, ?_⟩
          · rw [b1, handle_state dev f _ hbus, hg, List.reverse_append, List.reverse_singleton, List.singleton_append,
              List.find?_cons]
            cases hr : isReport f with
            | true => rfl
            | false => simp only [Bool.false_eq_true, if_false]; exact hi.state
          · rw [b2, handle_inputs]; exact hi.float
      · simp only [toVeh, if_neg hj, Vehicle.run, Except.ok.injEq, Prod.mk.injEq] at hv
        have hg : s'.rx.got inverterReg.queue = s.rx.got inverterReg.queue := by
          rw [hrx']
          simp only [rxOf, rxStep]
          split
          · rfl
          · simp only [if_neg (Ne.symm hj)]
        refine ⟨hafter, ?_, ?_⟩
        · rw [← hv.1, hg]; exact hi.state
        · rw [← hv.1]; exact hi.float
  | veh e =>
    have hrx : rxs [Ev.veh e] = [] := rfl
    rw [hrx, List.append_nil]
    have hs : s'.rx = s.rx := hrx'
    by_cases hwr : ∃ d, e = .write d
    · obtain ⟨d, rfl⟩ := hwr
      obtain ⟨b1, b2⟩ := write_vd hv
      refine ⟨hs.trans hi.rx, ?_, ?_⟩
      · rw [b1, hs]; exact hi.state
      · rw [b2]; exact hf d (by simp)
    · have hv' : Vehicle.run s.v [e] = .ok (s'.v, fs) := by
        cases e <;> first | exact hv | exact absurd ⟨_, rfl⟩ hwr
      simp only [Vehicle.run] at hv'
      split at hv'
      · cases hv'
      rename_i v1 f1 h1
      simp only [Except.ok.injEq, Prod.mk.injEq] at hv'
      have hne : ∀ d, e ≠ .write d := fun d hd => hwr ⟨d, hd⟩
      refine ⟨hs.trans hi.rx, ?_, ?_⟩
      · rw [← hv'.1, Vehicle.step_inverter h1 hne, hs]; exact hi.state
      · rw [← hv'.1, (Vehicle.step_vd h1 hne).2]; exact hi.float

theorem rxs_append (a b : List Ev) : rxs (a ++ b) = rxs a ++ rxs b := List.filterMap_append

theorem inv_run {rx0 : RxState} (hw : Wired buses dev rx0) : ∀ (H : List Ev) (evs : List RxEv) (s s' : St)
    (fs : List InvDrv.Sent), Inv buses inverterReg.queue rx0 evs s → FloatWrites H → AllStandard (evs ++ rxs H) →
    run buses dev inverterReg.queue s H = .ok (s', fs) → Inv buses inverterReg.queue rx0 (evs ++ rxs H) s'
  | [], evs, s, s', fs, hi, _, _, h => by
    simp only [run] at h; cases h
    have : rxs ([] : List Ev) = [] := rfl
    rw [this, List.append_nil]; exact hi
  | e :: H, evs, s, s', fs, hi, hf, hstd, h => by
    obtain ⟨s1, f1, f2, h1, h2, rfl⟩ := run_split buses dev _ h
    have hx : rxs (e :: H) = rxs [e] ++ rxs H := rxs_append [e] H
    rw [hx, ← List.append_assoc] at hstd ⊢
    have h1' := inv_step buses dev hw hi (fun d hd => hf d (by
      rw [List.mem_singleton] at hd; rw [hd]; exact List.mem_cons_self))
      (fun d g fifo hm => hstd d g fifo (by simp [hm])) h1
    exact inv_run hw H _ s1 s' f2 h1' (fun d hd => hf d (List.mem_cons_of_mem _ hd)) hstd h2

/-- The floats the control software is given. -/
theorem veh_floats {rx0 : RxState} (hw : Wired buses dev rx0) : ∀ (H : List Ev) (evs : List RxEv) (s : St),
    Inv buses inverterReg.queue rx0 evs s → FloatWrites H → AllStandard (evs ++ rxs H) →
    Vehicle.FloatWrites (vehOf buses dev inverterReg.queue s H)
  | [], _, s, _, _, _ => fun d hd => by cases hd
  | e :: H, evs, s, hi, hf, hstd => by
    have hx : rxs (e :: H) = rxs [e] ++ rxs H := rxs_append [e] H
    rw [hx, ← List.append_assoc] at hstd
    intro d hd
    simp only [vehOf] at hd
    rcases List.mem_append.mp hd with hd | hd
    · cases e with
      | rx e =>
        cases e with
        | isr d' g fifo => cases hd
        | read j =>
          simp only [toVeh] at hd
          split at hd
          · split at hd
            · cases hd
            · rw [List.mem_singleton] at hd
              injection hd with hd
              rw [hd, handle_inputs]; exact hi.float
          · cases hd
      | veh e =>
        cases e with
        | write d' =>
          simp only [toVeh, List.mem_singleton] at hd
          injection hd with hd
          rw [hd]; exact hf d' List.mem_cons_self
        | _ => simp [toVeh] at hd
    · cases h1 : step buses dev inverterReg.queue s e with
      | error u => rw [h1] at hd; cases hd
      | ok r =>
        obtain ⟨s1, f1⟩ := r
        rw [h1] at hd
        have h1' := inv_step buses dev hw hi (fun d hd => hf d (by
          rw [List.mem_singleton] at hd; rw [hd]; exact List.mem_cons_self))
          (fun d g fifo hm => hstd d g fifo (by simp [hm])) h1
        exact veh_floats hw H _ s1 h1' (fun d hd => hf d (List.mem_cons_of_mem _ hd)) hstd d hd

/-- **C141.** A car with the inverter on bus `dev`, any history from start-up.  If it puts a command frame
with torque on the bus, then there was a moment at which the state machine was waiting for the high voltage to be
charged and at which, of the frames the inverter's task had taken, the last one that reports the inverter's state
said that it is ready; and the inverter had sent that frame on its bus. -/
theorem C141_ready_before_torque (cfg : Config) (sm : StateMgr.StateManager) (dec : MsgFrame.Dec) (buf : Nat → UInt8)
    (ecu control : Bool) (hsm : StateMgr.smInit true true true (StateMgr.wired cfg) = .ok (.ok, sm))
    (rx0 : RxState) (hw : Wired buses dev rx0) (H : List Ev) (hf : FloatWrites H) (hstd : AllStandard (rxs H))
    (s : St) (fs : List InvDrv.Sent)
    (hrun : run buses dev inverterReg.queue ⟨rx0, Vehicle.start sm dec buf ecu control⟩ H = .ok (s, fs))
    (htorque : ∃ f ∈ fs, Drive.torqueOf f ≠ 0) :
    ∃ A B s1 g f, H = A ++ B ∧
      run buses dev inverterReg.queue ⟨rx0, Vehicle.start sm dec buf ecu control⟩ A = .ok (s1, g) ∧
      s1.v.mgr.vsm.core.vsmState = .hvCharging ∧
      (s1.rx.got inverterReg.queue).reverse.find? isReport = some f ∧ f.data[0] = 5 ∧ f ∈ busFrames dev (rxs A) := by
  have hi0 : Inv buses inverterReg.queue rx0 [] ⟨rx0, Vehicle.start sm dec buf ecu control⟩ := by
    refine ⟨rfl, ?_, ?_⟩
    · dsimp only
      rw [hw.got]; rfl
    · show F32.IsFloat (.fin 0)
      exact ⟨by decide +kernel, by norm_num⟩
  obtain ⟨p, q, r, g, e1, e2, e3, e4⟩ := Vehicle.ready_before_torque cfg sm dec buf ecu control hsm _
    (veh_floats buses dev hw H [] _ hi0 hf hstd) _ _ (run_veh buses dev _ H _ _ _ hrun) htorque
  obtain ⟨A, B, s1, g1, hH, hA, hV⟩ := veh_split buses dev _ H _ _ _ hrun p _ q e1
  have hsv : s1.v = r := by
    have := run_veh buses dev _ A _ _ _ hA
    rw [hV] at this
    have h := this.symm.trans e2
    simp only [Except.ok.injEq, Prod.mk.injEq] at h
    exact h.1
  have hstdA : AllStandard (rxs A) := fun d g fifo hm => hstd d g fifo (by
    rw [hH, rxs_append]; exact List.mem_append_left _ hm)
  have hI := inv_run buses dev hw A [] _ s1 g1 hi0 (fun d hd => hf d (by rw [hH]; exact List.mem_append_left _ hd))
    hstdA hA
  rw [List.nil_append] at hI
  have hst := hI.state
  rw [hsv, e4] at hst
  cases hr : (s1.rx.got inverterReg.queue).reverse.find? isReport with
  | none => rw [hr] at hst; exact absurd hst (by decide)
  | some f =>
    rw [hr] at hst
    refine ⟨A, B, s1, g1, f, hH, hA, by rw [hsv]; exact e3, hr, hst.symm, ?_⟩
    refine got_bus buses dev hw _ hstdA f (.inl ?_)
    have hm := List.mem_of_find?_eq_some hr
    rw [List.mem_reverse] at hm
    rw [← hI.rx]; exact hm

/-! ## A drive with the inverter on the bus -/

/-- The inverter reports this state. -/
def stateFrame (st : UInt8) : HalRx := .frame ⟨false, 0xAA, false, #v[st, 0, 0, 0, 0, 0, 0, 0], 8⟩

/-- The inverter's frame arrives on bus 0 and is taken, then a step of the state manager on data that name another
state of the inverter (these tasks do not write it). -/
def round (st : UInt8) (button : Bool) : List Ev :=
  [.rx (.isr 0 0 [stateFrame st]), .rx (.read 0)] ++ (Vehicle.whole (Vehicle.sample button 9 1 false)).map .veh

/-- Start-up, throttle task at work; the inverter reports ready with `st = 5`. -/
def readyDrive (st : UInt8) : List Ev :=
  [(0, false), (0, false), (0, true), (0, false), (0, false), (0, false), (st, false), (st, false), (st, true)].flatMap
    (fun x => round x.1 x.2) ++ (Vehicle.pedal 6).map .veh

/-- A wired state. -/
example : Wired demoBuses 0 demoState :=
  ⟨by decide +kernel, fun d hd => by
    simp only [demoBuses, if_neg hd]; split <;> decide +kernel, rfl, rfl⟩

/-- With the report there is torque; with another state reported, the same drive gives none. -/
example :
    (match Vehicle.demoStart with
    | .ok v =>
      (match run demoBuses 0 inverterReg.queue ⟨demoState, v⟩ (readyDrive 5),
        run demoBuses 0 inverterReg.queue ⟨demoState, v⟩ (readyDrive 4) with
      | .ok (a, fs), .ok (_, gs) => (fs.map Drive.torqueOf).any (fun x => decide (x = 5000)) &&
          (gs.map Drive.torqueOf).all (fun x => decide (x = 0)) &&
          ((a.rx.got inverterReg.queue).reverse.find? isReport).any (fun f => decide (f.data[0] = 5))
      | _, _ => false)
    | .error _ => false) = true := by decide +kernel

end Verif.InvCar
