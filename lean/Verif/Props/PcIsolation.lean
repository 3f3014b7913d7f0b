import Verif.Model.Vehicle

set_option autoImplicit false

/-!
# Serial traffic from the PC has no influence on torque (C103)
-/

namespace Verif.Vehicle
open InvDrv

/-- Two states differ at most in what belongs to the PC interface, in the ECU error line and in the
power channels (pins and published states). -/
structure SameDrive (s t : St) : Prop where
  inputs : s.vd.inputs = t.vd.inputs
  dash : s.vd.dash = t.vd.dash
  vehicle : s.vd.vehicle = t.vd.vehicle
  battery : s.vd.battery = t.vd.battery
  motor : s.vd.motor = t.vd.motor
  inverter : s.vd.inverter = t.vd.inverter
  manager : s.mgr = t.mgr
  status : s.status = t.status
  pending : s.pending = t.pending
  throttle : s.thr = t.thr
  command : s.cmd = t.cmd

theorem SameDrive.refl (s : St) : SameDrive s s := ⟨rfl, rfl, rfl, rfl, rfl, rfl, rfl, rfl, rfl, rfl, rfl⟩

theorem SameDrive.trans {a b c : St} (h : SameDrive a b) (k : SameDrive b c) : SameDrive a c :=
  ⟨h.inputs.trans k.inputs, h.dash.trans k.dash, h.vehicle.trans k.vehicle, h.battery.trans k.battery,
    h.motor.trans k.motor, h.inverter.trans k.inverter, h.manager.trans k.manager,
    h.status.trans k.status, h.pending.trans k.pending, h.throttle.trans k.throttle,
    h.command.trans k.command⟩

theorem setPower_same {s s' : St} {c : Nat} {on lock : Bool} (h : setPower s c on lock = .ok s') :
    SameDrive s' s ∧ s'.ecuError = s.ecuError ∧ s'.channels = s.channels ∧
      (∀ p, (∀ l, s.channels = some l → p ∉ l) → s'.level p = s.level p) := by
  unfold setPower at h
  split at h
  · cases h
  · rename_i r hr
    cases h
    refine ⟨⟨rfl, rfl, rfl, rfl, rfl, rfl, rfl, rfl, rfl, rfl, rfl⟩, rfl, rfl, ?_⟩
    intro p hp
    unfold Pdm.setOutputEnabled at hr
    dsimp only at hr
    by_cases h1 : s.numChannels ≤ (UInt8.ofNat c).toNat
    · rw [if_pos h1] at hr; cases hr; rfl
    rw [if_neg h1] at hr
    by_cases h2 : (!lock) = true
    · rw [if_pos h2] at hr; cases hr; rfl
    rw [if_neg h2] at hr
    split at hr
    · split at hr
      · cases hr
      · rename_i chs hc
        split at hr
        · cases hr
        · rename_i pin hpin
          cases hr
          dsimp only
          have hne : p ≠ pin := fun h => hp chs hc (h ▸ List.mem_of_getElem? hpin)
          rw [if_neg hne]
    · cases hr

/-- A step of the PC interface hands no frame to the CAN layer and touches nothing but its own
data, the ECU error line and the pins of the power channels. -/
theorem pc_step {s s' : St} {e : Ev} {fs : List Sent} (he : e.isPc = true)
    (h : step s e = .ok (s', fs)) :
    fs = [] ∧ SameDrive s' s ∧ s'.channels = s.channels ∧
      (∀ p, (∀ l, s.channels = some l → p ∉ l) → s'.level p = s.level p) := by
  cases e with
  | pcBatch b crc =>
    simp only [step] at h
    split at h
    · cases h; exact ⟨rfl, .refl _, rfl, fun _ _ => rfl⟩
    · split at h
      · cases h
      · cases h; exact ⟨rfl, ⟨rfl, rfl, rfl, rfl, rfl, rfl, rfl, rfl, rfl, rfl, rfl⟩, rfl, fun _ _ => rfl⟩
  | pcAct lock =>
    simp only [step] at h
    split at h
    · cases h; exact ⟨rfl, .refl _, rfl, fun _ _ => rfl⟩
    · rename_i a as hto
      split at h
      · cases h
      · rename_i s1 ha
        cases h
        refine ⟨rfl, ?_⟩
        cases a with
        | ecuError b => simp only [act] at ha; cases ha; exact ⟨⟨rfl, rfl, rfl, rfl, rfl, rfl, rfl, rfl, rfl, rfl, rfl⟩, rfl, fun _ _ => rfl⟩
        | print b => simp only [act] at ha; cases ha; exact ⟨⟨rfl, rfl, rfl, rfl, rfl, rfl, rfl, rfl, rfl, rfl, rfl⟩, rfl, fun _ _ => rfl⟩
        | power c b =>
          simp only [act] at ha
          obtain ⟨h1, -, h3, h4⟩ := setPower_same ha
          exact ⟨h1.trans ⟨rfl, rfl, rfl, rfl, rfl, rfl, rfl, rfl, rfl, rfl, rfl⟩, h3, h4⟩
        | terminal bs =>
          simp only [act] at ha
          split at ha
          · cases ha
          · cases ha; exact ⟨⟨rfl, rfl, rfl, rfl, rfl, rfl, rfl, rfl, rfl, rfl, rfl⟩, rfl, fun _ _ => rfl⟩
  | _ => cases he

theorem fmStepObj_inputs (fm : StateMgr.FaultManagerObj) {a b : VData} (hi : a.inputs = b.inputs)
    (hb : a.battery = b.battery) (ok : Bool) :
    StateMgr.fmStepObj fm (if ok then some a else none) = StateMgr.fmStepObj fm (if ok then some b else none) := by
  cases ok with
  | false => rfl
  | true =>
    simp only [if_true, StateMgr.fmStepObj, FaultMgr.step, FaultMgr.isFaultAccelPedal,
      FaultMgr.isFaultBrakePedal, FaultMgr.isFaultBMS, hi, hb]
    rfl

theorem handlerInput_data (f : Vsm.FaultStatus) {a b : VData} (hd : a.dash = b.dash)
    (hi : a.inverter = b.inverter) (ok : Bool) :
    StateMgr.handlerInput f (if ok then some a else none) =
      StateMgr.handlerInput f (if ok then some b else none) := by
  cases ok <;> simp [StateMgr.handlerInput, hd, hi]

/-- Any other step does the same in states that agree. -/
theorem other_step {s t s' : St} {e : Ev} {fs : List Sent} (he : e.isPc = false) (hs : SameDrive s t)
    (h : step s e = .ok (s', fs)) : ∃ t', step t e = .ok (t', fs) ∧ SameDrive s' t' := by
  cases e with
  | write d =>
    simp only [step] at h ⊢
    cases h
    exact ⟨_, rfl, rfl, rfl, rfl, rfl, rfl, rfl, hs.manager, hs.status, hs.pending, hs.throttle, hs.command⟩
  | copy ok =>
    simp only [step] at h ⊢
    rw [← hs.status, ← hs.pending, ← hs.manager, ← fmStepObj_inputs _ hs.inputs hs.battery ok]
    by_cases hc : s.status = none ∧ s.pending = []
    · rw [if_pos hc] at h ⊢
      revert h
      cases StateMgr.fmStepObj s.mgr.vsm.faultMgr (if ok then some s.vd else none) with
      | error u => intro h; cases h
      | ok r =>
        intro h
        dsimp only at h ⊢
        cases h
        exact ⟨_, rfl, hs.inputs, hs.dash, hs.vehicle, hs.battery, hs.motor, hs.inverter, rfl, rfl,
          rfl, hs.throttle, hs.command⟩
    · rw [if_neg hc] at h ⊢
      cases h
      exact ⟨_, rfl, hs⟩
  | handle ok =>
    simp only [step] at h ⊢
    rw [← hs.status]
    split at h
    · cases h; exact ⟨_, rfl, hs⟩
    · rename_i f hf
      rw [← hs.manager]
      by_cases hn : s.mgr.vsm.inputState = none ∨ s.mgr.vsm.control = none ∨ s.mgr.vsm.throttleController = none
      · rw [if_pos hn] at h; cases h
      · rw [if_neg hn] at h ⊢
        rw [← handlerInput_data f hs.dash hs.inverter ok]
        cases h
        exact ⟨_, rfl, hs.inputs, hs.dash, hs.vehicle, hs.battery, hs.motor, hs.inverter, rfl, rfl,
          rfl, hs.throttle, hs.command⟩
  | call e =>
    simp only [step] at h ⊢
    rw [← hs.pending]
    split at h
    · cases h; exact ⟨_, rfl, hs⟩
    · rename_i o os hp
      cases o with
      | ecuError b =>
        simp only [applyOut, Drive.apply] at h ⊢
        cases h
        exact ⟨_, rfl, hs.inputs, hs.dash, hs.vehicle, hs.battery, hs.motor, hs.inverter, hs.manager,
          hs.status, rfl, hs.throttle, hs.command⟩
      | motorDirection d =>
        simp only [applyOut, Drive.apply, ← hs.throttle] at h ⊢
        cases h
        exact ⟨_, rfl, hs.inputs, hs.dash, hs.vehicle, hs.battery, hs.motor, hs.inverter, hs.manager,
          hs.status, rfl, rfl, hs.command⟩
      | torqueEnabled d =>
        simp only [applyOut, Drive.apply, ← hs.throttle] at h ⊢
        cases h
        exact ⟨_, rfl, hs.inputs, hs.dash, hs.vehicle, hs.battery, hs.motor, hs.inverter, hs.manager,
          hs.status, rfl, rfl, hs.command⟩
      | enableInverter =>
        simp only [applyOut, Drive.apply, ← hs.command] at h ⊢
        revert h
        cases sendInverterEnabled s.cmd e true with
        | error u => intro h; cases h
        | ok r =>
          intro h
          dsimp only at h ⊢
          cases h
          exact ⟨_, rfl, hs.inputs, hs.dash, hs.vehicle, hs.battery, hs.motor, hs.inverter, hs.manager,
            hs.status, rfl, hs.throttle, rfl⟩
  | throttle ok e =>
    simp only [step] at h ⊢
    rw [← hs.throttle, ← hs.inputs, ← hs.command]
    revert h
    cases Drive.issue s.cmd e
      (Throttle.step s.thr (.task (if ok then some s.vd.inputs.accel else none))).2 with
    | error u => intro h; cases h
    | ok r =>
      intro h
      dsimp only at h ⊢
      cases h
      exact ⟨_, rfl, hs.inputs, hs.dash, hs.vehicle, hs.battery, hs.motor, hs.inverter, hs.manager,
        hs.status, hs.pending, rfl, rfl⟩
  | pcBatch b c => cases he
  | pcAct l => cases he

theorem run_cons {e : Ev} {es : List Ev} {s s2 : St} {fs : List Sent}
    (h : run s (e :: es) = .ok (s2, fs)) :
    ∃ s1 f1 f2, step s e = .ok (s1, f1) ∧ run s1 es = .ok (s2, f2) ∧ fs = f1 ++ f2 := by
  simp only [run] at h
  cases hs : step s e with
  | error u => rw [hs] at h; cases h
  | ok r =>
    obtain ⟨s', g⟩ := r
    rw [hs] at h
    dsimp only at h
    cases hr : run s' es with
    | error u => rw [hr] at h; cases h
    | ok q =>
      obtain ⟨s'', g'⟩ := q
      rw [hr] at h
      dsimp only at h
      cases h
      exact ⟨s', g, g', rfl, hr, rfl⟩

theorem run_erased : ∀ (es : List Ev) (s t s' : St) (fs : List Sent), SameDrive s t →
    run s es = .ok (s', fs) →
    ∃ t', run t (es.filter fun e => !e.isPc) = .ok (t', fs) ∧ SameDrive s' t'
  | [], s, t, s', fs, hs, h => by
    simp only [run] at h
    cases h
    exact ⟨t, rfl, hs⟩
  | e :: es, s, t, s', fs, hs, h => by
    obtain ⟨s1, f1, f2, h1, h2, rfl⟩ := run_cons h
    cases he : e.isPc with
    | true =>
      obtain ⟨rfl, h3, -⟩ := pc_step he h1
      rw [List.filter_cons_of_neg (by simp [he])]
      exact run_erased es s1 t s' f2 (h3.trans hs) h2
    | false =>
      obtain ⟨t1, h4, h5⟩ := other_step he hs h1
      obtain ⟨t', h6, h7⟩ := run_erased es s1 t1 s' f2 h5 h2
      rw [List.filter_cons_of_pos (by simp [he])]
      exact ⟨t', by simp only [run, h4, h6], h7⟩

/-- **C103.** Take any history of the vehicle: data written by the sensor and CAN tasks, activations
of the state manager and of the throttle, and in between, at every point of their execution, bytes
from the PC in any batches and the actions they cause. Deleting everything the PC sent from the
history leaves every frame handed to the CAN layer unchanged, in the same order, and so the state of
the state machine and its fault word, torque enable, direction, inverter mode, and all vehicle data
except the power channel states. -/
theorem C103_torque_unaffected (s s' : St) (es : List Ev) (fs : List Sent)
    (h : run s es = .ok (s', fs)) :
    ∃ t', run s (es.filter fun e => !e.isPc) = .ok (t', fs) ∧
      t'.mgr = s'.mgr ∧ t'.thr = s'.thr ∧ t'.cmd = s'.cmd ∧ t'.pending = s'.pending ∧
      { t'.vd with glv := s'.vd.glv } = s'.vd := by
  obtain ⟨t', h1, h2⟩ := run_erased es s s s' fs (.refl s) h
  refine ⟨t', h1, h2.manager.symm, h2.throttle.symm, h2.command.symm, h2.pending.symm, ?_⟩
  have e1 := h2.inputs
  have e2 := h2.dash
  have e3 := h2.vehicle
  have e4 := h2.battery
  have e5 := h2.motor
  have e6 := h2.inverter
  cases hs : s'.vd with
  | mk a b c d e f g =>
    cases ht : t'.vd with
    | mk a' b' c' d' e' f' g' =>
      rw [hs, ht] at e1 e2 e3 e4 e5 e6
      dsimp only at e1 e2 e3 e4 e5 e6 ⊢
      rw [e1, e2, e3, e4, e5, e6]

/-- **C103, what the PC can do.** A step of the PC interface sends nothing on CAN, and of all output
pins it changes at most the ECU error line and the pins configured as power channels. -/
theorem C103_pc_reach (s s' : St) (e : Ev) (fs : List Sent) (he : e.isPc = true)
    (h : step s e = .ok (s', fs)) :
    fs = [] ∧ (∀ p, (∀ l, s.channels = some l → p ∉ l) → s'.level p = s.level p) :=
  let h := pc_step he h
  ⟨h.1, h.2.2.2⟩

-- A history with torque and with PC traffic that asserts the ECU error line: `Props/VehicleFault`, examples for C103.

end Verif.Vehicle
