import Verif.Props.InvCar
import Verif.Props.Screen
import Verif.Spec.SenseCar

set_option autoImplicit false

/-!
# C143: no torque before the driver has pressed the button twice
-/

namespace Verif.Vehicle
open InvDrv

/-- How far the state machine has come with the button samples `S` it has seen. -/
structure Stage (v : Vsm.Vsm) (S : List Bool) : Prop where
  settled : v.nextState = v.vsmState
  valid : ∀ n, v.vsmState ≠ .other n
  low : v.vsmState = .init ∨ v.vsmState = .lvStartup ∨ v.vsmState = .lvReady → v.inputButtonPrev = false
  high : v.vsmState = .hvActive ∨ v.vsmState = .hvCharging → v.inputButtonPrev = true ∧ [true].Sublist S
  neutral : v.vsmState = .activeNeutral → [true].Sublist S ∧ (v.inputButtonPrev = false → [true, false].Sublist S)
  forward : v.vsmState = .activeForward → [true, false, true].Sublist S

theorem advance_fields (w : Vsm.Vsm) : (Vsm.advance w).vsmState = w.nextState ∧
    (Vsm.advance w).nextState = w.nextState ∧ (Vsm.advance w).inputButtonPrev = w.inputButtonPrev := by
  unfold Vsm.advance
  dsimp only
  by_cases h : w.vsmState ≠ w.nextState
  · rw [if_pos h]; exact ⟨rfl, rfl, rfl⟩
  · rw [if_neg h]; exact ⟨not_not.mp h, rfl, rfl⟩

theorem sub_snoc {l S : List Bool} (h : l.Sublist S) (x : Bool) : l.Sublist (S ++ [x]) :=
  h.trans (List.sublist_append_left _ _)

theorem snoc_sub {l S : List Bool} (h : l.Sublist S) (x : Bool) : (l ++ [x]).Sublist (S ++ [x]) :=
  h.append (List.Sublist.refl _)

/-- One sample. -/
theorem stage_step {v : Vsm.Vsm} {S : List Bool} (h : Stage v S) (i : Vsm.In) :
    Stage (Vsm.step v i).1 (S ++ if i.access then [i.button] else []) := by
  have grow : ∀ l : List Bool, l.Sublist S → l.Sublist (S ++ if i.access then [i.button] else []) :=
    fun l hl => hl.trans (List.sublist_append_left _ _)
  obtain ⟨k1, k2, k3⟩ := advance_fields (Vsm.handle v i).1
  have hst : (Vsm.step v i).1 = Vsm.advance (Vsm.handle v i).1 := rfl
  have hval := (vsm_step_state v i h.settled h.valid).2
  rw [hst] at hval ⊢
  rcases hs : v.vsmState with _ | _ | _ | _ | _ | _ | _ | _ | n
  · -- init
    have e : Vsm.handle v i = Vsm.stateInit v := by unfold Vsm.handle; rw [hs]
    have hp := h.low (.inl hs)
    refine ⟨by rw [k1, k2], hval, fun _ => by rw [k3, e]; exact hp, ?_, ?_, ?_⟩ <;>
      · intro hx; rw [k1, e] at hx; simp [Vsm.stateInit] at hx
  · -- fault
    have e : Vsm.handle v i = Vsm.stateFault v := by unfold Vsm.handle; rw [hs]
    have e1 : (Vsm.stateFault v).1.nextState = .fault := h.settled.trans hs
    refine ⟨by rw [k1, k2], hval, ?_, ?_, ?_, ?_⟩ <;> (intro hx; rw [k1, e, e1] at hx; simp at hx)
  · -- lvStartup
    have e : Vsm.handle v i = Vsm.stateLvStartup v i.fault := by unfold Vsm.handle; rw [hs]
    have hp := h.low (.inr (.inl hs))
    have e3 : (Vsm.stateLvStartup v i.fault).1.inputButtonPrev = false := by
      unfold Vsm.stateLvStartup; split
      · exact hp
      · split <;> exact hp
    have e1 : (Vsm.stateLvStartup v i.fault).1.nextState = .fault ∨ (Vsm.stateLvStartup v i.fault).1.nextState = .lvReady ∨
        (Vsm.stateLvStartup v i.fault).1.nextState = .lvStartup := by
      unfold Vsm.stateLvStartup; split
      · exact .inl rfl
      · split
        · exact .inr (.inl rfl)
        · exact .inr (.inr (h.settled.trans hs))
    refine ⟨by rw [k1, k2], hval, fun _ => by rw [k3, e]; exact e3, ?_, ?_, ?_⟩ <;>
      · intro hx; rw [k1, e] at hx
        rcases e1 with e1 | e1 | e1 <;> simp [e1] at hx
  · -- lvReady
    have e : Vsm.handle v i = Vsm.stateLvReady v i := by unfold Vsm.handle; rw [hs]
    have hp := h.low (.inr (.inr hs))
    have hn := h.settled.trans hs
    rw [e] at k1 k2 k3 hval ⊢
    unfold Vsm.stateLvReady at *
    by_cases hf : i.fault ≠ .noFault
    · simp only [if_pos hf] at *
      refine ⟨by rw [k1, k2], hval, ?_, ?_, ?_, ?_⟩ <;> (intro hx; rw [k1] at hx; simp at hx)
    · simp only [if_neg hf] at *
      cases ha : i.access with
      | false =>
        simp only [ha, Bool.false_eq_true, if_false] at *
        refine ⟨by rw [k1, k2], hval, fun _ => by rw [k3]; exact hp, ?_, ?_, ?_⟩ <;>
          (intro hx; rw [k1, hn] at hx; simp at hx)
      | true =>
        simp only [ha, if_true, hp, Bool.not_false, Bool.and_true] at *
        cases hb : i.button with
        | true =>
          simp only [hb, if_true] at *
          refine ⟨by rw [k1, k2], hval, ?_, fun _ => ⟨k3, ?_⟩, ?_, ?_⟩
          · intro hx; rw [k1] at hx; simp at hx
          · exact List.sublist_append_right _ _
          · intro hx; rw [k1] at hx; simp at hx
          · intro hx; rw [k1] at hx; simp at hx
        | false =>
          simp only [hb, Bool.false_eq_true, if_false] at *
          refine ⟨by rw [k1, k2], hval, fun _ => k3, ?_, ?_, ?_⟩ <;>
            (intro hx; rw [k1, hn] at hx; simp at hx)
  · -- hvActive
    have e : Vsm.handle v i = Vsm.stateHvActive v i := by unfold Vsm.handle; rw [hs]
    obtain ⟨hp, hS⟩ := h.high (.inl hs)
    have e3 : (Vsm.stateHvActive v i).1.inputButtonPrev = true := by
      unfold Vsm.stateHvActive; split
      · exact hp
      · split <;> exact hp
    have e1 : (Vsm.stateHvActive v i).1.nextState = .fault ∨ (Vsm.stateHvActive v i).1.nextState = .hvCharging ∨
        (Vsm.stateHvActive v i).1.nextState = .hvActive := by
      unfold Vsm.stateHvActive; split
      · exact .inl rfl
      · split
        · exact .inr (.inl rfl)
        · exact .inr (.inr (h.settled.trans hs))
    refine ⟨by rw [k1, k2], hval, ?_, fun _ => ⟨by rw [k3, e]; exact e3, grow _ hS⟩, ?_, ?_⟩ <;>
      · intro hx; rw [k1, e] at hx
        rcases e1 with e1 | e1 | e1 <;> simp [e1] at hx
  · -- hvCharging
    have e : Vsm.handle v i = Vsm.stateHvCharging v i := by unfold Vsm.handle; rw [hs]
    obtain ⟨hp, hS⟩ := h.high (.inr hs)
    have e3 : (Vsm.stateHvCharging v i).1.inputButtonPrev = true := by
      unfold Vsm.stateHvCharging; repeat' split
      all_goals exact hp
    have e1 : (Vsm.stateHvCharging v i).1.nextState = .fault ∨ (Vsm.stateHvCharging v i).1.nextState = .hvCharging ∨
        (Vsm.stateHvCharging v i).1.nextState = .activeNeutral := by
      unfold Vsm.stateHvCharging; repeat' split
      all_goals first
        | exact .inl rfl
        | exact .inr (.inr rfl)
        | exact .inr (.inl (h.settled.trans hs))
    refine ⟨by rw [k1, k2], hval, ?_, fun _ => ⟨by rw [k3, e]; exact e3, grow _ hS⟩,
      fun _ => ⟨grow _ hS, fun hx => ?_⟩, ?_⟩
    · intro hx; rw [k1, e] at hx
      rcases e1 with e1 | e1 | e1 <;> simp [e1] at hx
    · rw [k3, e, e3] at hx; cases hx
    · intro hx; rw [k1, e] at hx
      rcases e1 with e1 | e1 | e1 <;> simp [e1] at hx
  · -- activeNeutral
    have e : Vsm.handle v i = Vsm.stateActiveNeutral v i := by unfold Vsm.handle; rw [hs]
    obtain ⟨hS, hS2⟩ := h.neutral hs
    have hn := h.settled.trans hs
    rw [e] at k1 k2 k3 hval ⊢
    unfold Vsm.stateActiveNeutral at *
    by_cases hf : i.fault ≠ .noFault
    · simp only [if_pos hf] at *
      refine ⟨by rw [k1, k2], hval, ?_, ?_, ?_, ?_⟩ <;> (intro hx; rw [k1] at hx; simp at hx)
    · simp only [if_neg hf] at *
      cases ha : i.access with
      | false =>
        simp only [ha, Bool.false_eq_true, if_false] at *
        refine ⟨by rw [k1, k2], hval, ?_, ?_, fun _ => ⟨grow _ hS, fun hx => grow _ (hS2 (by rw [k3] at hx; exact hx))⟩, ?_⟩ <;>
          (intro hx; rw [k1, hn] at hx; simp at hx)
      | true =>
        simp only [ha, if_true] at *
        by_cases hc : (i.button && !v.inputButtonPrev) = true
        · simp only [if_pos hc] at *
          simp only [Bool.and_eq_true, Bool.not_eq_true'] at hc
          refine ⟨by rw [k1, k2], hval, ?_, ?_, ?_, fun _ => ?_⟩
          · intro hx; rw [k1] at hx; simp at hx
          · intro hx; rw [k1] at hx; simp at hx
          · intro hx; rw [k1] at hx; simp at hx
          · rw [hc.1]; exact snoc_sub (hS2 hc.2) true
        · simp only [if_neg hc] at *
          refine ⟨by rw [k1, k2], hval, ?_, ?_, fun _ => ⟨grow _ hS, fun hx => ?_⟩, ?_⟩
          · intro hx; rw [k1, hn] at hx; simp at hx
          · intro hx; rw [k1, hn] at hx; simp at hx
          · have hb : i.button = false := by rw [k3] at hx; exact hx
            rw [hb]; exact snoc_sub hS false
          · intro hx; rw [k1, hn] at hx; simp at hx
  · -- activeForward
    have e : Vsm.handle v i = Vsm.stateActiveForward v i := by unfold Vsm.handle; rw [hs]
    have hS := h.forward hs
    have h1 : [true].Sublist S := List.Sublist.trans (by decide) hS
    have h2 : [true, false].Sublist S := List.Sublist.trans (by decide) hS
    have e1 : (Vsm.stateActiveForward v i).1.nextState = .fault ∨
        (Vsm.stateActiveForward v i).1.nextState = .activeForward ∨
        (Vsm.stateActiveForward v i).1.nextState = .activeNeutral := by
      unfold Vsm.stateActiveForward; repeat' split
      all_goals first
        | exact .inl rfl
        | exact .inr (.inr rfl)
        | exact .inr (.inl (h.settled.trans hs))
    refine ⟨by rw [k1, k2], hval, ?_, ?_, fun _ => ⟨grow _ h1, fun _ => grow _ h2⟩, fun _ => grow _ hS⟩ <;>
      · intro hx; rw [k1, e] at hx
        rcases e1 with e1 | e1 | e1 <;> simp [e1] at hx
  · exact absurd hs (h.valid n)

/-- The samples of the button that the state handlers take. -/
def seen (s : St) : List Ev → List Bool
  | [] => []
  | e :: es =>
    match step s e with
    | .error _ => []
    | .ok (s', _) =>
      (match e with
        | .handle true => [s.vd.dash.buttonPressed]
        | _ => []) ++ seen s' es

theorem stage_grow {v : Vsm.Vsm} {S T : List Bool} (h : Stage v S) (hST : S.Sublist T) : Stage v T :=
  ⟨h.settled, h.valid, h.low, fun x => ⟨(h.high x).1, (h.high x).2.trans hST⟩,
    fun x => ⟨(h.neutral x).1.trans hST, fun y => ((h.neutral x).2 y).trans hST⟩, fun x => (h.forward x).trans hST⟩

theorem stage_run : ∀ (es : List Ev) (S : List Bool) (s s' : St) (fs : List Sent), Stage s.mgr.vsm.core S →
    run s es = .ok (s', fs) → Stage s'.mgr.vsm.core (S ++ seen s es)
  | [], S, s, s', fs, h, hr => by
    simp only [run] at hr; cases hr
    simpa [seen] using h
  | e :: es, S, s, s', fs, h, hr => by
    simp only [run] at hr
    split at hr
    · cases hr
    rename_i s1 f1 h1
    split at hr
    · cases hr
    rename_i s2 f2 h2
    cases hr
    simp only [seen, h1]
    rw [← List.append_assoc]
    refine stage_run es _ s1 _ f2 ?_ h2
    by_cases hh : ∃ ok, e = .handle ok
    · obtain ⟨ok, rfl⟩ := hh
      simp only [step] at h1
      split at h1
      · cases h1
        exact stage_grow h (List.sublist_append_left _ _)
      · split at h1
        · cases h1
        rename_i f hf hnn
        cases h1
        cases ok with
        | true => exact stage_step h (StateMgr.handlerInput f (some s.vd))
        | false => exact stage_step h (StateMgr.handlerInput f none)
    · rw [core_same (fun ok hok => hh ⟨ok, hok⟩) h1]
      exact stage_grow h (List.sublist_append_left _ _)

/-- Torque only after the state machine was in the drive state. -/
theorem forward_run {cfg : Config} {m0 : FaultMgr.Internal} : ∀ (es : List Ev) (hist : List (Option VData)) (s s' : St)
    (d : Drive.St) (fs : List Sent), Inv cfg m0 hist s → Rel s d → Drive.Inv d → Drive.Off d →
    FloatWrites es → run s es = .ok (s', fs) → (∃ f ∈ fs, Drive.torqueOf f ≠ 0) →
    ∃ p q r g, es = p ++ q ∧ run s p = .ok (r, g) ∧ r.mgr.vsm.core.vsmState = .activeForward
  | [], _, s, s', d, fs, _, _, _, _, _, hr, ⟨f, hf, _⟩ => by
    simp only [run] at hr; cases hr; cases hf
  | e :: es, hist, s, s', d, fs, hi, hrel, hd, hoff, hfl, hr, hex => by
    simp only [run] at hr
    split at hr
    · cases hr
    rename_i s1 f1 h1
    split at hr
    · cases hr
    rename_i s2 f2 h2
    cases hr
    by_cases hfw : s1.mgr.vsm.core.vsmState = .activeForward
    · exact ⟨[e], es, s1, f1 ++ [], rfl, by simp only [run, h1], hfw⟩
    obtain ⟨hi1, ds, d1, hdr, hrel1, hfd, -, hlen⟩ := step_sim hi hrel (fun v hv => hfl v (by simp [hv])) h1
    have hst1 : d1.vsm.vsmState ≠ .activeForward := by rw [hrel1.vsm]; exact hfw
    have hfl' : FloatWrites es := fun v hv => hfl v (List.mem_cons_of_mem _ hv)
    have hoff1 : Drive.Inv d1 ∧ Drive.Off d1 ∧ ∀ f ∈ f1, Drive.torqueOf f = 0 := by
      cases ds with
      | nil =>
        simp only [Drive.run] at hdr; cases hdr
        exact ⟨hd, hoff, fun f hf => by cases hf⟩
      | cons x xs =>
        cases xs with
        | cons y ys => simp at hlen
        | nil =>
          obtain ⟨dm, g1, g2, q1, q2, rfl⟩ := Drive.run_cons hdr
          simp only [Drive.run] at q2; cases q2
          obtain ⟨dm', g1', q1', ok⟩ := Drive.step_ok d hd x (Drive.floats_head hfd)
          rw [q1] at q1'; cases q1'
          obtain ⟨o1, o2⟩ := Drive.off_step hd hoff (Drive.floats_head hfd) q1 hst1
          refine ⟨ok.inv, o1, ?_⟩
          rw [List.append_nil]; exact o2
    obtain ⟨hd1, ho1, hz⟩ := hoff1
    have hex2 : ∃ f ∈ f2, Drive.torqueOf f ≠ 0 := by
      obtain ⟨f, hf, hne⟩ := hex
      rcases List.mem_append.mp hf with hf | hf
      · exact absurd (hz f hf) hne
      · exact ⟨f, hf, hne⟩
    obtain ⟨p, q, r, g, e1, e2, e3⟩ := forward_run es _ s1 _ d1 _ hi1 hrel1 hd1 ho1 hfl' h2 hex2
    refine ⟨e :: p, q, r, f1 ++ g, by rw [e1]; rfl, ?_, e3⟩
    simp only [run, h1, e2]

theorem seen_append {s r : St} {g : List Sent} : ∀ (p q : List Ev), run s p = .ok (r, g) →
    (seen s p).Sublist (seen s (p ++ q)) := by
  intro p
  induction p generalizing s g with
  | nil => intro q _; exact List.nil_sublist _
  | cons e p ih =>
    intro q h
    simp only [run] at h
    split at h
    · cases h
    rename_i s1 f1 h1
    split at h
    · cases h
    rename_i s2 f2 h2
    cases h
    simp only [seen, List.cons_append, h1]
    exact (List.Sublist.refl _).append (ih q h2)

/-- Torque only after the state handlers have seen the button pressed, released and pressed. -/
theorem presses_before_torque (cfg : Config) (sm : StateMgr.StateManager) (dec : MsgFrame.Dec) (buf : Nat → UInt8)
    (ecu control : Bool) (hsm : StateMgr.smInit true true true (StateMgr.wired cfg) = .ok (.ok, sm))
    (es : List Ev) (hf : FloatWrites es) (s : St) (fs : List Sent)
    (hr : run (start sm dec buf ecu control) es = .ok (s, fs)) (hex : ∃ f ∈ fs, Drive.torqueOf f ≠ 0) :
    [true, false, true].Sublist (seen (start sm dec buf ecu control) es) := by
  obtain ⟨m0, -, hi, hrel⟩ := start_inv cfg sm dec buf ecu control hsm
  obtain ⟨p, q, r, g, e1, e2, e3⟩ := forward_run es [] _ s _ fs hi hrel (Drive.start_inv _ _ _ _)
    ⟨rfl, trivial, by simp [Drive.start]⟩ hf hr hex
  have hv : sm.vsm.core.vsmState = .init := by
    have h := hrel.vsm
    have h' : (start sm dec buf ecu control).mgr.vsm.core = sm.vsm.core := rfl
    rw [h'] at h
    rw [← h]; rfl
  have hp : sm.vsm.core.inputButtonPrev = false := by
    have h := hrel.vsm
    have h' : (start sm dec buf ecu control).mgr.vsm.core = sm.vsm.core := rfl
    rw [h'] at h
    rw [← h]; rfl
  have h0 : Stage (start sm dec buf ecu control).mgr.vsm.core [] := by
    have h' : (start sm dec buf ecu control).mgr.vsm.core = sm.vsm.core := rfl
    refine ⟨hi.settled, hi.valid, fun _ => hp, ?_, ?_, ?_⟩ <;> (rw [h', hv]; simp)
  have h1 := (stage_run p [] _ r g h0 e2).forward e3
  rw [List.nil_append] at h1
  rw [e1]
  exact h1.trans (seen_append p q e2)

/-- Only a write changes what the data say of the button. -/
theorem step_dash {s s' : St} {fs : List Sent} {e : Ev} (h : step s e = .ok (s', fs)) (he : ∀ d, e ≠ .write d) :
    s'.vd.dash = s.vd.dash := by
  by_cases hpc : e.isPc = true
  · exact (pc_step hpc h).2.1.dash
  cases e with
  | write d => exact absurd rfl (he d)
  | copy ok =>
    simp only [step] at h
    split at h
    · split at h
      · cases h
      · cases h; rfl
    · cases h; rfl
  | handle ok =>
    simp only [step] at h
    split at h
    · cases h; rfl
    · split at h
      · cases h
      · cases h; rfl
  | call en =>
    simp only [step] at h
    split at h
    · cases h; rfl
    · unfold applyOut at h
      split at h
      · cases h
      · cases h; rfl
  | throttle ok en =>
    simp only [step] at h
    split at h
    · cases h
    · cases h; rfl
  | pcBatch b c => exact absurd rfl hpc
  | pcAct l => exact absurd rfl hpc

end Verif.Vehicle

namespace Verif.SenseCar

variable (c : DiscreteSense.Cfg)

/-- The control software's part of a history. -/
def vehOf (s : Vehicle.St) : List Ev → List Vehicle.Ev
  | [] => []
  | e :: H =>
    toVeh c s e ::
      match Vehicle.step s (toVeh c s e) with
      | .error _ => []
      | .ok (s', _) => vehOf s' H

theorem run_veh : ∀ (H : List Ev) (s s' : Vehicle.St) (fs : List InvDrv.Sent), run c s H = .ok (s', fs) →
    Vehicle.run s (vehOf c s H) = .ok (s', fs)
  | [], s, s', fs, h => by simp only [run] at h; cases h; rfl
  | e :: H, s, s', fs, h => by
    simp only [run] at h
    split at h
    · cases h
    rename_i s1 f1 h1
    split at h
    · cases h
    rename_i s2 f2 h2
    cases h
    simp only [vehOf, Vehicle.run, h1, run_veh H s1 _ f2 h2]

/-! ### The driver's inputs are floats -/

theorem isFloat_mul (a b : F32) : F32.IsFloat (F32.mul a b) := by
  unfold F32.mul
  split <;> first
    | exact Screen.isFloat_round _
    | trivial
    | (split
       · trivial
       · split <;> trivial)

theorem tick_float (r : DiscreteSense.Reads) (d : VData) (h : F32.IsFloat d.inputs.accel) :
    F32.IsFloat (DiscreteSense.tick c r d).inputs.accel := by
  unfold DiscreteSense.tick
  dsimp only
  split
  · have key : ∀ (ra rb : Adc.Status × UInt16) (a b : F32) (i : Inputs), F32.IsFloat i.accel →
        F32.IsFloat (DiscreteSense.pubAccel ra rb (F32.mul (.fin (1 / 2)) (F32.add a b)) i).accel := by
      intro ra rb a b i hi
      unfold DiscreteSense.pubAccel
      split
      · exact isFloat_mul _ _
      · exact hi
    have kA : ∀ (r : Adc.Status × UInt16) (v : F32) (i : Inputs), (DiscreteSense.pubA r v i).accel = i.accel := by
      intro r v i; unfold DiscreteSense.pubA; split <;> rfl
    have kB : ∀ (r : Adc.Status × UInt16) (v : F32) (i : Inputs), (DiscreteSense.pubB r v i).accel = i.accel := by
      intro r v i; unfold DiscreteSense.pubB; split <;> rfl
    have kF : ∀ (r : Adc.Status × UInt16) (v : F32) (i : Inputs), (DiscreteSense.pubFront r v i).accel = i.accel := by
      intro r v i; unfold DiscreteSense.pubFront; split <;> rfl
    have kR : ∀ (r : Adc.Status × UInt16) (v : F32) (i : Inputs), (DiscreteSense.pubRear r v i).accel = i.accel := by
      intro r v i; unfold DiscreteSense.pubRear; split <;> rfl
    dsimp only
    rw [kR, kF]
    apply key
    rw [kB, kA]; exact h
  · exact h

theorem tick_button (r : DiscreteSense.Reads) (d : VData) :
    (DiscreteSense.tick c r d).dash.buttonPressed = if r.acquired then r.button else d.dash.buttonPressed := by
  unfold DiscreteSense.tick
  dsimp only
  split <;> rfl

/-! ### What the state machine sees of the button is what the pin was -/

/-- No two equal neighbours, the last one given: `x` is what comes after the list. -/
theorem last_diff {l R : List Bool} {x y : Bool} (h : (l ++ [!x]).Sublist (R ++ [x])) (hy : y = x) :
    (l ++ [!x, y]).Sublist (R ++ [x]) := by
  subst hy
  have : (l ++ [!y]).Sublist R := by
    rw [List.sublist_append_iff] at h
    obtain ⟨a, b, e, h1, h2⟩ := h
    rcases List.eq_nil_or_concat b with rfl | ⟨b', z, rfl⟩
    · rw [List.append_nil] at e; rw [e]; exact h1
    · exfalso
      have hz : z = !y := by
        have := congrArg List.getLast? e
        simp at this
        rw [this]; simp
      have hlen := h2.length_le
      simp at hlen
      subst hlen
      simp only [List.concat_nil] at h2
      rw [List.singleton_sublist, List.mem_singleton, hz] at h2
      cases y <;> simp at h2
  have := this.append (List.Sublist.refl [y])
  simpa using this

/-- The readings `R` explain the samples `S`, and `cur` is the last reading. -/
structure Explains (R S : List Bool) (cur : Bool) : Prop where
  last : cur = R.getLast?.getD false
  one : [true].Sublist S → [true].Sublist R
  two : [true, false].Sublist S → [true, false].Sublist R
  three : [true, false, true].Sublist S → [true, false, true].Sublist R

theorem sub_last {l : List Bool} {S : List Bool} {x y : Bool} (h : (l ++ [x]).Sublist (S ++ [y])) (hn : ¬ (l ++ [x]).Sublist S) :
    x = y ∧ l.Sublist S := by
  rw [List.sublist_append_iff] at h
  obtain ⟨a, b, e, h1, h2⟩ := h
  rcases List.eq_nil_or_concat b with rfl | ⟨b', z, rfl⟩
  · rw [List.append_nil] at e; rw [← e] at h1; exact absurd h1 hn
  · have hlen := h2.length_le
    simp at hlen
    subst hlen
    simp only [List.concat_nil] at h2 e
    rw [List.singleton_sublist, List.mem_singleton] at h2
    have e' := List.append_inj' e rfl
    refine ⟨?_, by rw [e'.1]; exact h1⟩
    have := e'.2
    simp at this
    rw [this, h2]

theorem explains_read {R S : List Bool} {cur : Bool} (h : Explains R S cur) (x : Bool) : Explains (R ++ [x]) S x :=
  ⟨by simp, fun k => (h.one k).trans (List.sublist_append_left _ _), fun k => (h.two k).trans (List.sublist_append_left _ _),
    fun k => (h.three k).trans (List.sublist_append_left _ _)⟩

theorem explains_sample {R S : List Bool} {cur : Bool} (h : Explains R S cur) : Explains R (S ++ [cur]) cur := by
  have hlast := h.last
  rcases List.eq_nil_or_concat R with hR | ⟨R', x, hR⟩
  · -- no reading yet: the sample is `false`
    have hc : cur = false := by rw [hlast, hR]; rfl
    refine ⟨hlast, fun k => ?_, fun k => ?_, fun k => ?_⟩
    · by_cases hk : [true].Sublist S
      · exact h.one hk
      · have := (sub_last (l := []) k hk).1
        rw [hc] at this; cases this
    · by_cases hk : [true, false].Sublist S
      · exact h.two hk
      · have := h.one (sub_last (l := [true]) k hk).2
        rw [hR] at this; cases this
    · by_cases hk : [true, false, true].Sublist S
      · exact h.three hk
      · have := (sub_last (l := [true, false]) k hk).1
        rw [hc] at this; cases this
  · have hx : cur = x := by rw [hlast, hR]; simp
    refine ⟨hlast, fun k => ?_, fun k => ?_, fun k => ?_⟩
    · by_cases hk : [true].Sublist S
      · exact h.one hk
      · have := (sub_last (l := []) k hk).1
        rw [hR, List.concat_eq_append, List.singleton_sublist, ← hx, ← this]; simp
    · by_cases hk : [true, false].Sublist S
      · exact h.two hk
      · obtain ⟨k1, k2⟩ := sub_last (l := [true]) k hk
        have k3 := h.one k2
        rw [hR, List.concat_eq_append, ← hx, ← k1] at k3 ⊢
        exact last_diff (l := []) (x := false) k3 rfl
    · by_cases hk : [true, false, true].Sublist S
      · exact h.three hk
      · obtain ⟨k1, k2⟩ := sub_last (l := [true, false]) k hk
        have k3 := h.two k2
        rw [hR, List.concat_eq_append, ← hx, ← k1] at k3 ⊢
        exact last_diff (l := [true]) (x := true) k3 rfl

theorem button_append (a b : List Ev) : button (a ++ b) = button a ++ button b := List.filterMap_append

theorem explains_run : ∀ (H : List Ev) (s s' : Vehicle.St) (fs : List InvDrv.Sent) (R S : List Bool),
    Explains R S s.vd.dash.buttonPressed → F32.IsFloat s.vd.inputs.accel → run c s H = .ok (s', fs) →
    Explains (R ++ button H) (S ++ Vehicle.seen s (vehOf c s H)) s'.vd.dash.buttonPressed ∧
      Vehicle.FloatWrites (vehOf c s H)
  | [], s, s', fs, R, S, h, hf, hr => by
    simp only [run] at hr; cases hr
    refine ⟨by simpa [button, vehOf, Vehicle.seen] using h, fun d hd => by cases hd⟩
  | e :: H, s, s', fs, R, S, h, hf, hr => by
    simp only [run] at hr
    split at hr
    · cases hr
    rename_i s1 f1 h1
    split at hr
    · cases hr
    rename_i s2 f2 h2
    cases hr
    have hb : button (e :: H) = button [e] ++ button H := button_append [e] H
    rw [hb]
    simp only [vehOf, h1, Vehicle.seen]
    rw [← List.append_assoc, ← List.append_assoc]
    have key : Explains (R ++ button [e]) (S ++ (match toVeh c s e with
        | .handle true => [s.vd.dash.buttonPressed]
        | _ => [])) s1.vd.dash.buttonPressed ∧ F32.IsFloat s1.vd.inputs.accel ∧
        (∀ d, toVeh c s e = .write d → F32.IsFloat d.inputs.accel) := by
      cases e with
      | sense r =>
        simp only [toVeh, Vehicle.step, Except.ok.injEq, Prod.mk.injEq] at h1
        have ht := tick_float c r s.vd hf
        refine ⟨?_, by rw [← h1.1]; exact ht, fun d hd => by
          simp only [toVeh, Vehicle.Ev.write.injEq] at hd; rw [← hd]; exact ht⟩
        simp only [toVeh, List.append_nil]
        rw [← h1.1]
        dsimp only
        rw [tick_button]
        cases hq : r.acquired with
        | true =>
          have : button [Ev.sense r] = [r.button] := by simp [button, hq]
          rw [this]; exact explains_read h _
        | false =>
          have : button [Ev.sense r] = [] := by simp [button, hq]
          rw [this, List.append_nil]; exact h
      | veh e =>
        have : button [Ev.veh e] = [] := rfl
        rw [this, List.append_nil]
        by_cases hw : ∃ d, e = .write d
        · obtain ⟨d, rfl⟩ := hw
          simp only [toVeh, Vehicle.step, Except.ok.injEq, Prod.mk.injEq] at h1
          refine ⟨?_, by rw [← h1.1]; exact hf, fun d' hd => by
            simp only [toVeh, Vehicle.Ev.write.injEq] at hd; rw [← hd]; exact hf⟩
          simp only [toVeh, List.append_nil]
          rw [← h1.1]; exact h
        · have hne : ∀ d, e ≠ .write d := fun d hd => hw ⟨d, hd⟩
          have ht : toVeh c s (.veh e) = e := by
            cases e <;> first | rfl | exact absurd rfl (hne _)
          rw [ht] at h1 ⊢
          refine ⟨?_, by rw [(Vehicle.step_vd h1 hne).2]; exact hf, fun d hd => absurd hd (hne d)⟩
          rw [Vehicle.step_dash h1 hne]
          by_cases hh : e = .handle true
          · subst hh; exact explains_sample h
          · split
            · rename_i he; exact absurd rfl hh
            · rw [List.append_nil]; exact h
    obtain ⟨k1, k2, k3⟩ := key
    obtain ⟨r1, r2⟩ := explains_run H s1 _ f2 _ _ k1 k2 h2
    refine ⟨r1, fun d hd => ?_⟩
    rcases List.mem_cons.mp hd with hd | hd
    · exact k3 d hd.symm
    · exact r2 d hd

/-- **C143.** Any history of the car from start-up: sensor task, state manager, throttle task, PC interface and
other tasks in any order.  If a command frame with torque has been handed to the bus, the sensor task has, before that,
read the pin of the dashboard button as pressed, later as released and later again as pressed. -/
theorem C143_two_presses_before_torque (cfg : Config) (sm : StateMgr.StateManager) (dec : MsgFrame.Dec)
    (buf : Nat → UInt8) (ecu control : Bool)
    (hsm : StateMgr.smInit true true true (StateMgr.wired cfg) = .ok (.ok, sm)) (H : List Ev) (s : Vehicle.St)
    (fs : List InvDrv.Sent) (hrun : run c (Vehicle.start sm dec buf ecu control) H = .ok (s, fs))
    (htorque : ∃ f ∈ fs, Drive.torqueOf f ≠ 0) : [true, false, true].Sublist (button H) := by
  obtain ⟨h1, h2⟩ := explains_run c H _ s fs [] []
    ⟨rfl, fun k => k, fun k => k, fun k => k⟩ (show F32.IsFloat (.fin 0) from ⟨by decide +kernel, by norm_num⟩) hrun
  rw [List.nil_append, List.nil_append] at h1
  exact h1.three (Vehicle.presses_before_torque cfg sm dec buf ecu control hsm _ h2 s fs (run_veh c H _ s fs hrun) htorque)

/-! ## A drive -/

/-- Both pedals at this raw value, the button at this level. -/
def reading (raw : UInt16) (b : Bool) : DiscreteSense.Reads :=
  ⟨(.ok, raw), (.ok, raw), (.ok, 1000), (.ok, 1000), b, true⟩

/-- The sensor task, then a step of the state manager on data that name another level of the button. -/
def round (raw : UInt16) (b : Bool) (inv : UInt8) : List Ev :=
  .sense (reading raw b) :: (Vehicle.whole (Vehicle.sample (!b) inv 1 false)).map .veh

/-- Start-up with these levels at the third, the seventh and the ninth step. -/
def drive (raw : UInt16) (a b d : Bool) : List Ev :=
  ([(false, 0), (false, 0), (a, 0), (a, 0), (a, 0), (a, 0), (b, 5), (b, 5), (d, 5)].flatMap fun x => round raw x.1 x.2) ++
    (Vehicle.pedal 6).map .veh

/-- The firmware of the example. -/
def demoCfg : DiscreteSense.Cfg := DiscreteSense.cfgOf Config.default

example :
    (match Vehicle.demoStart with
    | .ok v =>
      [drive 3000 true false true, drive 3000 true true true, drive 3000 false false true].map fun H =>
        match run demoCfg v H with
        | .ok (_, fs) => (fs.map Drive.torqueOf).any fun x => decide (x ≠ 0)
        | .error _ => false
    | .error _ => []) = [true, false, false] := by decide +kernel

end Verif.SenseCar
