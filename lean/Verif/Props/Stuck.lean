import Verif.Props.Healthy
import Verif.Props.Heartbeat
import Mathlib.Tactic.ByContra

set_option autoImplicit false

/-!
# When a part of the control software stops running (C149)
-/

namespace Verif.Vehicle
open InvDrv Verif.FaultSpec Healthy

/-! ## Vocabulary -/

/-- An activity of the state manager's task. -/
def Ev.ofManager : Ev → Bool
  | .copy _ => true
  | .handle _ => true
  | .call _ => true
  | _ => false

/-- An activity of the throttle task. -/
def Ev.ofThrottle : Ev → Bool
  | .throttle _ _ => true
  | _ => false

/-- Data written by one of the other tasks: sensors, battery, inverter, shutdown circuit. -/
def Ev.isWrite : Ev → Bool
  | .write _ => true
  | _ => false

/-- The sample gives no reason for a fault. -/
structure Plausible (cfg : Config) (d : VData) : Prop where
  accel : ¬ accelRange cfg d
  agree : ¬ accelDisagree cfg d
  brake : ¬ brakeRange cfg d
  abuse : ¬ pedalAbuse cfg d
  temp : ¬ cellTemp cfg d
  current : ¬ FaultSpec.current cfg d
  volt : ¬ cellVolt cfg d
  soc : ¬ lowSoc cfg d
  line : d.battery.bmsFaultIndicator = false

/-! ## Lemmas -/

theorem stopped_manager : ∀ (es : List Ev) (s : St), (∀ e ∈ es, e.ofManager = false) →
    copies s es = [] ∧ looks s es = []
  | [], _, _ => ⟨rfl, rfl⟩
  | e :: es, s, h => by
    have he := h e (by simp)
    have ih := fun s' => stopped_manager es s' (fun x hx => h x (by simp [hx]))
    have h1 : copied s e = none := by cases e <;> first | rfl | simp [Ev.ofManager] at he
    have h2 : looked s e = none := by cases e <;> first | rfl | simp [Ev.ofManager] at he
    constructor
    · simp only [copies, h1]
      split
      · exact (ih _).1
      · rfl
    · simp only [looks, h2]
      split
      · exact (ih _).2
      · rfl

/-- Only other tasks' writes change the inputs, the battery data and the dashboard data. -/
theorem step_same {s s' : St} {fs : List InvDrv.Sent} {e : Ev} (h : step s e = .ok (s', fs))
    (he : e.isWrite = false) : s'.vd = { s.vd with glv := s'.vd.glv } := by
  cases e with
  | write d => simp [Ev.isWrite] at he
  | copy ok =>
    simp only [step] at h
    split at h
    · split at h
      · simp at h
      · simp only [Except.ok.injEq, Prod.mk.injEq] at h; rw [← h.1]
    · simp only [Except.ok.injEq, Prod.mk.injEq] at h; rw [← h.1]
  | handle ok =>
    simp only [step] at h
    split at h
    · simp only [Except.ok.injEq, Prod.mk.injEq] at h; rw [← h.1]
    · split at h
      · simp at h
      · simp only [Except.ok.injEq, Prod.mk.injEq] at h; rw [← h.1]
  | call en =>
    simp only [step] at h
    split at h
    · simp only [Except.ok.injEq, Prod.mk.injEq] at h; rw [← h.1]
    · simp only [applyOut] at h
      split at h
      · simp at h
      · simp only [Except.ok.injEq, Prod.mk.injEq] at h; rw [← h.1]
  | throttle ok en =>
    simp only [step] at h
    split at h
    · simp at h
    · simp only [Except.ok.injEq, Prod.mk.injEq] at h; rw [← h.1]
  | pcBatch bytes crc =>
    simp only [step] at h
    split at h
    · simp only [Except.ok.injEq, Prod.mk.injEq] at h; rw [← h.1]
    · split at h
      · simp at h
      · simp only [Except.ok.injEq, Prod.mk.injEq] at h; rw [← h.1]
  | pcAct lock =>
    simp only [step] at h
    split at h
    · simp only [Except.ok.injEq, Prod.mk.injEq] at h; rw [← h.1]
    · split at h
      · simp at h
      · rename_i a as _ _ s1 h1
        simp only [Except.ok.injEq, Prod.mk.injEq] at h
        rw [← h.1]
        cases a with
        | ecuError b => simp only [act, Except.ok.injEq] at h1; rw [← h1]
        | power c b =>
          simp only [act, setPower] at h1
          split at h1
          · simp at h1
          · simp only [Except.ok.injEq] at h1; rw [← h1]
        | print x => simp only [act, Except.ok.injEq] at h1; rw [← h1]
        | terminal bs =>
          simp only [act] at h1
          split at h1
          · simp at h1
          · simp only [Except.ok.injEq] at h1; rw [← h1]

/-- The same data, but for the power channels. -/
def Same (d0 d : VData) : Prop := d = { d0 with glv := d.glv }

theorem frozen_run : ∀ (es : List Ev) (s : St) (d0 : VData), Same d0 s.vd → (∀ e ∈ es, e.isWrite = false) →
    (∀ d, some d ∈ copies s es → Same d0 d) ∧ (∀ d ∈ looks s es, Same d0 d) ∧
    ∀ a ∈ pedals s es, a = d0.inputs.accel
  | [], _, _, _, _ => ⟨by simp [copies], by simp [looks], by simp [pedals]⟩
  | e :: es, s, d0, hs, h => by
    have he := h e (by simp)
    have ih : ∀ s' fs, step s e = .ok (s', fs) → _ := fun s' fs hst =>
      frozen_run es s' d0 (by
        have := step_same hst he
        unfold Same at hs ⊢
        rw [this, hs]) (fun x hx => h x (by simp [hx]))
    refine ⟨fun d hd => ?_, fun d hd => ?_, fun a ha => ?_⟩
    · simp only [copies, List.mem_append, Option.mem_toList] at hd
      rcases hd with hd | hd
      · cases e <;> simp [copied] at hd
        obtain ⟨-, -, rfl⟩ := hd
        exact hs
      · split at hd
        · rename_i r hr
          exact (ih r.1 r.2 hr).1 d hd
        · simp at hd
    · simp only [looks, List.mem_append, Option.mem_toList] at hd
      rcases hd with hd | hd
      · cases e <;> simp [looked] at hd
        obtain ⟨-, rfl⟩ := hd
        exact hs
      · split at hd
        · rename_i r hr
          exact (ih r.1 r.2 hr).2.1 d hd
        · simp at hd
    · simp only [pedals, List.mem_append, Option.mem_toList] at ha
      rcases ha with ha | ha
      · cases e <;> simp [pedalRead] at ha
        obtain ⟨-, rfl⟩ := ha
        unfold Same at hs
        rw [hs]
      · split at ha
        · rename_i r hr
          exact (ih r.1 r.2 hr).2.2 a ha
        · simp at ha

theorem heldFor_last {bad : VData → Prop} {n : Nat} (hn : 1 ≤ n) {h : List VData} {d : VData} (hd : ¬ bad d)
    (hh : HeldFor bad n (h ++ [d])) : HeldFor bad n h := by
  obtain ⟨b, w, a, e, hw, hbad⟩ := hh
  rcases List.eq_nil_or_concat a with rfl | ⟨a', z, rfl⟩
  · rcases List.eq_nil_or_concat w with rfl | ⟨w', y, rfl⟩
    · simp at hw; omega
    · rw [List.append_nil, List.concat_eq_append, ← List.append_assoc] at e
      have := (List.append_inj' e rfl).2
      simp only [List.cons.injEq, and_true] at this
      subst this
      exact absurd (hbad d (by simp)) hd
  · rw [List.concat_eq_append, ← List.append_assoc] at e
    exact ⟨b, w, a', (List.append_inj' e rfl).1, hw, hbad⟩

theorem heldFor_before {bad : VData → Prop} {n : Nat} (hn : 1 ≤ n) {h : List VData} (k : List VData) :
    (∀ d ∈ k, ¬ bad d) → HeldFor bad n (h ++ k) → HeldFor bad n h := by
  induction k using List.reverseRecOn with
  | nil => intro _ hh; simpa using hh
  | append_singleton k d ih =>
    intro hk hh
    rw [← List.append_assoc] at hh
    exact ih (fun x hx => hk x (by simp [hx])) (heldFor_last hn (hk d (by simp)) hh)

theorem no_fault {cfg : Config} {h k : List VData} (hh : ¬ DriveFault cfg 10 h) (hk : ∀ d ∈ k, Plausible cfg d) :
    ¬ DriveFault cfg 10 (h ++ k) := by
  have hi : 1 ≤ inputSamples cfg 10 := by simp [inputSamples]
  have hb : 1 ≤ bmsSamples cfg 10 := by simp [bmsSamples]
  intro hd
  apply hh
  rcases hd with h1 | h1 | h1 | h1 | h1 | h1 | h1 | ⟨d, hd, h1⟩ | ⟨d, hd, h1⟩
  · exact .inl (heldFor_before hi k (fun d hd => (hk d hd).accel) h1)
  · exact .inr (.inl (heldFor_before hi k (fun d hd => (hk d hd).agree) h1))
  · exact .inr (.inr (.inl (heldFor_before hi k (fun d hd => (hk d hd).brake) h1)))
  · exact .inr (.inr (.inr (.inl (heldFor_before hi k (fun d hd => (hk d hd).abuse) h1))))
  · exact .inr (.inr (.inr (.inr (.inl (heldFor_before hb k (fun d hd => (hk d hd).temp) h1)))))
  · exact .inr (.inr (.inr (.inr (.inr (.inl (heldFor_before hb k (fun d hd => (hk d hd).current) h1))))))
  · exact .inr (.inr (.inr (.inr (.inr (.inr (.inl (heldFor_before hb k (fun d hd => (hk d hd).volt) h1)))))))
  · rcases List.mem_append.mp hd with hd | hd
    · exact .inr (.inr (.inr (.inr (.inr (.inr (.inr (.inl ⟨d, hd, h1⟩)))))))
    · exact absurd h1 (hk d hd).soc
  · rcases List.mem_append.mp hd with hd | hd
    · exact .inr (.inr (.inr (.inr (.inr (.inr (.inr (.inr ⟨d, hd, h1⟩)))))))
    · rw [(hk d hd).line] at h1; simp at h1

theorem plausible_same {cfg : Config} {d0 d : VData} (h : Same d0 d) (hp : Plausible cfg d0) : Plausible cfg d := by
  unfold Same at h
  rw [h]
  exact ⟨hp.accel, hp.agree, hp.brake, hp.abuse, hp.temp, hp.current, hp.volt, hp.soc, hp.line⟩

/-- Frames with torque come from the throttle task. -/
theorem no_throttle_no_torque {cfg : Config} {m0 : FaultMgr.Internal} : ∀ (es : List Ev) {s s' : St} {fs : List Sent},
    Beats cfg m0 s → FloatWrites es → (∀ e ∈ es, e.ofThrottle = false) → run s es = .ok (s', fs) →
    ∀ f ∈ fs, Drive.torqueOf f = 0
  | [], s, s', fs, _, _, _, h => by
    simp only [run] at h; cases h; simp
  | e :: es, s, s', fs, hs, hf, ht, h => by
    obtain ⟨s1, f1, f2, h1, h2, rfl⟩ := run_cons h
    obtain ⟨a1, -⟩ := beats_step hs (fun v hv => hf v (by simp [hv])) h1
    have ih := no_throttle_no_torque es a1 (fun v hv => hf v (List.mem_cons_of_mem _ hv))
      (fun x hx => ht x (List.mem_cons_of_mem _ hx)) h2
    have he := ht e (by simp)
    intro f hm
    rcases List.mem_append.mp hm with hm | hm
    swap
    · exact ih f hm
    obtain ⟨-, d, hr, hd⟩ := hs
    by_cases hpc : e.isPc = true
    · obtain ⟨rfl, -, -⟩ := pc_step hpc h1
      cases hm
    cases e with
    | pcBatch b c => exact absurd rfl hpc
    | pcAct l => exact absurd rfl hpc
    | write v => simp only [step] at h1; cases h1; cases hm
    | copy ok =>
      simp only [step] at h1
      split at h1
      · split at h1 <;> cases h1
        cases hm
      · cases h1; cases hm
    | handle ok =>
      simp only [step] at h1
      split at h1
      · cases h1; cases hm
      · split at h1 <;> cases h1
        cases hm
    | throttle ok en => simp [Ev.ofThrottle] at he
    | call en =>
      simp only [step] at h1
      split at h1
      · cases h1; cases hm
      · rename_i o os hp
        simp only [applyOut] at h1
        split at h1
        · cases h1
        · rename_i d' fs' hap
          cases h1
          cases o with
          | ecuError b => simp only [Drive.apply] at hap; cases hap; cases hm
          | motorDirection b => simp only [Drive.apply] at hap; cases hap; cases hm
          | torqueEnabled b => simp only [Drive.apply] at hap; cases hap; cases hm
          | enableInverter =>
            simp only [Drive.apply] at hap
            have hdis : s.cmd.dischargeModeEnabled = false := by rw [← hr.cmd]; exact hd.noDischarge
            obtain ⟨r, q1, -, -, -, q2⟩ := Drive.enable_ok s.cmd en hdis
            rw [q1] at hap
            cases hap
            exact (q2 f hm).2.1

/-! ## C149 -/

variable (cfg : Config) (sm : StateMgr.StateManager) (dec : MsgFrame.Dec) (buf : Nat → UInt8) (ecu control : Bool)

/-- **C149, the part that holds: the throttle task stops.** However the history went on before, as long as the throttle
task does nothing no command frame carries torque. Missing: the other parts of the software. -/
theorem C149_throttle_stopped_partial
    (hsm : StateMgr.smInit true true true (StateMgr.wired cfg) = .ok (.ok, sm))
    (es1 es2 : List Ev) (s1 s2 : St) (f1 f2 : List Sent) (hf : FloatWrites (es1 ++ es2))
    (h1 : run (start sm dec buf ecu control) es1 = .ok (s1, f1)) (h2 : run s1 es2 = .ok (s2, f2))
    (hstop : ∀ e ∈ es2, e.ofThrottle = false) : ∀ f ∈ f2, Drive.torqueOf f = 0 := by
  obtain ⟨m0, -, hi, hrel⟩ := start_inv cfg sm dec buf ecu control hsm
  obtain ⟨b1, -⟩ := beats_run es1 ⟨⟨_, hi⟩, _, hrel, Drive.start_inv _ _ _ _⟩
    (fun v hv => hf v (by simp [hv])) h1
  exact no_throttle_no_torque es2 b1 (fun v hv => hf v (by simp [hv])) hstop h2

/-- **C149 is false: the state manager stops.** Let the vehicle drive (as in C135) and then the state manager's task do
nothing any more. Whatever the vehicle data show from then on (any fault of the battery or the pedals, the button
pressed to stop), every pedal value read is answered by a command frame that enables the inverter with the torque of
the pedal curve. -/
theorem C149_manager_stopped
    (hsm : StateMgr.smInit true true true (StateMgr.wired cfg) = .ok (.ok, sm))
    (hl : inputSamples cfg 10 ≤ 65535) (hlb : bmsSamples cfg 10 ≤ 65535)
    (hw : cfg.vcu.hvActiveStateWait.toNat ≤ 4294967290)
    (es1 es2 : List Ev) (s1 s2 : St) (f1 f2 : List Sent)
    (hf : FloatWrites (es1 ++ es2)) (hg : ∀ e ∈ es1 ++ es2, Granted e)
    (h1 : run (start sm dec buf ecu control) es1 = .ok (s1, f1)) (h2 : run s1 es2 = .ok (s2, f2))
    (hh : ¬ DriveFault cfg 10 ((copies (start sm dec buf ecu control) es1).filterMap id))
    (hoff : DriveOff cfg.vcu.hvActiveStateWait.toNat cfg.vcu.hvChargeTimeout.toNat
      (looks (start sm dec buf ecu control) es1))
    (hq : s1.pending = [] ∧ s1.thr.pc = .idle) (hstop : ∀ e ∈ es2, e.ofManager = false) :
    ∃ done rest, pedals s1 es2 = done ++ rest ∧ rest.length ≤ 1 ∧ (s2.thr.pc = .idle → rest = []) ∧
      List.Forall₂ (fun a f => f.msgId = 0x0C0 ∧ Drives a f.bytes) done f2 := by
  obtain ⟨e1, e2⟩ := stopped_manager es2 s1 hstop
  exact C135_drives_when_asked cfg sm dec buf ecu control hsm hl hlb hw es1 es2 s1 s2 f1 f2 hf hg h1 h2
    (by rw [e1, List.append_nil]; exact hh) hoff hq (by rw [e2]; exact ⟨[], [], rfl, by simp, by simp⟩)

/-- **C149 is false: the tasks that publish stop.** Let the vehicle drive and then nothing be published any more; let
the last values give no reason for a fault. Then for ever every activation of the throttle task commands the torque of
the last pedal position published, while state manager and throttle task run as they should. -/
theorem C149_publishing_stopped
    (hsm : StateMgr.smInit true true true (StateMgr.wired cfg) = .ok (.ok, sm))
    (hl : inputSamples cfg 10 ≤ 65535) (hlb : bmsSamples cfg 10 ≤ 65535)
    (hw : cfg.vcu.hvActiveStateWait.toNat ≤ 4294967290)
    (es1 es2 : List Ev) (s1 s2 : St) (f1 f2 : List Sent)
    (hf : FloatWrites es1) (hg : ∀ e ∈ es1 ++ es2, Granted e)
    (h1 : run (start sm dec buf ecu control) es1 = .ok (s1, f1)) (h2 : run s1 es2 = .ok (s2, f2))
    (hh : ¬ DriveFault cfg 10 ((copies (start sm dec buf ecu control) es1).filterMap id))
    (hoff : DriveOff cfg.vcu.hvActiveStateWait.toNat cfg.vcu.hvChargeTimeout.toNat
      (looks (start sm dec buf ecu control) es1))
    (hq : s1.pending = [] ∧ s1.thr.pc = .idle) (hstop : ∀ e ∈ es2, e.isWrite = false)
    (hlast : Plausible cfg s1.vd) :
    (∀ f ∈ f2, f.msgId = 0x0C0 ∧ Drives s1.vd.inputs.accel f.bytes) ∧
    (pedals s1 es2).length ≤ f2.length + 1 ∧ (s2.thr.pc = .idle → f2.length = (pedals s1 es2).length) := by
  obtain ⟨z1, z2, z3⟩ := frozen_run es2 s1 s1.vd rfl hstop
  have hfault : ¬ DriveFault cfg 10
      ((copies (start sm dec buf ecu control) es1 ++ copies s1 es2).filterMap id) := by
    rw [List.filterMap_append]
    refine no_fault hh fun d hd => ?_
    simp only [List.mem_filterMap, id] at hd
    obtain ⟨x, hx, rfl⟩ := hd
    exact plausible_same (z1 d hx) hlast
  have hgo : NotAsked (looks s1 es2) := by
    cases hb : s1.vd.dash.buttonPressed with
    | true =>
      refine ⟨looks s1 es2, [], by simp, fun d hd => ?_, by simp⟩
      have := z2 d hd
      unfold Same at this
      unfold Pressed
      rw [this]; exact hb
    | false =>
      refine ⟨[], looks s1 es2, by simp, by simp, fun d hd => ?_⟩
      have := z2 d hd
      unfold Same at this
      unfold Released
      rw [this]; exact hb
  obtain ⟨done, rest, e1, e2, e3, e4⟩ := C135_drives_when_asked cfg sm dec buf ecu control hsm hl hlb hw es1 es2 s1 s2
    f1 f2 (by
      intro d hd
      rcases List.mem_append.mp hd with hd | hd
      · exact hf d hd
      · have := hstop _ hd; simp [Ev.isWrite] at this) hg h1 h2 hfault hoff hq hgo
  have hlen := e4.length_eq
  have hall : ∀ {l : List F32} {m : List Sent}, (∀ a ∈ l, a = s1.vd.inputs.accel) →
      List.Forall₂ (fun a f => f.msgId = 0x0C0 ∧ Drives a f.bytes) l m →
      ∀ f ∈ m, f.msgId = 0x0C0 ∧ Drives s1.vd.inputs.accel f.bytes := by
    intro l m hl hm
    induction hm with
    | nil => simp
    | @cons a b l m x _ ih =>
      intro f hf
      rcases List.mem_cons.mp hf with rfl | hf
      · have := hl a (by simp)
        rw [this] at x
        exact x
      · exact ih (fun a ha => hl a (by simp [ha])) f hf
  refine ⟨hall (fun a ha => z3 a (by rw [e1]; simp [ha])) e4, ?_, fun hi => ?_⟩
  · rw [e1, List.length_append]; omega
  · rw [e1, e3 hi, List.append_nil, hlen]

/-! ## Cases -/

/-- The vehicle drives; then the state manager stops. The battery reports a fault and the button is
pressed: still 500 Nm. Likewise when nothing is published any more; not when the throttle task stops. -/
example :
    (match demoStart with
    | .ok s =>
      match run s driveOff with
      | .ok (a, _) =>
        a.pending.isEmpty && decide (a.thr.pc = .idle) &&
        (let es := (List.range 4).flatMap (fun _ => .write (sample true 5 1 true) :: pedal 4)
         match run a es with
        | .ok (b, fs) => decide (b.thr.pc = .idle) && fs.map Drive.torqueOf == [5000, 5000, 5000, 5000]
        | .error _ => false) &&
        -- nothing is published any more
        (let es := (List.range 4).flatMap (fun _ => (whole (sample true 5 1 true)).tail ++ pedal 4)
         match run a es with
        | .ok (b, fs) => decide (b.thr.pc = .idle) && fs.map Drive.torqueOf == [5000, 5000, 5000, 5000]
        | .error _ => false) &&
        -- the throttle task stops
        (let es := (List.range 4).flatMap (fun _ => whole (sample true 5 1 false))
         match run a es with
        | .ok (_, fs) => fs.map Drive.torqueOf == []
        | .error _ => false)
      | .error _ => false
    | .error _ => false) = true := by decide +kernel

end Verif.Vehicle
