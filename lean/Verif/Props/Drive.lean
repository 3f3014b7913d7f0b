import Verif.Model.Drive
import Verif.Props.Throttle
import Verif.Props.Vsm
import Mathlib.Tactic.ByContra

set_option autoImplicit false

/-!
# The torque path end to end (C76, C77, C78)
-/

namespace Verif.Drive
open F32 InvDrv

/-! ## Reading a command frame -/

/-- Torque field of a command frame, tenths of a newton metre. -/
def torqueOf (f : Sent) : Nat := f.bytes[0].toNat + 256 * f.bytes[1].toNat
/-- Direction field. -/
def dirOf (f : Sent) : UInt8 := f.bytes[4]
/-- Inverter enable bit. -/
def enableOf (f : Sent) : Bool := f.bytes[5] &&& 1 = 1
/-- Discharge bit. -/
def dischargeOf (f : Sent) : Bool := f.bytes[5] &&& 2 = 2

/-- The accelerator values of the history are floats. -/
def FloatEvents (es : List Ev) : Prop := ∀ a e, Ev.throttle (some a) e ∈ es → IsFloat a

/-! ## Runs -/

theorem run_append : ∀ (a b : List Ev) (s s2 : St) (fs : List Sent), run s (a ++ b) = .ok (s2, fs) →
    ∃ s1 f1 f2, run s a = .ok (s1, f1) ∧ run s1 b = .ok (s2, f2) ∧ fs = f1 ++ f2
  | [], b, s, s2, fs, h => ⟨s, [], fs, rfl, h, rfl⟩
  | e :: a, b, s, s2, fs, h => by
    simp only [List.cons_append, run] at h ⊢
    cases hs : step s e with
    | error u => rw [hs] at h; cases h
    | ok r =>
      obtain ⟨s', g⟩ := r
      rw [hs] at h
      dsimp only at h ⊢
      cases hr : run s' (a ++ b) with
      | error u => rw [hr] at h; cases h
      | ok q =>
        obtain ⟨s'', g'⟩ := q
        rw [hr] at h
        dsimp only at h
        cases h
        obtain ⟨s1, f1, f2, h1, h2, h3⟩ := run_append a b s' _ g' hr
        refine ⟨s1, g ++ f1, f2, ?_, h2, ?_⟩
        · rw [h1]
        · rw [h3, List.append_assoc]

theorem run_cons {e : Ev} {es : List Ev} {s s2 : St} {fs : List Sent}
    (h : run s (e :: es) = .ok (s2, fs)) :
    ∃ s1 f1 f2, step s e = .ok (s1, f1) ∧ run s1 es = .ok (s2, f2) ∧ fs = f1 ++ f2 := by
  simp only [run] at h
  cases hs : step s e with
  | error u => rw [hs] at h; cases h
  | ok r =>
    obtain ⟨s', g⟩ := r
    rw [hs] at h
    dsimp only at h
    cases hr : run s' es with
    | error u => rw [hr] at h; cases h
    | ok q =>
      obtain ⟨s'', g'⟩ := q
      rw [hr] at h
      dsimp only at h
      cases h
      exact ⟨s', g, g', rfl, hr, rfl⟩

/-! ## Invariant of every run -/

/-- The torque the throttle task has computed, if any, is acceptable to the driver; the accelerator
value it holds is a float. -/
def PcOk : Throttle.Pc → Prop
  | .idle => True
  | .gotAccel a => IsFloat a
  | .sawEnabled a => IsFloat a
  | .notForward a => IsFloat a
  | .computed t => ∃ v, t = fin v ∧ 0 ≤ v ∧ v ≤ 500

/-- Invariant. -/
structure Inv (s : St) : Prop where
  dir : s.thr.thr.direction = FORWARD
  noReverse : Vsm.Out.motorDirection .reverse ∉ s.pending
  pc : PcOk s.thr.pc
  noDischarge : s.cmd.dischargeModeEnabled = false
  settled : s.vsm.nextState = s.vsm.vsmState

theorem start_inv (tick wait timeout : UInt32) (ecu : Bool) : Inv (start tick wait timeout ecu) :=
  ⟨rfl, by simp [start], trivial, rfl, rfl⟩

theorem handle_no_reverse (v : Vsm.Vsm) (i : Vsm.In) :
    Vsm.Out.motorDirection .reverse ∉ (Vsm.step v i).2 := by
  show _ ∉ (Vsm.handle v i).2
  unfold Vsm.handle
  split
  · simp [Vsm.stateInit]
  · unfold Vsm.stateLvStartup; split <;> (try split) <;> simp
  · unfold Vsm.stateLvReady; repeat' split
    all_goals simp
  · unfold Vsm.stateHvActive; repeat' split
    all_goals simp
  · unfold Vsm.stateHvCharging; repeat' split
    all_goals simp
  · unfold Vsm.stateActiveNeutral; repeat' split
    all_goals simp
  · unfold Vsm.stateActiveForward; repeat' split
    all_goals simp
  · simp [Vsm.stateFault]
  · simp

theorem settled_vsm (v : Vsm.Vsm) (i : Vsm.In) :
    (Vsm.step v i).1.nextState = (Vsm.step v i).1.vsmState := by
  show (Vsm.advance _).nextState = (Vsm.advance _).vsmState
  unfold Vsm.advance
  dsimp only
  split
  · rfl
  · rename_i h
    exact (not_not.mp h).symm

/-- A frame sent by the driver in a run. -/
structure FrameOk (f : Sent) : Prop where
  id : f.msgId = 0x0C0
  torque : torqueOf f ≤ 5000
  dir : dirOf f = 1
  discharge : dischargeOf f = false

theorem sendCAN_ok {v : ℚ} (h0 : 0 ≤ v) (h1 : v ≤ 500) (en acc : Bool) :
    ∃ m, sendCANCommand (fin v) FORWARD en false acc = .ok m ∧ FrameOk m ∧ enableOf m = en ∧
      (v = 0 → torqueOf m = 0) ∧ m.accepted = acc := by
  obtain ⟨m, hm, m0, m1⟩ := Throttle.torqueToMsg_small h0 h1
  refine ⟨⟨0x0C0, commandBytes m FORWARD en false, acc⟩, ?_, ⟨rfl, ?_, ?_, ?_⟩, ?_, ?_, rfl⟩
  · simp only [sendCANCommand, hm]; rfl
  · have e1 : (m % 65536).toNat ≤ 5000 := by omega
    simp only [torqueOf, commandBytes]
    change (UInt8.ofNat _).toNat + 256 * (UInt8.ofNat _).toNat ≤ 5000
    rw [UInt8.toNat_ofNat', UInt8.toNat_ofNat']
    omega
  · show FORWARD &&& 1 = 1
    decide
  · show decide (((if en then (1 : UInt8) else 0) ||| 0) &&& 2 = 2) = false
    cases en <;> decide
  · show decide (((if en then (1 : UInt8) else 0) ||| 0) &&& 1 = 1) = en
    cases en <;> decide
  · rintro rfl
    have : torqueToMsg (fin 0) = .ok 0 := by decide +kernel
    rw [this] at hm
    cases hm
    show (UInt8.ofNat _).toNat + 256 * (UInt8.ofNat _).toNat = 0
    simp

theorem inRange {v : ℚ} (h0 : 0 ≤ v) (h1 : v ≤ 500) :
    ((fin v).lt (fin 0) || (fin v).gt maxTorque) = false := by
  have hmax : maxTorque = fin (13421363/4096) := by decide +kernel
  rw [hmax, lt_fin, gt_fin, Bool.or_eq_false_iff]
  constructor <;> rw [decide_eq_false_iff_not] <;> intro h
  · linarith
  · norm_num at h; linarith

/-- The torque command in a run: no undefined behaviour, the mode is unchanged, at most one frame,
and that only if the inverter is enabled. -/
theorem torque_ok (c : Cmd) (e : Env) {v : ℚ} (h0 : 0 ≤ v) (h1 : v ≤ 500) :
    ∃ r, sendTorqueCommand c e (fin v) FORWARD = .ok r ∧ r.cmd = c ∧
      (r.sent = [] ∨ ∃ m, r.sent = [m] ∧ FrameOk m ∧ enableOf m = true ∧ (v = 0 → torqueOf m = 0)) ∧
      (e.lock = true → c.inverterEnabled = true → r.sent ≠ []) := by
  unfold sendTorqueCommand
  rw [inRange h0 h1]
  simp only [Bool.false_eq_true, if_false]
  split
  · rename_i hl
    refine ⟨_, rfl, rfl, .inl rfl, fun h => by simp [h] at hl⟩
  · split
    · rename_i he
      refine ⟨_, rfl, rfl, .inl rfl, fun _ h => by simp [h] at he⟩
    · obtain ⟨m, hm, hf, hen, hz, _⟩ := sendCAN_ok h0 h1 true (e.can 0)
      rw [hm]
      exact ⟨_, rfl, rfl, .inr ⟨m, rfl, hf, hen, hz⟩, fun _ _ => by simp⟩

/-- Enabling in a run. -/
theorem enable_ok (c : Cmd) (e : Env) (hd : c.dischargeModeEnabled = false) :
    ∃ r, sendInverterEnabled c e true = .ok r ∧ r.cmd.dischargeModeEnabled = false ∧
      (c.inverterEnabled = true → r.cmd.inverterEnabled = true) ∧
      (e.lock = true → r.cmd.inverterEnabled = true) ∧
      (∀ m ∈ r.sent, FrameOk m ∧ torqueOf m = 0 ∧ (c.inverterEnabled = true → enableOf m = true)) := by
  unfold sendInverterEnabled
  split
  · rename_i hl
    exact ⟨_, rfl, hd, id, fun h => by simp [h] at hl, by simp⟩
  · rw [hd]
    simp only [Bool.false_and, Bool.false_eq_true, if_false]
    obtain ⟨m1, hm1, hf1, _, hz1, _⟩ := sendCAN_ok (v := 0) (le_refl _) (by norm_num) false (e.can 0)
    cases hc : c.inverterEnabled with
    | false =>
      obtain ⟨m2, hm2, hf2, he2, hz2, _⟩ :=
        sendCAN_ok (v := 0) (le_refl _) (by norm_num) true (e.can 1)
      simp only [Bool.not_false, Bool.and_self, if_true, hm1, bind, Except.bind, pure, Except.pure,
        List.length_singleton, hm2]
      refine ⟨_, rfl, rfl, by simp, by simp, ?_⟩
      intro m hm
      simp only [List.cons_append, List.nil_append, List.mem_cons, List.not_mem_nil, or_false] at hm
      rcases hm with rfl | rfl
      · exact ⟨hf1, hz1 rfl, by simp⟩
      · exact ⟨hf2, hz2 rfl, by simp⟩
    | true =>
      obtain ⟨m2, hm2, hf2, he2, hz2, _⟩ :=
        sendCAN_ok (v := 0) (le_refl _) (by norm_num) true (e.can 0)
      simp only [Bool.not_true, Bool.false_and, Bool.false_eq_true, if_false, bind, Except.bind, pure,
        Except.pure, List.length_nil, hm2]
      refine ⟨_, rfl, rfl, by simp, by simp, ?_⟩
      intro m hm
      simp only [List.nil_append, List.mem_singleton] at hm
      subst hm
      exact ⟨hf2, hz2 rfl, fun _ => he2⟩

/-- What one event does, under the invariant. -/
structure StepOk (s : St) (e : Ev) (s' : St) (fs : List Sent) : Prop where
  inv : Inv s'
  frames : ∀ f ∈ fs, FrameOk f
  keeps : s.cmd.inverterEnabled = true → s'.cmd.inverterEnabled = true ∧ ∀ f ∈ fs, enableOf f = true
  torque : ∀ f ∈ fs, torqueOf f ≠ 0 →
    ∃ t a en, s.thr.pc = .computed t ∧ t ≠ fin 0 ∧ e = .throttle a en ∧ fs = [f]

theorem interp_pc {m : Throttle.TorqueMap} {a : F32}
    (h : ∃ v, Throttle.interpolate m a = fin v ∧ 0 ≤ v ∧ v ≤ 500) :
    PcOk (.computed (Throttle.interpolate m a)) := h

theorem throttle_pc (s : Throttle.Sys) (a : Option F32) (ha : ∀ x, a = some x → IsFloat x)
    (h : PcOk s.pc) : PcOk (Throttle.step s (.task a)).1.pc := by
  obtain ⟨thr, pc⟩ := s
  cases pc with
  | idle =>
    show IsFloat (a.getD (fin 0))
    cases a with
    | none => exact ⟨rnd_zero, by norm_num⟩
    | some x => exact ha x rfl
  | gotAccel x =>
    simp only [Throttle.step]
    split
    · exact ⟨0, rfl, by norm_num, by norm_num⟩
    · exact h
  | sawEnabled x =>
    simp only [Throttle.step]
    split
    · exact Throttle.interp_forward_bounds x h
    · exact h
  | notForward x =>
    simp only [Throttle.step]
    split
    · obtain ⟨v, h1, h2, h3⟩ := Throttle.interp_reverse_bounds x h
      exact ⟨v, h1, h2, h3.trans (by norm_num)⟩
    · exact ⟨0, rfl, by norm_num, by norm_num⟩
  | computed t => trivial

theorem throttle_thr (s : Throttle.Sys) (a : Option F32) :
    (Throttle.step s (.task a)).1.thr = s.thr := by
  obtain ⟨thr, pc⟩ := s
  cases pc <;> simp only [Throttle.step] <;> (try split) <;> rfl

theorem step_ok (s : St) (h : Inv s) (e : Ev)
    (hf : ∀ a en, e = .throttle (some a) en → IsFloat a) :
    ∃ s' fs, step s e = .ok (s', fs) ∧ StepOk s e s' fs := by
  cases e with
  | tick i =>
    simp only [step]
    cases hp : s.pending with
    | nil =>
      exact ⟨_, _, rfl, ⟨h.dir, handle_no_reverse _ _, h.pc, h.noDischarge, settled_vsm _ _⟩,
        by simp, fun hc => ⟨hc, by simp⟩, by simp⟩
    | cons o os => exact ⟨_, _, rfl, h, by simp, fun hc => ⟨hc, by simp⟩, by simp⟩
  | call en =>
    simp only [step]
    cases hp : s.pending with
    | nil => exact ⟨_, _, rfl, h, by simp, fun hc => ⟨hc, by simp⟩, by simp⟩
    | cons o os =>
      have hnr := h.noReverse
      rw [hp] at hnr
      have hos : Vsm.Out.motorDirection .reverse ∉ os := fun hm => hnr (List.mem_cons_of_mem _ hm)
      cases o with
      | ecuError b =>
        exact ⟨_, _, rfl, ⟨h.dir, hos, h.pc, h.noDischarge, h.settled⟩, by simp,
          fun hc => ⟨hc, by simp⟩, by simp⟩
      | enableInverter =>
        obtain ⟨r, hr, hd, hk, _, hm⟩ := enable_ok s.cmd en h.noDischarge
        simp only [apply, hr]
        refine ⟨_, _, rfl, ⟨h.dir, hos, h.pc, hd, h.settled⟩, fun f hf => (hm f hf).1,
          fun hc => ⟨hk hc, fun f hf => (hm f hf).2.2 hc⟩,
          fun f hf ht => absurd (hm f hf).2.1 ht⟩
      | motorDirection d =>
        cases d with
        | reverse => exact absurd List.mem_cons_self hnr
        | forward =>
          exact ⟨_, _, rfl, ⟨rfl, hos, h.pc, h.noDischarge, h.settled⟩, by simp,
            fun hc => ⟨hc, by simp⟩, by simp⟩
      | torqueEnabled b =>
        exact ⟨_, _, rfl, ⟨h.dir, hos, h.pc, h.noDischarge, h.settled⟩, by simp,
          fun hc => ⟨hc, by simp⟩, by simp⟩
  | throttle a en =>
    have hpc := throttle_pc s.thr a (fun x hx => hf x en (by rw [hx])) h.pc
    have hthr := throttle_thr s.thr a
    have hdir : (Throttle.step s.thr (.task a)).1.thr.direction = FORWARD := by
      rw [hthr]; exact h.dir
    by_cases hc : ∃ t, s.thr.pc = .computed t
    · obtain ⟨t, ht⟩ := hc
      have hreq : (Throttle.step s.thr (.task a)).2 = [⟨t, FORWARD⟩] := by
        simp only [Throttle.step, ht, h.dir]
      have hp := h.pc
      rw [ht] at hp
      obtain ⟨v, rfl, h0, h1⟩ := hp
      obtain ⟨r, hr, hcmd, hs, _⟩ := torque_ok s.cmd en h0 h1
      refine ⟨{ s with thr := (Throttle.step s.thr (.task a)).1, cmd := r.cmd }, r.sent, ?_,
        ⟨hdir, h.noReverse, hpc, by rw [hcmd]; exact h.noDischarge, h.settled⟩, ?_, ?_, ?_⟩
      · simp only [step, hreq, issue, Throttle.requestMotorTorque, hr]
      · rcases hs with hs | ⟨m, hs, hfo, _, _⟩
        · rw [hs]; simp
        · rw [hs]; intro f hm; rw [List.mem_singleton] at hm; subst hm; exact hfo
      · intro hen
        refine ⟨by rw [hcmd]; exact hen, ?_⟩
        rcases hs with hs | ⟨m, hs, _, hfe, _⟩
        · rw [hs]; simp
        · rw [hs]; intro f hm; rw [List.mem_singleton] at hm; subst hm; exact hfe
      · intro f hm htor
        rcases hs with hs | ⟨m, hs, _, _, hz⟩
        · rw [hs] at hm; simp at hm
        · rw [hs, List.mem_singleton] at hm
          subst hm
          refine ⟨fin v, a, en, ht, ?_, rfl, hs⟩
          intro e0
          cases e0
          exact htor (hz rfl)
    · have hreq : (Throttle.step s.thr (.task a)).2 = [] := by
        revert hc
        obtain ⟨vsm, pend, ⟨thr, pc⟩, cmd, ecu⟩ := s
        intro hc
        cases pc with
        | computed t => exact absurd ⟨t, rfl⟩ hc
        | _ => simp only [Throttle.step] <;> (try split) <;> rfl
      refine ⟨{ s with thr := (Throttle.step s.thr (.task a)).1 }, [], ?_,
        ⟨hdir, h.noReverse, hpc, h.noDischarge, h.settled⟩, by simp, fun hc => ⟨hc, by simp⟩, by simp⟩
      simp only [step, hreq, issue]

theorem floats_tail {e : Ev} {es : List Ev} (h : FloatEvents (e :: es)) : FloatEvents es :=
  fun a en hm => h a en (List.mem_cons_of_mem _ hm)

theorem floats_head {e : Ev} {es : List Ev} (h : FloatEvents (e :: es)) :
    ∀ a en, e = .throttle (some a) en → IsFloat a :=
  fun a en he => h a en (by rw [he]; exact List.mem_cons_self)

theorem run_ok : ∀ (es : List Ev) (s : St), Inv s → FloatEvents es →
    ∃ s' fs, run s es = .ok (s', fs) ∧ Inv s' ∧ (∀ f ∈ fs, FrameOk f) ∧
      (s.cmd.inverterEnabled = true → s'.cmd.inverterEnabled = true ∧ ∀ f ∈ fs, enableOf f = true)
  | [], s, h, _ => ⟨s, [], rfl, h, by simp, fun hc => ⟨hc, by simp⟩⟩
  | e :: es, s, h, hf => by
    obtain ⟨s1, f1, hs, ok⟩ := step_ok s h e (floats_head hf)
    obtain ⟨s2, f2, hr, hi, hfo, hk⟩ := run_ok es s1 ok.inv (floats_tail hf)
    refine ⟨s2, f1 ++ f2, by simp [run, hs, hr], hi, ?_, ?_⟩
    · intro f hm
      rcases List.mem_append.mp hm with hm | hm
      · exact ok.frames f hm
      · exact hfo f hm
    · intro hc
      obtain ⟨hc1, h1⟩ := ok.keeps hc
      obtain ⟨hc2, h2⟩ := hk hc1
      refine ⟨hc2, fun f hm => ?_⟩
      rcases List.mem_append.mp hm with hm | hm
      · exact h1 f hm
      · exact h2 f hm

variable (tick wait timeout : UInt32) (ecu : Bool)

/-- **C76, frames.** However the tasks interleave, whatever the inputs, the locks and the CAN layer
do: no undefined behaviour, and every frame handed to the CAN layer is a command frame with a torque
of at most 500 Nm, direction forward, discharge off. -/
theorem C76_frames (es : List Ev) (hf : FloatEvents es) :
    ∃ s fs, run (start tick wait timeout ecu) es = .ok (s, fs) ∧
      ∀ f ∈ fs, f.msgId = 0x0C0 ∧ torqueOf f ≤ 5000 ∧ dirOf f = 1 ∧ dischargeOf f = false := by
  obtain ⟨s, fs, h1, _, h2, _⟩ := run_ok es _ (start_inv tick wait timeout ecu) hf
  exact ⟨s, fs, h1, fun f hm => ⟨(h2 f hm).id, (h2 f hm).torque, (h2 f hm).dir, (h2 f hm).discharge⟩⟩

/-! ## No torque before drive -/

theorem enable_in_forward (v : Vsm.Vsm) (i : Vsm.In)
    (h : Vsm.Out.torqueEnabled true ∈ (Vsm.step v i).2) :
    (Vsm.step v i).1.vsmState = .activeForward := by
  have h' : Vsm.Out.torqueEnabled true ∈ (Vsm.handle v i).2 := h
  have key : (Vsm.handle v i).1.nextState = .activeForward ∧
      (Vsm.handle v i).1.vsmState = .activeNeutral := by
    unfold Vsm.handle at h' ⊢
    split at h'
    · simp [Vsm.stateInit] at h'
    · unfold Vsm.stateLvStartup at h'; revert h'; split <;> (try split) <;> simp
    · unfold Vsm.stateLvReady at h'; revert h'; repeat' split
      all_goals simp
    · unfold Vsm.stateHvActive at h'; revert h'; repeat' split
      all_goals simp
    · unfold Vsm.stateHvCharging at h'; revert h'; repeat' split
      all_goals simp
    · rename_i hn
      unfold Vsm.stateActiveNeutral at h' ⊢
      revert h'
      repeat' split
      all_goals simp_all
    · unfold Vsm.stateActiveForward at h'; revert h'; repeat' split
      all_goals simp
    · simp [Vsm.stateFault] at h'
    · simp at h'
  show (Vsm.advance _).vsmState = _
  unfold Vsm.advance
  dsimp only
  rw [if_pos (by rw [key.1, key.2]; decide)]
  exact key.1

/-- Torque is off and nothing will switch it on. -/
structure Off (s : St) : Prop where
  enabled : s.thr.thr.enabled = false
  quiet : s.thr.pc.quiet
  pending : Vsm.Out.torqueEnabled true ∉ s.pending

theorem off_step {s s' : St} {e : Ev} {fs : List Sent} (hi : Inv s) (h : Off s)
    (hf : ∀ a en, e = .throttle (some a) en → IsFloat a)
    (hs : step s e = .ok (s', fs)) (hn : s'.vsm.vsmState ≠ .activeForward) :
    Off s' ∧ ∀ f ∈ fs, torqueOf f = 0 := by
  have hz : ∀ f ∈ fs, torqueOf f = 0 := by
    intro f hm
    by_contra hne
    obtain ⟨s1, f1, hs1, ok⟩ := step_ok s hi e hf
    rw [hs] at hs1
    cases hs1
    obtain ⟨t, _, _, hpc, ht, _⟩ := ok.torque f hm hne
    have hq := h.quiet
    rw [hpc] at hq
    exact ht hq
  refine ⟨?_, hz⟩
  cases e with
  | tick i =>
    simp only [step] at hs
    cases hp : s.pending with
    | nil =>
      rw [hp] at hs
      cases hs
      exact ⟨h.enabled, h.quiet, fun hm => hn (enable_in_forward _ _ hm)⟩
    | cons o os => rw [hp] at hs; cases hs; exact h
  | call en =>
    simp only [step] at hs
    cases hp : s.pending with
    | nil => rw [hp] at hs; cases hs; exact h
    | cons o os =>
      rw [hp] at hs
      have hnr := h.pending
      rw [hp] at hnr
      have hos : Vsm.Out.torqueEnabled true ∉ os := fun hm => hnr (List.mem_cons_of_mem _ hm)
      cases o with
      | ecuError b => cases hs; exact ⟨h.enabled, h.quiet, hos⟩
      | enableInverter =>
        dsimp only [apply] at hs
        cases hx : sendInverterEnabled s.cmd en true with
        | error u => rw [hx] at hs; cases hs
        | ok r => rw [hx] at hs; cases hs; exact ⟨h.enabled, h.quiet, hos⟩
      | motorDirection d => cases hs; exact ⟨h.enabled, h.quiet, hos⟩
      | torqueEnabled b =>
        cases b with
        | true => exact absurd List.mem_cons_self hnr
        | false => cases hs; exact ⟨rfl, h.quiet, hos⟩
  | throttle a en =>
    simp only [step] at hs
    cases hx : issue s.cmd en (Throttle.step s.thr (.task a)).2 with
    | error u => rw [hx] at hs; cases hs
    | ok r =>
      obtain ⟨c, g⟩ := r
      rw [hx] at hs
      cases hs
      refine ⟨by rw [throttle_thr]; exact h.enabled, ?_, h.pending⟩
      have he := h.enabled
      have hq := h.quiet
      obtain ⟨vsm, pend, ⟨thr, pc⟩, cmd, ecu⟩ := s
      dsimp only at he hq ⊢
      cases pc with
      | idle => trivial
      | gotAccel x => simp [Throttle.step, he, Throttle.Pc.quiet]
      | sawEnabled x => exact absurd hq (by simp [Throttle.Pc.quiet])
      | notForward x => exact absurd hq (by simp [Throttle.Pc.quiet])
      | computed t => trivial

theorem off_run : ∀ (es : List Ev) (s s' : St) (fs : List Sent), Inv s → Off s → FloatEvents es →
    run s es = .ok (s', fs) →
    (∀ p q r g, es = p ++ q → p ≠ [] → run s p = .ok (r, g) → r.vsm.vsmState ≠ .activeForward) →
    ∀ f ∈ fs, torqueOf f = 0
  | [], s, s', fs, _, _, _, hr, _ => by cases hr; simp
  | e :: es, s, s', fs, hi, ho, hf, hr, hn => by
    obtain ⟨s1, f1, f2, h1, h2, rfl⟩ := run_cons hr
    obtain ⟨s1', f1', h1', ok⟩ := step_ok s hi e (floats_head hf)
    rw [h1] at h1'
    cases h1'
    have hn1 : s1.vsm.vsmState ≠ .activeForward :=
      hn [e] es s1 f1 rfl (by simp) (by simp [run, h1])
    obtain ⟨ho1, hz⟩ := off_step hi ho (floats_head hf) h1 hn1
    have ih := off_run es s1 s' f2 ok.inv ho1 (floats_tail hf) h2 (by
      intro p q r g he hp hrun
      exact hn (e :: p) q r (f1 ++ g) (by rw [he]; rfl) (by simp) (by simp [run, h1, hrun]))
    intro f hm
    rcases List.mem_append.mp hm with hm | hm
    · exact hz f hm
    · exact ih f hm

/-- **C76, torque only after drive.** If a run puts a command frame with non-zero torque on the bus,
the state machine has been in ACTIVE_FORWARD before (and so, by C04, the driver has gone through the
whole start-up path). -/
theorem C76_no_torque_before_drive (es : List Ev) (hf : FloatEvents es) (s : St) (fs : List Sent)
    (hr : run (start tick wait timeout ecu) es = .ok (s, fs)) (f : Sent) (hm : f ∈ fs)
    (ht : torqueOf f ≠ 0) :
    ∃ p q r g, es = p ++ q ∧ run (start tick wait timeout ecu) p = .ok (r, g) ∧
      r.vsm.vsmState = .activeForward := by
  by_contra hno
  refine ht (off_run es _ s fs (start_inv tick wait timeout ecu) ⟨rfl, trivial, by simp [start]⟩ hf hr
    ?_ f hm)
  intro p q r g he _ hrun hst
  exact hno ⟨p, q, r, g, he, hrun, hst⟩

/-! ## A drive-off with a fault, for the examples -/

/-- Environment in which the mutex and the CAN layer work. -/
def okEnv : Env := ⟨true, fun _ => true⟩

/-- One whole step of the state manager: the tick and all calls it makes (at most three). -/
def whole (i : Vsm.In) : List Ev := [.tick i, .call okEnv, .call okEnv, .call okEnv]

/-- The drive-off of the state machine's examples, eleven steps. -/
def driveOff : List Ev := (List.range 11).flatMap fun n => whole (Vsm.demoInputs n)

/-- A step that reports a drive fault. -/
def faultStep : List Ev := whole ⟨.fault, true, false, 5⟩

/-- An activation of the throttle task with the pedal fully pressed. -/
def pressed (k : Nat) : List Ev := List.replicate k (.throttle (some (fin 1)) okEnv)

theorem isFloat_one : IsFloat (fin 1) := ⟨by decide +kernel, by norm_num⟩

theorem mem_pressed {k : Nat} {a : F32} {e : Env} (h : Ev.throttle (some a) e ∈ pressed k) :
    IsFloat a := by
  have := List.eq_of_mem_replicate h
  cases this
  exact isFloat_one

theorem mem_whole {i : Vsm.In} {a : F32} {e : Env} : Ev.throttle (some a) e ∉ whole i := by
  simp [whole]

theorem mem_driveOff {a : F32} {e : Env} : Ev.throttle (some a) e ∉ driveOff := by
  intro h
  obtain ⟨n, _, h⟩ := List.mem_flatMap.mp h
  exact mem_whole h

/-- A run that does put torque on the bus: 500 Nm after the drive-off. -/
example : (match run (start 10 20 7000 false) (driveOff ++ pressed 4) with
    | .ok (s, fs) => decide (s.vsm.vsmState = .activeForward) && fs.map torqueOf == [0, 0, 5000] &&
        fs.map enableOf == [false, true, true]
    | .error _ => false) = true := by decide +kernel

/-! ## C77: torque after a fault -/

/-- In FAULT, with at most the calls of FAULT outstanding. -/
structure Faulted (s : St) : Prop where
  state : s.vsm.vsmState = .fault
  next : s.vsm.nextState = .fault
  pending : ∀ o ∈ s.pending, o = .motorDirection .forward ∨ o = .torqueEnabled false ∨ o = .ecuError true

theorem fault_tick {v : Vsm.Vsm} (h : v.vsmState = .fault) (hn : v.nextState = .fault) (i : Vsm.In) :
    (Vsm.step v i).2 = [.motorDirection .forward, .torqueEnabled false, .ecuError true] ∧
    (Vsm.step v i).1.vsmState = .fault ∧ (Vsm.step v i).1.nextState = .fault := by
  have hh : Vsm.handle v i = Vsm.stateFault v := by unfold Vsm.handle; rw [h]
  refine ⟨by show (Vsm.handle v i).2 = _; rw [hh]; rfl, ?_, ?_⟩
  · show (Vsm.advance (Vsm.handle v i).1).vsmState = _
    rw [hh]; simp [Vsm.stateFault, Vsm.advance, h, hn]
  · show (Vsm.advance (Vsm.handle v i).1).nextState = _
    rw [hh]; simp [Vsm.stateFault, Vsm.advance, h, hn]

/-- In FAULT: the state machine's own events send nothing. -/
theorem faulted_step {s s' : St} {e : Ev} {fs : List Sent} (h : Faulted s)
    (hs : step s e = .ok (s', fs)) :
    Faulted s' ∧ ((∀ a en, e ≠ .throttle a en) → fs = [] ∧ s'.thr.pc = s.thr.pc ∧ s'.cmd = s.cmd) ∧
    (s.thr.thr.enabled = false → s'.thr.thr.enabled = false) ∧
    ((s.thr.thr.enabled = false ∨ Vsm.Out.torqueEnabled false ∈ s.pending) →
      s'.thr.thr.enabled = false ∨ Vsm.Out.torqueEnabled false ∈ s'.pending) := by
  cases e with
  | tick i =>
    simp only [step] at hs
    cases hp : s.pending with
    | nil =>
      rw [hp] at hs
      cases hs
      obtain ⟨h1, h2, h3⟩ := fault_tick h.state h.next i
      refine ⟨⟨h2, h3, ?_⟩, fun _ => ⟨rfl, rfl, rfl⟩, id, fun hd => .inr ?_⟩
      · dsimp only; rw [h1]; simp
      · dsimp only; rw [h1]; simp
    | cons o os =>
      rw [hp] at hs
      cases hs
      exact ⟨h, fun _ => ⟨rfl, rfl, rfl⟩, id, by rw [hp]; exact id⟩
  | call en =>
    simp only [step] at hs
    cases hp : s.pending with
    | nil => rw [hp] at hs; cases hs; exact ⟨h, fun _ => ⟨rfl, rfl, rfl⟩, id, by rw [hp]; exact id⟩
    | cons o os =>
      rw [hp] at hs
      have hall := h.pending
      rw [hp] at hall
      have hos : ∀ x ∈ os, x = .motorDirection .forward ∨ x = .torqueEnabled false ∨ x = .ecuError true :=
        fun x hx => hall x (List.mem_cons_of_mem _ hx)
      rcases hall o List.mem_cons_self with rfl | rfl | rfl
      · cases hs
        exact ⟨⟨h.state, h.next, hos⟩, fun _ => ⟨rfl, rfl, rfl⟩, id, fun hd => hd.imp id (by simp)⟩
      · cases hs
        exact ⟨⟨h.state, h.next, hos⟩, fun _ => ⟨rfl, rfl, rfl⟩, fun _ => rfl, fun _ => .inl rfl⟩
      · cases hs
        exact ⟨⟨h.state, h.next, hos⟩, fun _ => ⟨rfl, rfl, rfl⟩, id, fun hd => hd.imp id (by simp)⟩
  | throttle a en =>
    simp only [step] at hs
    cases hx : issue s.cmd en (Throttle.step s.thr (.task a)).2 with
    | error u => rw [hx] at hs; cases hs
    | ok r =>
      obtain ⟨c, g⟩ := r
      rw [hx] at hs
      cases hs
      refine ⟨⟨h.state, h.next, h.pending⟩, fun hne => absurd rfl (hne a en), ?_, ?_⟩
      · dsimp only; rw [throttle_thr]; exact id
      · dsimp only; rw [throttle_thr]; exact id

theorem faulted_run : ∀ (es : List Ev) (s s' : St) (fs : List Sent), Faulted s →
    (s.thr.thr.enabled = false ∨ Vsm.Out.torqueEnabled false ∈ s.pending) →
    run s es = .ok (s', fs) →
    Faulted s' ∧ (s'.thr.thr.enabled = false ∨ Vsm.Out.torqueEnabled false ∈ s'.pending)
  | [], s, s', fs, h, hd, hr => by cases hr; exact ⟨h, hd⟩
  | e :: es, s, s', fs, h, hd, hr => by
    obtain ⟨s1, f1, f2, h1, h2, rfl⟩ := run_cons hr
    obtain ⟨a, _, _, d⟩ := faulted_step h h1
    exact faulted_run es s1 s' f2 a (d hd) h2

theorem faulted_quiet : ∀ (es : List Ev) (s s' : St) (fs : List Sent), Inv s → Faulted s → Off s →
    FloatEvents es → run s es = .ok (s', fs) → ∀ f ∈ fs, torqueOf f = 0
  | [], s, s', fs, _, _, _, _, hr => by cases hr; simp
  | e :: es, s, s', fs, hi, h, ho, hf, hr => by
    obtain ⟨s1, f1, f2, h1, h2, rfl⟩ := run_cons hr
    obtain ⟨s1', f1', h1', ok⟩ := step_ok s hi e (floats_head hf)
    rw [h1] at h1'
    cases h1'
    obtain ⟨hf1, _⟩ := faulted_step h h1
    obtain ⟨ho1, hz⟩ := off_step hi ho (floats_head hf) h1 (by rw [hf1.state]; decide)
    intro f hm
    rcases List.mem_append.mp hm with hm | hm
    · exact hz f hm
    · exact faulted_quiet es s1 s' f2 ok.inv hf1 ho1 (floats_tail hf) h2 f hm

theorem faulted_tail : ∀ (es : List Ev) (s s' : St) (fs : List Sent), Inv s → Faulted s →
    s.thr.thr.enabled = false → FloatEvents es → run s es = .ok (s', fs) →
    ∀ f ∈ fs.tail, torqueOf f = 0
  | [], s, s', fs, _, _, _, _, hr => by cases hr; simp
  | e :: es, s, s', fs, hi, h, ho, hf, hr => by
    obtain ⟨s1, f1, f2, h1, h2, rfl⟩ := run_cons hr
    obtain ⟨s1', f1', h1', ok⟩ := step_ok s hi e (floats_head hf)
    rw [h1] at h1'
    cases h1'
    obtain ⟨hf1, hnt, hen, _⟩ := faulted_step h h1
    have hpend : ∀ {r : St}, Faulted r → Vsm.Out.torqueEnabled true ∉ r.pending := by
      intro r hr' hm
      rcases hr'.pending _ hm with h | h | h <;> cases h
    by_cases hc : ∃ t, s.thr.pc = .computed t
    · obtain ⟨t, ht⟩ := hc
      by_cases hthr : ∃ a en, e = .throttle a en
      · obtain ⟨a, en, rfl⟩ := hthr
        -- the stale request goes out now; from here on the task is quiet
        have hidle : s1.thr.pc = .idle := by
          simp only [step] at h1
          cases hx : issue s.cmd en (Throttle.step s.thr (.task a)).2 with
          | error u => rw [hx] at h1; cases h1
          | ok r =>
            obtain ⟨c, g⟩ := r
            rw [hx] at h1
            cases h1
            simp only [Throttle.step, ht]
        have hoff : Off s1 := ⟨hen ho, by rw [hidle]; trivial, hpend hf1⟩
        have hq := faulted_quiet es s1 s' f2 ok.inv hf1 hoff (floats_tail hf) h2
        have hlen : f1.length ≤ 1 := by
          have hreq : (Throttle.step s.thr (.task a)).2 = [⟨t, s.thr.thr.direction⟩] := by
            simp only [Throttle.step, ht]
          have hp := hi.pc
          rw [ht] at hp
          obtain ⟨v, rfl, h0, h1'⟩ := hp
          obtain ⟨r, hr', _, hs, _⟩ := torque_ok s.cmd en h0 h1'
          rw [hi.dir] at hreq
          simp only [step, hreq, issue, Throttle.requestMotorTorque, hr'] at h1
          cases h1
          rcases hs with hs | ⟨m, hs, _⟩ <;> rw [hs] <;> simp
        intro f hm
        match f1, hlen with
        | [], _ => exact hq f (List.mem_of_mem_tail hm)
        | [x], _ => exact hq f hm
      · have hne : ∀ a en, e ≠ .throttle a en := fun a en he => hthr ⟨a, en, he⟩
        obtain ⟨rfl, _⟩ := hnt hne
        exact faulted_tail es s1 s' f2 ok.inv hf1 (hen ho) (floats_tail hf) h2
    · have hnil : f1 = [] := by
        by_cases hthr : ∃ a en, e = .throttle a en
        · obtain ⟨a, en, rfl⟩ := hthr
          have hreq : (Throttle.step s.thr (.task a)).2 = [] := by
            revert hc
            obtain ⟨vsm, pend, ⟨thr, pc⟩, cmd, ecu⟩ := s
            intro hc
            cases pc with
            | computed t => exact absurd ⟨t, rfl⟩ hc
            | _ => simp only [Throttle.step] <;> (try split) <;> rfl
          simp only [step, hreq, issue] at h1
          cases h1
          rfl
        · exact (hnt fun a en he => hthr ⟨a, en, he⟩).1
      subst hnil
      exact faulted_tail es s1 s' f2 ok.inv hf1 (hen ho) (floats_tail hf) h2

/-- The strict claim: once the state machine is in FAULT and has completed one step there, no
command frame carries torque. -/
def NoTorqueInFault : Prop :=
  ∀ (tick wait timeout : UInt32) (ecu : Bool) (es1 es2 es3 : List Ev) (i : Vsm.In) (s1 s2 s3 : St)
    (f1 f2 f3 : List Sent), FloatEvents (es1 ++ .tick i :: es2 ++ es3) →
    run (start tick wait timeout ecu) es1 = .ok (s1, f1) → s1.vsm.vsmState = .fault →
    s1.pending = [] → run s1 (.tick i :: es2) = .ok (s2, f2) → s2.pending = [] →
    run s2 es3 = .ok (s3, f3) → ∀ f ∈ f3, torqueOf f = 0

theorem run_get (s : St) (es : List Ev) (q : St × List Sent → Bool)
    (h : (match run s es with | .ok r => q r | .error _ => false) = true) :
    ∃ s' fs, run s es = .ok (s', fs) ∧ q (s', fs) = true := by
  cases hr : run s es with
  | error u => rw [hr] at h; cases h
  | ok r => rw [hr] at h; exact ⟨r.1, r.2, rfl, h⟩

/-- **C77, the strict claim is false.** The throttle task has read `enabled`, is preempted; the fault
is detected and the FAULT step completes; the task goes on and commands 500 Nm. -/
theorem C77_late_torque : ¬ NoTorqueInFault := by
  intro h
  obtain ⟨s1, f1, h1, q1⟩ := run_get (start 10 20 7000 false) (driveOff ++ pressed 2 ++ faultStep)
    (fun r => decide (r.1.vsm.vsmState = .fault) && r.1.pending.isEmpty &&
      (match run r.1 faultStep with
      | .ok r2 => r2.1.pending.isEmpty &&
        (match run r2.1 (pressed 2) with
        | .ok r3 => r3.2.map torqueOf == [5000]
        | .error _ => false)
      | .error _ => false)) (by decide +kernel)
  simp only [Bool.and_eq_true, decide_eq_true_eq, List.isEmpty_iff] at q1
  obtain ⟨⟨hst, hp1⟩, q1⟩ := q1
  obtain ⟨s2, f2, h2, q2⟩ := run_get s1 faultStep _ q1
  simp only [Bool.and_eq_true, List.isEmpty_iff] at q2
  obtain ⟨hp2, q2⟩ := q2
  obtain ⟨s3, f3, h3, q3⟩ := run_get s2 (pressed 2) (fun r => r.2.map torqueOf == [5000]) q2
  simp only [beq_iff_eq] at q3
  have hf : FloatEvents (driveOff ++ pressed 2 ++ faultStep ++ faultStep ++ pressed 2) := by
    intro a e hm
    simp only [List.mem_append] at hm
    rcases hm with (((hm | hm) | hm) | hm) | hm
    · exact absurd hm mem_driveOff
    · exact mem_pressed hm
    · exact absurd hm mem_whole
    · exact absurd hm mem_whole
    · exact mem_pressed hm
  have := h 10 20 7000 false (driveOff ++ pressed 2 ++ faultStep) _ (pressed 2) _ s1 s2 s3 f1 f2 f3
    hf h1 hst hp1 h2 hp2 h3
  cases f3 with
  | nil => simp at q3
  | cons x xs =>
    have hx := this x List.mem_cons_self
    simp [hx] at q3

/-- **C77, what holds.** Once the state machine is in FAULT and has completed one step there, at most
one more frame with torque goes out, and it is the first frame after that step (the one the throttle
task was preparing). If the throttle task was not preparing one, none goes out. -/
theorem C77_at_most_one_partial (es1 es2 es3 : List Ev) (i : Vsm.In) (s1 s2 s3 : St)
    (f1 f2 f3 : List Sent) (hf : FloatEvents (es1 ++ .tick i :: es2 ++ es3))
    (h1 : run (start tick wait timeout ecu) es1 = .ok (s1, f1)) (hst : s1.vsm.vsmState = .fault)
    (hp1 : s1.pending = []) (h2 : run s1 (.tick i :: es2) = .ok (s2, f2)) (hp2 : s2.pending = [])
    (h3 : run s2 es3 = .ok (s3, f3)) :
    s3.vsm.vsmState = .fault ∧ (∀ f ∈ f3.tail, torqueOf f = 0) ∧
    (s2.thr.pc.quiet → ∀ f ∈ f3, torqueOf f = 0) := by
  have hfa : FloatEvents es1 := fun a e hm => hf a e (by simp [hm])
  have hfb : FloatEvents (.tick i :: es2) := fun a e hm => hf a e (by
    simp only [List.mem_append]; exact .inl (.inr hm))
  have hfc : FloatEvents es3 := fun a e hm => hf a e (by simp [hm])
  obtain ⟨s1', f1', h1', i1, _⟩ := run_ok es1 _ (start_inv tick wait timeout ecu) hfa
  rw [h1] at h1'; cases h1'
  obtain ⟨s2', f2', h2', i2, _⟩ := run_ok _ s1 i1 hfb
  rw [h2] at h2'; cases h2'
  have hF1 : Faulted s1 := ⟨hst, i1.settled.trans hst, by rw [hp1]; simp⟩
  -- the tick makes the disabling call pending
  obtain ⟨sa, fa, fb, ha, hb, _⟩ := run_cons h2
  obtain ⟨hFa, _⟩ := faulted_step hF1 ha
  have hda : Vsm.Out.torqueEnabled false ∈ sa.pending := by
    simp only [step, hp1] at ha
    cases ha
    dsimp only
    rw [(fault_tick hst (i1.settled.trans hst) i).1]
    simp
  obtain ⟨hF2, hd2⟩ := faulted_run es2 sa s2 fb hFa (.inr hda) hb
  have hoff : s2.thr.thr.enabled = false := by
    rcases hd2 with h | h
    · exact h
    · rw [hp2] at h; cases h
  refine ⟨(faulted_run es3 s2 s3 f3 hF2 (.inl hoff) h3).1.state,
    faulted_tail es3 s2 s3 f3 i2 hF2 hoff hfc h3, fun hq => ?_⟩
  exact faulted_quiet es3 s2 s3 f3 i2 hF2 ⟨hoff, hq, by rw [hp2]; simp⟩ hfc h3

/-- The hypotheses are met by a run in which the late frame does go out and later ones are zero. -/
example : (match run (start 10 20 7000 false) (driveOff ++ pressed 2 ++ faultStep ++ faultStep) with
    | .ok (s, _) => s.pending.isEmpty && decide (s.vsm.vsmState = .fault) &&
      (match run s (pressed 8) with
      | .ok (_, fs) => fs.map torqueOf == [5000, 0, 0]
      | .error _ => false)
    | .error _ => false) = true := by decide +kernel

/-! ## C78: the inverter's enable bit -/

/-- The claim one would want: once in FAULT with a completed step, frames command the inverter
disabled. -/
def DisabledInFault : Prop :=
  ∀ (tick wait timeout : UInt32) (ecu : Bool) (es1 es2 es3 : List Ev) (i : Vsm.In) (s1 s2 s3 : St)
    (f1 f2 f3 : List Sent), FloatEvents (es1 ++ .tick i :: es2 ++ es3) →
    run (start tick wait timeout ecu) es1 = .ok (s1, f1) → s1.vsm.vsmState = .fault →
    s1.pending = [] → run s1 (.tick i :: es2) = .ok (s2, f2) → s2.pending = [] →
    run s2 es3 = .ok (s3, f3) → ∀ f ∈ f3, enableOf f = false

/-- **C78, it is false, for every run that has enabled the inverter.** From then on every frame ever
sent has the enable bit set, in FAULT too: nothing calls the driver's disable. -/
theorem C78_never_disabled (es1 es2 : List Ev) (s1 s2 : St) (f1 f2 : List Sent)
    (hf : FloatEvents (es1 ++ es2)) (h1 : run (start tick wait timeout ecu) es1 = .ok (s1, f1))
    (hen : s1.cmd.inverterEnabled = true) (h2 : run s1 es2 = .ok (s2, f2)) :
    s2.cmd.inverterEnabled = true ∧ ∀ f ∈ f2, enableOf f = true := by
  obtain ⟨s1', f1', h1', i1, _⟩ := run_ok es1 _ (start_inv tick wait timeout ecu)
    (fun a e hm => hf a e (List.mem_append_left _ hm))
  rw [h1] at h1'; cases h1'
  obtain ⟨s2', f2', h2', _, _, hk⟩ := run_ok es2 s1 i1
    (fun a e hm => hf a e (List.mem_append_right _ hm))
  rw [h2] at h2'; cases h2'
  exact hk hen

/-- **C78, and such a frame is sent.** In FAULT, with the inverter enabled and torque disabled, every
activation of the throttle task whose lock is granted sends one frame: enable set, no torque. -/
theorem C78_fault_frame (es : List Ev) (s : St) (fs : List Sent) (hf : FloatEvents es)
    (h : run (start tick wait timeout ecu) es = .ok (s, fs)) (hen : s.cmd.inverterEnabled = true)
    (hoff : s.thr.thr.enabled = false) (hidle : s.thr.pc = .idle) (a1 a2 a3 : Option F32)
    (e1 e2 e3 : Env) (hl : e3.lock = true) :
    ∃ s' f, run s [.throttle a1 e1, .throttle a2 e2, .throttle a3 e3] = .ok (s', [f]) ∧
      enableOf f = true ∧ torqueOf f = 0 ∧ f.msgId = 0x0C0 := by
  obtain ⟨s', fs', h', hi, _⟩ := run_ok es _ (start_inv tick wait timeout ecu) hf
  rw [h] at h'; cases h'
  obtain ⟨r, hr, hcmd, hs, hne⟩ := torque_ok (v := 0) s.cmd e3 (le_refl _) (by norm_num)
  have hdir := hi.dir
  rcases hs with hs | ⟨m, hs, hfo, hfe, hz⟩
  · exact absurd hs (hne hl hen)
  · refine ⟨{ s with thr := ⟨s.thr.thr, .idle⟩, cmd := r.cmd }, m, ?_, hfe, hz rfl, hfo.id⟩
    simp only [run, step, Throttle.step, hidle, issue, hoff, if_true, hdir,
      Throttle.requestMotorTorque, hr, hs]
    rfl

theorem C78_not_disabled : ¬ DisabledInFault := by
  intro h
  obtain ⟨s1, f1, h1, q1⟩ := run_get (start 10 20 7000 false) (driveOff ++ faultStep)
    (fun r => decide (r.1.vsm.vsmState = .fault) && r.1.pending.isEmpty &&
      (match run r.1 faultStep with
      | .ok r2 => r2.1.pending.isEmpty &&
        (match run r2.1 (pressed 3) with
        | .ok r3 => r3.2.map enableOf == [true]
        | .error _ => false)
      | .error _ => false)) (by decide +kernel)
  simp only [Bool.and_eq_true, decide_eq_true_eq, List.isEmpty_iff] at q1
  obtain ⟨⟨hst, hp1⟩, q1⟩ := q1
  obtain ⟨s2, f2, h2, q2⟩ := run_get s1 faultStep _ q1
  simp only [Bool.and_eq_true, List.isEmpty_iff] at q2
  obtain ⟨hp2, q2⟩ := q2
  obtain ⟨s3, f3, h3, q3⟩ := run_get s2 (pressed 3) (fun r => r.2.map enableOf == [true]) q2
  simp only [beq_iff_eq] at q3
  have hf : FloatEvents (driveOff ++ faultStep ++ faultStep ++ pressed 3) := by
    intro a e hm
    simp only [List.mem_append] at hm
    rcases hm with ((hm | hm) | hm) | hm
    · exact absurd hm mem_driveOff
    · exact absurd hm mem_whole
    · exact absurd hm mem_whole
    · exact mem_pressed hm
  have := h 10 20 7000 false (driveOff ++ faultStep) _ (pressed 3) _ s1 s2 s3 f1 f2 f3
    hf h1 hst hp1 h2 hp2 h3
  cases f3 with
  | nil => simp at q3
  | cons x xs =>
    have hx := this x List.mem_cons_self
    simp [hx] at q3

/-! What does hold: the inverter is not enabled before the high-voltage dwell is over. -/

theorem enable_in_charging (v : Vsm.Vsm) (i : Vsm.In)
    (h : Vsm.Out.enableInverter ∈ (Vsm.step v i).2) :
    (Vsm.step v i).1.vsmState = .hvCharging := by
  have h' : Vsm.Out.enableInverter ∈ (Vsm.handle v i).2 := h
  have key : (Vsm.handle v i).1.nextState = .hvCharging ∧ (Vsm.handle v i).1.vsmState = .hvActive := by
    unfold Vsm.handle at h' ⊢
    split at h'
    · simp [Vsm.stateInit] at h'
    · unfold Vsm.stateLvStartup at h'; revert h'; split <;> (try split) <;> simp
    · unfold Vsm.stateLvReady at h'; revert h'; repeat' split
      all_goals simp
    · unfold Vsm.stateHvActive at h' ⊢
      revert h'
      repeat' split
      all_goals simp_all
    · unfold Vsm.stateHvCharging at h'; revert h'; repeat' split
      all_goals simp
    · unfold Vsm.stateActiveNeutral at h'; revert h'; repeat' split
      all_goals simp
    · unfold Vsm.stateActiveForward at h'; revert h'; repeat' split
      all_goals simp
    · simp [Vsm.stateFault] at h'
    · simp at h'
  show (Vsm.advance _).vsmState = _
  unfold Vsm.advance
  dsimp only
  rw [if_pos (by rw [key.1, key.2]; decide)]
  exact key.1

/-- The inverter is disabled and nothing will enable it. -/
structure Down (s : St) : Prop where
  disabled : s.cmd.inverterEnabled = false
  pending : Vsm.Out.enableInverter ∉ s.pending

theorem torque_down (c : Cmd) (e : Env) (t : F32) (d : UInt8) (h : c.inverterEnabled = false)
    (r : Result) (hr : sendTorqueCommand c e t d = .ok r) : r.cmd = c ∧ r.sent = [] := by
  unfold sendTorqueCommand at hr
  rw [h] at hr
  revert hr
  repeat' split
  all_goals first
    | (intro hr; cases hr; exact ⟨rfl, rfl⟩)
    | simp_all

theorem down_step {s s' : St} {e : Ev} {fs : List Sent} (h : Down s)
    (hs : step s e = .ok (s', fs)) (hn : s'.vsm.vsmState ≠ .hvCharging) : Down s' ∧ fs = [] := by
  cases e with
  | tick i =>
    simp only [step] at hs
    cases hp : s.pending with
    | nil =>
      rw [hp] at hs
      cases hs
      exact ⟨⟨h.disabled, fun hm => hn (enable_in_charging _ _ hm)⟩, rfl⟩
    | cons o os => rw [hp] at hs; cases hs; exact ⟨h, rfl⟩
  | call en =>
    simp only [step] at hs
    cases hp : s.pending with
    | nil => rw [hp] at hs; cases hs; exact ⟨h, rfl⟩
    | cons o os =>
      rw [hp] at hs
      have hnr := h.pending
      rw [hp] at hnr
      have hos : Vsm.Out.enableInverter ∉ os := fun hm => hnr (List.mem_cons_of_mem _ hm)
      cases o with
      | ecuError b => cases hs; exact ⟨⟨h.disabled, hos⟩, rfl⟩
      | enableInverter => exact absurd List.mem_cons_self hnr
      | motorDirection d => cases hs; exact ⟨⟨h.disabled, hos⟩, rfl⟩
      | torqueEnabled b => cases hs; exact ⟨⟨h.disabled, hos⟩, rfl⟩
  | throttle a en =>
    simp only [step] at hs
    cases hx : issue s.cmd en (Throttle.step s.thr (.task a)).2 with
    | error u => rw [hx] at hs; cases hs
    | ok r =>
      obtain ⟨c, g⟩ := r
      rw [hx] at hs
      cases hs
      have : c = s.cmd ∧ fs = [] := by
        cases hq : (Throttle.step s.thr (.task a)).2 with
        | nil => rw [hq] at hx; cases hx; exact ⟨rfl, rfl⟩
        | cons x xs =>
          rw [hq] at hx
          simp only [issue, Throttle.requestMotorTorque] at hx
          cases hy : sendTorqueCommand s.cmd en x.torque x.direction with
          | error u => rw [hy] at hx; cases hx
          | ok r =>
            rw [hy] at hx
            obtain ⟨e1, e2⟩ := torque_down _ _ _ _ h.disabled _ hy
            cases hx
            exact ⟨e1, e2⟩
      obtain ⟨rfl, rfl⟩ := this
      exact ⟨⟨h.disabled, h.pending⟩, rfl⟩

theorem down_run : ∀ (es : List Ev) (s s' : St) (fs : List Sent), Down s →
    run s es = .ok (s', fs) →
    (∀ p q r g, es = p ++ q → p ≠ [] → run s p = .ok (r, g) → r.vsm.vsmState ≠ .hvCharging) →
    fs = []
  | [], s, s', fs, _, hr, _ => by cases hr; rfl
  | e :: es, s, s', fs, ho, hr, hn => by
    obtain ⟨s1, f1, f2, h1, h2, rfl⟩ := run_cons hr
    obtain ⟨ho1, hz⟩ := down_step ho h1 (hn [e] es s1 f1 rfl (by simp) (by simp [run, h1]))
    have ih := down_run es s1 s' f2 ho1 h2 (by
      intro p q r g he hp hrun
      exact hn (e :: p) q r (f1 ++ g) (by rw [he]; rfl) (by simp) (by simp [run, h1, hrun]))
    rw [hz, ih]; rfl

/-- **C78, what holds.** No command frame at all leaves the unit before the state machine has reached
HV_CHARGING, so none with the enable bit set. (Missing: nothing disables the inverter afterwards,
`C78_never_disabled`.) -/
theorem C78_not_before_hv_partial (es : List Ev) (s : St) (fs : List Sent)
    (hr : run (start tick wait timeout ecu) es = .ok (s, fs)) (hne : fs ≠ []) :
    ∃ p q r g, es = p ++ q ∧ run (start tick wait timeout ecu) p = .ok (r, g) ∧
      r.vsm.vsmState = .hvCharging := by
  by_contra hno
  refine hne (down_run es _ s fs ⟨rfl, by simp [start]⟩ hr ?_)
  intro p q r g he _ hrun hst
  exact hno ⟨p, q, r, g, he, hrun, hst⟩

end Verif.Drive
