import Verif.Spec.Fresh
import Verif.Props.Response
import Verif.Props.Pedal

set_option autoImplicit false

/-!
# C138: the torque on the bus is that of the pedal in the current period
-/

namespace Verif.Vehicle
open F32 InvDrv

/-! ## The curve -/

theorem line1 (x : ℚ) : Pedal.line (1/10) (1/2) 0 100 x = 250 * x - 25 := by
  unfold Pedal.line; ring
theorem line2 (x : ℚ) : Pedal.line (1/2) (7/10) 100 200 x = 500 * x - 150 := by
  unfold Pedal.line; ring
theorem line3 (x : ℚ) : Pedal.line (7/10) 1 200 500 x = 1000 * x - 500 := by
  unfold Pedal.line; ring

theorem forward_nonneg (x : ℚ) : 0 ≤ Pedal.forward x := by
  unfold Pedal.forward Pedal.curve
  split_ifs with h1 h2 h3 h4
  · exact le_rfl
  · exact le_rfl
  · rw [line1]; push Not at h2; linarith
  · rw [line2]; push Not at h3; linarith
  · rw [line3]; push Not at h4; linarith

/-- More pedal asks for no less. -/
theorem forward_le {x y : ℚ} (h : x ≤ y) (hy : y ≤ 1) : Pedal.forward x ≤ Pedal.forward y := by
  by_cases h1 : x < 0 ∨ 1 < x
  · have : Pedal.forward x = 0 := by unfold Pedal.forward Pedal.curve; rw [if_pos h1]
    rw [this]; exact forward_nonneg y
  · by_cases h2 : x ≤ 1/10
    · have : Pedal.forward x = 0 := by
        unfold Pedal.forward Pedal.curve; rw [if_neg h1, if_pos h2]
      rw [this]; exact forward_nonneg y
    · have hy1 : ¬ (y < 0 ∨ 1 < y) := by push Not at h1 h2 ⊢; constructor <;> linarith
      have hy2 : ¬ y ≤ 1/10 := by push Not at h2 ⊢; linarith
      unfold Pedal.forward Pedal.curve
      rw [if_neg h1, if_neg h2, if_neg hy1, if_neg hy2]
      rw [line1, line1, line2, line2, line3, line3]
      push Not at h1 h2 hy1 hy2
      split_ifs <;> linarith

/-! ## What one command carries -/

/-- The torque the frame of a request carries. -/
theorem command_close {c c' : Cmd} {e : Env} {a : F32} {x : Sent} {fs : List Sent} (ha : IsFloat a)
    (h : Drive.issue c e [⟨Throttle.interpolate Throttle.mapForward a, FORWARD⟩] = .ok (c', fs))
    (hx : x ∈ fs) :
    10 * asks a - 102/100 < Drive.torqueOf x ∧ (Drive.torqueOf x : ℚ) ≤ 10 * asks a + 2/100 := by
  simp only [Drive.issue] at h
  have ht : Throttle.tick ⟨true, FORWARD⟩ (some a) = ⟨Throttle.interpolate Throttle.mapForward a, FORWARD⟩ := rfl
  have hcv : Throttle.curveOf ⟨true, FORWARD⟩ a = asks a := by
    cases a <;> rfl
  obtain ⟨v, hv, v0, v1⟩ := Throttle.interp_forward_bounds a ha
  by_cases hen : c.inverterEnabled = true
  · by_cases hl : e.lock = true
    · obtain ⟨f, hf, -, -, lo, hi, -⟩ := Throttle.C136_frame_follows_the_curve ⟨true, FORWARD⟩ a ha rfl
        (.inl rfl) c hen e hl
      rw [ht] at hf
      rw [hf] at h
      cases h
      rw [List.mem_singleton] at hx
      subst hx
      rw [hcv] at lo hi
      obtain ⟨r, hr, -, hs, -⟩ := Drive.torque_ok c e v0 v1
      have hr' : r.sent = [x] := by
        unfold Throttle.requestMotorTorque at hf
        dsimp only at hf
        rw [hv, hr] at hf
        cases hf; rfl
      have hfo : Drive.FrameOk x := by
        rcases hs with hs | ⟨m, hs, hm, -⟩
        · rw [hr'] at hs; cases hs
        · rw [hr'] at hs; cases hs; exact hm
      have e1 : InvSpec.torqueField x.bytes = (Drive.torqueOf x : ℤ) := by
        have := hfo.torque
        unfold Drive.torqueOf at this ⊢
        unfold InvSpec.torqueField
        dsimp only
        rw [if_pos (by omega)]
      rw [e1] at lo hi
      exact ⟨by exact_mod_cast lo, by exact_mod_cast hi⟩
    · unfold Throttle.requestMotorTorque sendTorqueCommand at h
      dsimp only at h
      rw [hv, Drive.inRange v0 v1] at h
      simp only [Bool.not_eq_true] at hl
      simp only [hl, Bool.not_false, Bool.false_eq_true, if_false, if_true] at h
      cases h; cases hx
  · unfold Throttle.requestMotorTorque sendTorqueCommand at h
    dsimp only at h
    rw [hv, Drive.inRange v0 v1] at h
    simp only [Bool.not_eq_true] at hen
    simp only [hen, Bool.not_false, Bool.false_eq_true, if_false, if_true] at h
    cases hl : e.lock <;> rw [hl] at h <;>
      simp only [Bool.not_true, Bool.not_false, Bool.false_eq_true, if_false, if_true] at h <;>
      (cases h; cases hx)

/-! ## The reading the throttle task works with -/

/-- What the throttle task holds comes from a reading in `R`, or is zero. -/
def Holds (R : F32 → Prop) : Throttle.Pc → Prop
  | .idle => True
  | .gotAccel a => a = fin 0 ∨ R a
  | .sawEnabled a => a = fin 0 ∨ R a
  | .notForward _ => False
  | .computed t => t = fin 0 ∨ ∃ a, R a ∧ IsFloat a ∧ t = Throttle.interpolate Throttle.mapForward a

theorem interp_zero : Throttle.interpolate Throttle.mapForward (fin 0) = fin 0 := by decide +kernel

/-- One event: what the throttle task holds afterwards, and what the frames carry. -/
theorem step_holds {cfg : Config} {m0 : FaultMgr.Internal} {h : List (Option VData)} {s s' : St}
    {d : Drive.St} {e : Ev} {fs : List Sent} {R : F32 → Prop} (hi : Inv cfg m0 h s) (hr : Rel s d)
    (hd : Drive.Inv d) (hs : step s e = .ok (s', fs)) (hh : Holds R s.thr.pc)
    (hR : ∀ en, e = .throttle true en → s.thr.pc = .idle → R s.vd.inputs.accel) :
    Holds R s'.thr.pc ∧ ∀ f ∈ fs, Drive.torqueOf f ≠ 0 →
      ∃ a, R a ∧ 10 * asks a - 102/100 < Drive.torqueOf f ∧ (Drive.torqueOf f : ℚ) ≤ 10 * asks a + 2/100 := by
  by_cases hpc : e.isPc = true
  · obtain ⟨rfl, hsd, -⟩ := pc_step hpc hs
    exact ⟨by rw [hsd.throttle]; exact hh, by simp⟩
  cases e with
  | pcBatch b c => exact absurd rfl hpc
  | pcAct l => exact absurd rfl hpc
  | write v => simp only [step] at hs; cases hs; exact ⟨hh, by simp⟩
  | copy ok =>
    simp only [step] at hs
    split at hs
    · split at hs
      · cases hs
      · cases hs; exact ⟨hh, by simp⟩
    · cases hs; exact ⟨hh, by simp⟩
  | handle ok =>
    simp only [step] at hs
    split at hs
    · cases hs; exact ⟨hh, by simp⟩
    · split at hs
      · cases hs
      · cases hs; exact ⟨hh, by simp⟩
  | call en =>
    simp only [step] at hs
    split at hs
    · cases hs; exact ⟨hh, by simp⟩
    · rename_i o os hp
      unfold applyOut at hs
      dsimp only at hs
      cases o with
      | ecuError b => simp only [Drive.apply] at hs; cases hs; exact ⟨hh, by simp⟩
      | motorDirection x => simp only [Drive.apply] at hs; cases hs; exact ⟨hh, by simp⟩
      | torqueEnabled x => simp only [Drive.apply] at hs; cases hs; exact ⟨hh, by simp⟩
      | enableInverter =>
        obtain ⟨r, hx, -, -, -, hz⟩ := Drive.enable_ok s.cmd en (by rw [← hr.cmd]; exact hd.noDischarge)
        simp only [Drive.apply, hx] at hs
        cases hs
        exact ⟨hh, fun f hf ht => absurd (hz f hf).2.1 ht⟩
  | throttle ok en =>
    have hdir : s.thr.thr.direction = FORWARD := by rw [← hr.thr]; exact hd.dir
    have hpk : Drive.PcOk s.thr.pc := by rw [← hr.thr]; exact hd.pc
    simp only [step] at hs
    cases hc : s.thr.pc with
    | idle =>
      simp only [Throttle.step, hc, Drive.issue] at hs
      cases hs
      refine ⟨?_, by simp⟩
      cases ok with
      | false => exact .inl rfl
      | true => exact .inr (hR en rfl hc)
    | gotAccel a =>
      rw [hc] at hh
      simp only [Throttle.step, hc] at hs
      by_cases hen : s.thr.thr.enabled = false
      · rw [if_pos hen] at hs; cases hs; exact ⟨.inl rfl, by simp⟩
      · rw [if_neg hen] at hs; cases hs; exact ⟨hh, by simp⟩
    | sawEnabled a =>
      rw [hc] at hh hpk
      simp only [Throttle.step, hc] at hs
      rw [if_pos hdir] at hs
      simp only [Drive.issue] at hs
      cases hs
      refine ⟨?_, by simp⟩
      rcases hh with rfl | hh
      · exact .inl interp_zero
      · exact .inr ⟨a, hh, hpk, rfl⟩
    | notForward a => rw [hc] at hh; exact hh.elim
    | computed t =>
      rw [hc] at hh
      simp only [Throttle.step, hc, hdir] at hs
      cases hx : Drive.issue s.cmd en [⟨t, FORWARD⟩] with
      | error u => rw [hx] at hs; cases hs
      | ok r =>
        obtain ⟨c, g⟩ := r
        rw [hx] at hs
        cases hs
        refine ⟨trivial, fun f hf ht => ?_⟩
        rcases hh with rfl | ⟨a, ha, hfl, rfl⟩
        · exfalso
          obtain ⟨r, hr1, -, hz, -⟩ := Drive.torque_ok s.cmd en (v := 0) le_rfl (by norm_num)
          simp only [Drive.issue, Throttle.requestMotorTorque, hr1] at hx
          cases hx
          rcases hz with hz | ⟨m, hz, -, -, h0⟩
          · rw [hz] at hf; cases hf
          · rw [hz, List.mem_singleton] at hf
            subst hf
            exact ht (h0 rfl)
        · exact ⟨a, ha, command_close hfl hx hf⟩

/-- A run. -/
theorem run_holds {cfg : Config} {m0 : FaultMgr.Internal} {R : F32 → Prop} : ∀ (es : List Ev)
    (h : List (Option VData)) (s s' : St) (d : Drive.St) (fs : List Sent),
    Inv cfg m0 h s → Rel s d → Drive.Inv d → FloatWrites es → run s es = .ok (s', fs) →
    Holds R s.thr.pc →
    (∀ pre en post s1 f1, es = pre ++ .throttle true en :: post → run s pre = .ok (s1, f1) →
      s1.thr.pc = .idle → R s1.vd.inputs.accel) →
    Holds R s'.thr.pc
  | [], h, s, s', d, fs, _, _, _, _, hs, hh, _ => by simp only [run] at hs; cases hs; exact hh
  | e :: es, h, s, s', d, fs, hi, hr, hd, hf, hs, hh, hR => by
    obtain ⟨s1, f1, f2, h1, h2, rfl⟩ := run_cons hs
    obtain ⟨i1, ds1, d1, q1, r1, l1, -⟩ := step_sim hi hr (fun v hv => hf v (by simp [hv])) h1
    obtain ⟨d1', f1', q1', hd1, -⟩ := Drive.run_ok ds1 d hd l1
    rw [q1] at q1'
    cases q1'
    obtain ⟨hh1, -⟩ := step_holds hi hr hd h1 hh (fun en he hidle => hR [] en es s [] (by rw [he]; rfl) rfl hidle)
    refine run_holds es _ s1 s' d1 f2 i1 r1 hd1 (fun v hv => hf v (List.mem_cons_of_mem _ hv)) h2 hh1 ?_
    intro pre en post s2 g he hg hidle
    refine hR (e :: pre) en post s2 (f1 ++ g) (by rw [he]; rfl) ?_ hidle
    simp only [run, h1, hg]

/-- Where a frame comes from. -/
theorem frame_origin : ∀ {H : Hist} {s : St} {x : Nat × Sent}, x ∈ frames s H →
    ∃ pre e post s1 f1 s2 f2, H = pre ++ (x.1, e) :: post ∧ run s (events pre) = .ok (s1, f1) ∧
      step s1 e = .ok (s2, f2) ∧ x.2 ∈ f2
  | [], s, x, h => by simp [frames] at h
  | (t, e) :: H, s, x, h => by
    simp only [frames] at h
    split at h
    · simp at h
    · rename_i s' fs hs
      rcases List.mem_append.mp h with h | h
      · obtain ⟨f, hf, rfl⟩ := List.mem_map.mp h
        exact ⟨[], e, H, s, [], s', fs, rfl, rfl, hs, hf⟩
      · obtain ⟨pre, e', post, s1, f1, s2, f2, rfl, r1, r2, hx⟩ := frame_origin h
        refine ⟨(t, e) :: pre, e', post, s1, fs ++ f1, s2, f2, rfl, ?_, r2, hx⟩
        have hev : events ((t, e) :: pre) = e :: events pre := rfl
        rw [hev]
        simp only [run, hs, r1]

variable (cfg : Config) (sm : StateMgr.StateManager) (dec : MsgFrame.Dec) (buf : Nat → UInt8)
  (ecu control : Bool)

/-- **C138.** Let the timer interrupts come every `P` and let the throttle task finish each
activation before the next one. Every command frame with torque, handed to the CAN layer at a time
`τ`, answers a reading of the pedal made at a time `t ≤ τ` in the same period: the torque in the
frame, in tenths of a newton metre, is at most 1.02 below and 0.02 above what the curve gives for
the value then in the vehicle data. -/
theorem C138_current_pedal
    (hsm : StateMgr.smInit true true true (StateMgr.wired cfg) = .ok (.ok, sm))
    (P : Nat) (hP : 0 < P) (H : Hist) (ho : Ordered H) (hf : FloatWrites (events H))
    (hk : ThrottleKeepsUp P (start sm dec buf ecu control) H)
    (x : Nat × Sent) (hx : x ∈ frames (start sm dec buf ecu control) H)
    (ht : Drive.torqueOf x.2 ≠ 0) :
    ∃ t a, Reads (start sm dec buf ecu control) H t a ∧ t ≤ x.1 ∧ t / P = x.1 / P ∧
      10 * asks a - 102/100 < Drive.torqueOf x.2 ∧ (Drive.torqueOf x.2 : ℚ) ≤ 10 * asks a + 2/100 := by
  obtain ⟨m0, -, i0, r0⟩ := start_inv cfg sm dec buf ecu control hsm
  generalize start sm dec buf ecu control = s0 at *
  have hd0 := Drive.start_inv 10 cfg.vcu.hvActiveStateWait cfg.vcu.hvChargeTimeout ecu
  obtain ⟨pre, e, post, s1, f1, s2, f2, hH, hr1, hst, hxm⟩ := frame_origin hx
  obtain ⟨k, hkdef⟩ : ∃ k, k = x.1 / P := ⟨_, rfl⟩
  have hkP : k * P ≤ x.1 := by rw [hkdef]; exact Nat.div_mul_le_self _ _
  -- the part before the frame, cut at the timer interrupt
  have hopre : Ordered pre := by
    rw [hH] at ho; exact (List.pairwise_append.mp ho).1
  have hle : ∀ y ∈ pre, y.1 ≤ x.1 := by
    intro y hy
    rw [hH] at ho
    exact (List.pairwise_append.mp ho).2.2 y hy _ List.mem_cons_self
  have hsub := since_split hopre (k * P)
  have hbefore : before H (k * P) = before pre (k * P) := by
    have : ∀ y ∈ (x.1, e) :: post, ¬ y.1 < k * P := by
      intro y hy
      rw [hH] at ho
      rcases List.mem_cons.mp hy with rfl | hy
      · dsimp only; omega
      · have := (List.pairwise_cons.mp (List.pairwise_append.mp ho).2.1).1 y hy
        dsimp only at this; omega
    have hnil : ((x.1, e) :: post).filter (fun y => decide (y.1 < k * P)) = [] :=
      List.filter_eq_nil_iff.mpr fun y hy => by simpa using this y hy
    unfold before
    rw [hH, List.filter_append, hnil, List.append_nil]
  have hevp : events pre = events (before pre (k * P)) ++ events (since pre (k * P)) := by
    conv_lhs => rw [hsub]
    exact List.map_append
  rw [hevp] at hr1
  obtain ⟨sk, g1, g2, q1, q2, rfl⟩ := run_split hr1
  have hidle : sk.thr.pc = .idle :=
    hk k ⟨(x.1, e), by rw [hH]; simp, hkP⟩ sk g1 (by rw [hbefore]; exact q1)
  have hmem : ∀ {es : List Ev}, (∀ v ∈ es, v ∈ events H) → FloatWrites es := fun h v hv => hf v (h _ hv)
  have hpreH : ∀ v ∈ events pre, v ∈ events H := by
    intro v hv
    rw [hH]; unfold events; rw [List.map_append]; exact List.mem_append_left _ hv
  obtain ⟨ik, dsk, dk, qk, rk, lk⟩ := run_sim _ _ _ _ _ _ i0 r0
    (hmem fun v hv => hpreH v (by rw [hevp]; exact List.mem_append_left _ hv)) q1
  obtain ⟨dk', fk', qk', hdk, -⟩ := Drive.run_ok dsk _ hd0 lk
  rw [qk] at qk'; cases qk'
  have hfs : FloatWrites (events (since pre (k * P))) :=
    hmem fun v hv => hpreH v (by rw [hevp]; exact List.mem_append_right _ hv)
  obtain ⟨i1, ds1, d1, qd1, rl1, l1⟩ := run_sim _ _ _ _ _ _ ik rk hfs q2
  obtain ⟨d1', fd', qd1', hd1, -⟩ := Drive.run_ok ds1 _ hdk l1
  rw [qd1] at qd1'; cases qd1'
  -- readings of this period
  have key : ∀ A B tr en s fs, since pre (k * P) = A ++ (tr, Ev.throttle true en) :: B →
      run sk (events A) = .ok (s, fs) → s.thr.pc = .idle →
      ∃ t, Reads s0 H t s.vd.inputs.accel ∧ t ≤ x.1 ∧ t / P = x.1 / P := by
    intro A B tr en s fs hA hrA hid
    have hm : (tr, Ev.throttle true en) ∈ since pre (k * P) := by rw [hA]; simp
    unfold since at hm
    obtain ⟨hm1, hm2⟩ := List.mem_filter.mp hm
    have h1 : k * P ≤ tr := by simpa using hm2
    have h2 : tr ≤ x.1 := hle _ hm1
    refine ⟨tr, ⟨before pre (k * P) ++ A, en, B ++ (x.1, e) :: post, s, g1 ++ fs, ?_, ?_, hid, rfl⟩, h2, ?_⟩
    · conv_lhs => rw [hH, hsub, hA]
      simp
    · unfold events
      rw [List.map_append]
      exact run_append q1 hrA
    · rw [← hkdef]
      apply le_antisymm
      · rw [hkdef]; exact Nat.div_le_div_right h2
      · exact (Nat.le_div_iff_mul_le hP).mpr h1
  have hhold : Holds (fun a => ∃ t, Reads s0 H t a ∧ t ≤ x.1 ∧ t / P = x.1 / P) s1.thr.pc := by
    refine run_holds _ _ _ _ _ _ ik rk hdk hfs q2 (by rw [hidle]; trivial) ?_
    intro A en B s fs hA hrA hid
    unfold events at hA
    obtain ⟨A', B', hl, hA', hB'⟩ := List.map_eq_append_iff.mp hA
    obtain ⟨y, B'', rfl, hy, hB''⟩ := List.map_eq_cons_iff.mp hB'
    obtain ⟨tr, ev⟩ := y
    dsimp only at hy
    subst hy
    exact key A' B'' tr en s fs hl (by unfold events; rw [hA']; exact hrA) hid
  obtain ⟨-, hout⟩ := step_holds i1 rl1 hd1 hst hhold (by
    intro en he hid
    refine ⟨x.1, ⟨pre, en, post, s1, g1 ++ g2, by rw [hH, he], by rw [hevp]; exact run_append q1 q2, hid, rfl⟩,
      le_rfl, rfl⟩)
  obtain ⟨a, ⟨t, hR, h1, h2⟩, h3, h4⟩ := hout x.2 hxm ht
  exact ⟨t, a, hR, h1, h2, h3, h4⟩

/-- **C138, easing off.** If from time `t` on, until `t'`, the pedal in the vehicle data is at most
`lim` (or no number), then every command frame from `t + P` on and before `t'` asks for at most the
torque of `lim` on the curve. -/
theorem C138_easing_off
    (hsm : StateMgr.smInit true true true (StateMgr.wired cfg) = .ok (.ok, sm))
    (P : Nat) (hP : 0 < P) (H : Hist) (ho : Ordered H) (hf : FloatWrites (events H))
    (hk : ThrottleKeepsUp P (start sm dec buf ecu control) H)
    (lim : ℚ) (hl : lim ≤ 1) (t t' : Nat)
    (hs : Shows (fun d => ∀ q, d.inputs.accel = fin q → q ≤ lim) t t' (start sm dec buf ecu control) H)
    (x : Nat × Sent) (hx : x ∈ frames (start sm dec buf ecu control) H)
    (h1 : t + P ≤ x.1) (h2 : x.1 < t') :
    (Drive.torqueOf x.2 : ℚ) ≤ 10 * Pedal.forward lim + 2/100 := by
  by_cases ht : Drive.torqueOf x.2 = 0
  · rw [ht]; have := forward_nonneg lim; push_cast; linarith
  obtain ⟨tr, a, ⟨pre, en, post, s, fs, hH, hr, -, rfl⟩, r1, r2, -, r4⟩ :=
    C138_current_pedal cfg sm dec buf ecu control hsm P hP H ho hf hk x hx ht
  have htr : t ≤ tr := by
    have e1 := Nat.div_add_mod tr P
    have e2 := Nat.div_add_mod x.1 P
    have e3 := Nat.mod_lt x.1 hP
    rw [r2] at e1
    omega
  have hb := hs pre tr _ post hH htr (by omega) s fs hr
  refine r4.trans ?_
  have : asks s.vd.inputs.accel ≤ Pedal.forward lim := by
    cases ha : s.vd.inputs.accel with
    | fin q => exact forward_le (hb q ha) hl
    | _ => exact forward_nonneg lim
  linarith

/-- **C138, released.** With the pedal within the first tenth of its travel, below it, or no number,
from time `t` on until `t'`, no command frame from `t + P` on and before `t'` has torque. -/
theorem C138_released
    (hsm : StateMgr.smInit true true true (StateMgr.wired cfg) = .ok (.ok, sm))
    (P : Nat) (hP : 0 < P) (H : Hist) (ho : Ordered H) (hf : FloatWrites (events H))
    (hk : ThrottleKeepsUp P (start sm dec buf ecu control) H) (t t' : Nat)
    (hs : Shows (fun d => ∀ q, d.inputs.accel = fin q → q ≤ 1/10) t t' (start sm dec buf ecu control) H)
    (x : Nat × Sent) (hx : x ∈ frames (start sm dec buf ecu control) H)
    (h1 : t + P ≤ x.1) (h2 : x.1 < t') :
    Drive.torqueOf x.2 = 0 := by
  have h := C138_easing_off cfg sm dec buf ecu control hsm P hP H ho hf hk (1/10) (by norm_num) t t' hs x hx h1 h2
  have hz : Pedal.forward (1/10) = 0 := by decide +kernel
  rw [hz] at h
  by_contra hne
  have : (1 : ℚ) ≤ Drive.torqueOf x.2 := by exact_mod_cast Nat.one_le_iff_ne_zero.mpr hne
  linarith

/-! ## A drive in which the driver eases off -/

/-- As `timedDrive`, healthy, with the pedal going from the floor to half and to nothing. -/
def easingDrive : Hist :=
  (List.range 9).flatMap (fun k => busy k 3
    (sample (k == 2 || k == 8) (if k < 6 then 0 else 5) (if k < 8 then 0 else 1) false)) ++
  busy 9 4 (sample false 5 1 false) ++ busy 10 4 (sample false 5 (1/2) false) ++
  busy 11 4 (sample false 5 (1/2) false) ++ busy 12 4 (sample false 5 0 false)

/-- The torque on the bus follows within the period. -/
example :
    (match demoStart with
    | .ok s =>
      checkKeepsUp s easingDrive 13 && (run s (events easingDrive)).isOk &&
      (((frames s easingDrive).map (fun x => (x.1 / 10000, Drive.torqueOf x.2))).drop 5) ==
        [(9, 5000), (10, 1000), (11, 1000), (12, 0)]
    | .error _ => false) = true := by decide +kernel

end Verif.Vehicle
