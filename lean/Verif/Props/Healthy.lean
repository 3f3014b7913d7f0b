import Verif.Spec.Healthy
import Verif.Props.Pedal
import Verif.Props.VehicleFault
import Mathlib.Data.List.Forall2

set_option autoImplicit false

/-!
# C135: a healthy vehicle drives when asked
-/

namespace Verif.Vehicle
open InvDrv Verif.FaultSpec Healthy

/-! ## Vocabulary -/

/-- Every lock a task tries to take is granted. -/
def Granted : Ev → Prop
  | .copy ok => ok = true
  | .handle ok => ok = true
  | .call e => e.lock = true
  | .throttle ok e => ok = true ∧ e.lock = true
  | _ => True

/-- The vehicle data the state manager acts on in this event, if it does. -/
def looked (s : St) : Ev → Option VData
  | .handle _ => s.status.map fun _ => s.vd
  | _ => none

/-- All of them in a history, oldest first. -/
def looks (s : St) : List Ev → List VData
  | [] => []
  | e :: es => (looked s e).toList ++
    match step s e with
    | .ok r => looks r.1 es
    | .error _ => []

/-- The pedal value the throttle task reads in this event, if it does. -/
def pedalRead (s : St) : Ev → Option F32
  | .throttle _ _ => if s.thr.pc = .idle then some s.vd.inputs.accel else none
  | _ => none

/-- All of them in a history, oldest first. -/
def pedals (s : St) : List Ev → List F32
  | [] => []
  | e :: es => (pedalRead s e).toList ++
    match step s e with
    | .ok r => pedals r.1 es
    | .error _ => []

/-! ## The verdict of a healthy history -/

variable {cfg : Config} {m0 : FaultMgr.Internal}

theorem heal {h k : List (Option VData)} (hh : ¬ DriveFault cfg 10 ((h ++ k).filterMap id)) :
    ¬ DriveFault cfg 10 (h.filterMap id) := by
  intro hd
  exact hh (by rw [List.filterMap_append]; exact driveFault_append _ hd)

theorem verdict (h0 : FaultMgr.init cfg 10 = .ok m0)
    (hl : inputSamples cfg 10 ≤ 65535) (hlb : bmsSamples cfg 10 ≤ 65535)
    {h : List (Option VData)} {s : St} (hi : Inv cfg m0 h s) (hs : ∀ x ∈ h, x ≠ none)
    (hh : ¬ DriveFault cfg 10 (h.filterMap id)) {f : Vsm.FaultStatus} (hf : s.status = some f) :
    f = .noFault := by
  obtain ⟨h', d, rfl, rfl⟩ := hi.status f hf
  refine (FaultMgr.C09_status_exact cfg 10 m0 h0 hl hlb h' d).2.2.mpr ⟨?_, hh⟩
  exact Option.isSome_iff_ne_none.mpr (hs d (by simp))

/-- What the handlers read of a healthy sample. -/
def inp (d : VData) : Vsm.In := StateMgr.handlerInput .noFault (some d)

/-- State machine, throttle and driver are where the plain state machine `w` is, apart from the
calls still to be made. -/
def Fits (s : St) (w : Vsm.World) : Prop :=
  s.mgr.vsm.core = w.vsm ∧ ∃ o : Vsm.Outputs,
    s.thr.thr = ⟨o.torqueEnabled, Drive.dirCode o.direction⟩ ∧
    s.cmd = ⟨decide (0 < o.inverterEnables), false⟩ ∧
    s.pending.foldl Vsm.Outputs.apply o = w.out

theorem self_rel (s : St) : Rel s ⟨s.mgr.vsm.core, s.pending, s.thr, s.cmd, s.ecuError⟩ :=
  ⟨rfl, rfl, rfl, rfl⟩

theorem copied_some {s : St} {e : Ev} (hg : Granted e) : ∀ x ∈ (copied s e).toList, x ≠ none := by
  intro x hx
  cases e with
  | copy ok =>
    simp only [copied] at hx
    have : ok = true := hg
    subst this
    by_cases hc : s.status = none ∧ s.pending = []
    · rw [if_pos hc] at hx; simp at hx; subst hx; simp
    · rw [if_neg hc] at hx; simp at hx
  | _ => simp [copied] at hx

theorem task_thr (s : Throttle.Sys) (a : Option F32) : (Throttle.step s (.task a)).1.thr = s.thr := by
  rcases s with ⟨thr, pc⟩
  cases pc <;> simp only [Throttle.step] <;> (try split) <;> rfl

theorem request_cmd {c : Cmd} {e : Env} {r : Throttle.Request} {x : Result}
    (h : Throttle.requestMotorTorque c e r = .ok x) : x.cmd = c := by
  unfold Throttle.requestMotorTorque sendTorqueCommand at h
  split at h
  · cases h; rfl
  split at h
  · cases h; rfl
  split at h
  · cases h; rfl
  · simp only [bind, Except.bind] at h
    split at h
    · cases h
    · cases h; rfl

theorem issue_cmd {c c' : Cmd} {e : Env} {rs : List Throttle.Request} {fs : List Sent}
    (h : Drive.issue c e rs = .ok (c', fs)) : c' = c := by
  cases rs with
  | nil => simp only [Drive.issue] at h; cases h; rfl
  | cons r rs =>
    simp only [Drive.issue] at h
    split at h
    · cases h
    · rename_i x hx
      cases h; exact request_cmd hx

theorem enable_cmd {b : Bool} {e : Env} (he : e.lock = true) {r : Result}
    (h : sendInverterEnabled ⟨b, false⟩ e true = .ok r) : r.cmd = ⟨true, false⟩ := by
  rw [enabled_eq, he] at h
  cases b <;> · simp at h; subst h; rfl

/-- One event of a healthy history. -/
theorem fits_step (h0 : FaultMgr.init cfg 10 = .ok m0)
    (hl : inputSamples cfg 10 ≤ 65535) (hlb : bmsSamples cfg 10 ≤ 65535)
    {h : List (Option VData)} {s s' : St} {w : Vsm.World} {e : Ev} {fs : List Sent}
    (hi : Inv cfg m0 h s) (hs : ∀ x ∈ h, x ≠ none) (hh : ¬ DriveFault cfg 10 (h.filterMap id))
    (hg : Granted e) (hf : Fits s w) (hr : step s e = .ok (s', fs)) :
    Fits s' (w.run ((looked s e).toList.map inp)) := by
  obtain ⟨hc, o, h1, h2, h3⟩ := hf
  have same : ∀ s'' : St, s''.mgr.vsm.core = s.mgr.vsm.core → s''.thr.thr = s.thr.thr →
      s''.cmd = s.cmd → s''.pending = s.pending → looked s e = none →
      Fits s'' (w.run ((looked s e).toList.map inp)) := by
    intro s'' a b c d hlk
    rw [hlk]
    exact ⟨a.trans hc, o, b.trans h1, c.trans h2, by rw [d]; exact h3⟩
  by_cases hpc : e.isPc = true
  · obtain ⟨-, hsd, -⟩ := pc_step hpc hr
    exact same s' (by rw [hsd.manager]) (by rw [hsd.throttle]) hsd.command hsd.pending
      (by cases e <;> first | rfl | cases hpc)
  cases e with
  | pcBatch b c => exact absurd rfl hpc
  | pcAct l => exact absurd rfl hpc
  | write v => simp only [step] at hr; cases hr; exact same _ rfl rfl rfl rfl rfl
  | copy ok =>
    simp only [step] at hr
    by_cases hq : s.status = none ∧ s.pending = []
    · rw [if_pos hq] at hr
      split at hr
      · cases hr
      · cases hr; exact same _ rfl rfl rfl rfl rfl
    · rw [if_neg hq] at hr; cases hr; exact same _ rfl rfl rfl rfl rfl
  | handle ok =>
    have : ok = true := hg
    subst this
    simp only [step] at hr
    cases hst : s.status with
    | none =>
      rw [hst] at hr; cases hr
      exact same s rfl rfl rfl rfl (by simp [looked, hst])
    | some f =>
      rw [hst] at hr
      dsimp only at hr
      rw [if_neg (by simp [hi.i, hi.c, hi.t])] at hr
      have hp : s.pending = [] := hi.busy (by rw [hst]; simp)
      have hn := verdict h0 hl hlb hi hs hh hst
      subst hn
      cases hr
      rw [hp] at h3
      simp only [List.foldl_nil] at h3
      simp only [looked, hst, Option.map_some, Option.toList_some, List.map_cons, List.map_nil,
        Vsm.World.run, List.foldl_cons, List.foldl_nil]
      refine ⟨?_, o, h1, h2, ?_⟩
      · dsimp only [Vsm.World.step]
        rw [hc]; rfl
      · dsimp only [Vsm.World.step]
        rw [h3, hc]; rfl
  | call en =>
    simp only [step] at hr
    cases hp : s.pending with
    | nil => rw [hp] at hr; cases hr; exact same s rfl rfl rfl rfl rfl
    | cons x xs =>
      rw [hp] at hr
      dsimp only at hr
      rw [hp, List.foldl_cons] at h3
      unfold applyOut at hr
      dsimp only at hr
      have hlk : looked s (.call en) = none := rfl
      rw [hlk]
      cases x with
      | ecuError b =>
        simp only [Drive.apply] at hr; cases hr
        exact ⟨hc, o.apply (.ecuError b), h1, h2, h3⟩
      | motorDirection d =>
        simp only [Drive.apply] at hr; cases hr
        refine ⟨hc, o.apply (.motorDirection d), ?_, h2, h3⟩
        simp only [Throttle.step, Vsm.Outputs.apply, h1]
      | torqueEnabled b =>
        simp only [Drive.apply] at hr; cases hr
        refine ⟨hc, o.apply (.torqueEnabled b), ?_, h2, h3⟩
        simp only [Throttle.step, Vsm.Outputs.apply, h1]
      | enableInverter =>
        simp only [Drive.apply] at hr
        split at hr
        · cases hr
        · rename_i d g hx
          split at hx
          · cases hx
          · rename_i r hx'
            cases hx
            cases hr
            refine ⟨hc, o.apply .enableInverter, h1, ?_, h3⟩
            rw [h2] at hx'
            dsimp only
            rw [enable_cmd hg hx']
            simp [Vsm.Outputs.apply]
  | throttle ok en =>
    simp only [step] at hr
    split at hr
    · cases hr
    · rename_i c g hx
      cases hr
      exact same _ rfl (task_thr _ _) (issue_cmd hx) rfl rfl

/-- A healthy history. -/
theorem fits_run (h0 : FaultMgr.init cfg 10 = .ok m0)
    (hl : inputSamples cfg 10 ≤ 65535) (hlb : bmsSamples cfg 10 ≤ 65535) :
    ∀ (es : List Ev) (h : List (Option VData)) (s s' : St) (w : Vsm.World) (fs : List Sent),
    Inv cfg m0 h s → (∀ x ∈ h, x ≠ none) →
    ¬ DriveFault cfg 10 ((h ++ copies s es).filterMap id) → (∀ e ∈ es, Granted e) →
    FloatWrites es → Fits s w → run s es = .ok (s', fs) →
    Inv cfg m0 (h ++ copies s es) s' ∧ (∀ x ∈ h ++ copies s es, x ≠ none) ∧
      Fits s' (w.run ((looks s es).map inp))
  | [], h, s, s', w, fs, hi, hs, hh, hg, hfw, hf, hr => by
    simp only [run] at hr
    cases hr
    simp only [copies, List.append_nil]
    exact ⟨hi, hs, hf⟩
  | e :: es, h, s, s', w, fs, hi, hs, hh, hg, hfw, hf, hr => by
    obtain ⟨s1, f1, f2, h1, h2, rfl⟩ := run_cons hr
    obtain ⟨i1, -⟩ := step_sim hi (self_rel s) (fun v hv => hfw v (by simp [hv])) h1
    have ec : copies s (e :: es) = (copied s e).toList ++ copies s1 es := by
      simp only [copies, h1]
    have el : looks s (e :: es) = (looked s e).toList ++ looks s1 es := by
      simp only [looks, h1]
    have f1 := fits_step h0 hl hlb hi hs (heal hh) (hg e (by simp)) hf h1
    have hs1 : ∀ x ∈ h ++ (copied s e).toList, x ≠ none := by
      intro x hx
      rcases List.mem_append.mp hx with hx | hx
      · exact hs x hx
      · exact copied_some (hg e (by simp)) x hx
    rw [ec, ← List.append_assoc] at hh ⊢
    obtain ⟨a, b, c⟩ := fits_run h0 hl hlb es _ s1 s' _ f2 i1 hs1 hh
      (fun x hx => hg x (List.mem_cons_of_mem _ hx)) (fun v hv => hfw v (List.mem_cons_of_mem _ hv)) f1 h2
    refine ⟨a, b, ?_⟩
    rw [el, List.map_append]
    simpa [Vsm.World.run, List.foldl_append] using c

/-! ## The way to drive -/

/-- The state machine at rest in a state. -/
def at' (wait tmo : UInt32) (x : Vsm.St) (tk : UInt32) (pv te ecu : Bool) (n : Nat) : Vsm.World :=
  ⟨⟨10, wait, tmo, x, x, tk, pv⟩, ⟨te, .forward, ecu, n⟩⟩

section
variable {wait tmo : UInt32}

theorem run_app (w : Vsm.World) (a b : List Vsm.In) : w.run (a ++ b) = (w.run a).run b := by
  simp [Vsm.World.run, List.foldl_append]

theorem step_init (tk : UInt32) (pv te ecu : Bool) (n : Nat) (d : VData) :
    (at' wait tmo .init tk pv te ecu n).step (inp d) = at' wait tmo .lvStartup 0 pv te true n := by
  simp [Vsm.World.step, Vsm.step, Vsm.handle, Vsm.stateInit, Vsm.advance, Vsm.Outputs.apply, at']

theorem step_startup (tk : UInt32) (pv te ecu : Bool) (n : Nat) (d : VData) :
    (at' wait tmo .lvStartup tk pv te ecu n).step (inp d) = at' wait tmo .lvReady 0 pv te ecu n := by
  simp [Vsm.World.step, Vsm.step, Vsm.handle, Vsm.stateLvStartup, Vsm.advance, at', inp,
    StateMgr.handlerInput]

theorem run_idle (te ecu : Bool) (n : Nat) : ∀ (l : List VData) (tk : UInt32), (∀ d ∈ l, Released d) →
    ∃ tk', (at' wait tmo .lvReady tk false te ecu n).run (l.map inp) =
      at' wait tmo .lvReady tk' false te ecu n
  | [], tk, _ => ⟨tk, rfl⟩
  | d :: l, tk, h => by
    have hd : d.dash.buttonPressed = false := h d (by simp)
    obtain ⟨tk', e⟩ := run_idle te ecu n l (tk + 1) (fun x hx => h x (List.mem_cons_of_mem _ hx))
    refine ⟨tk', ?_⟩
    rw [← e]
    simp [Vsm.World.run, Vsm.World.step, Vsm.step, Vsm.handle, Vsm.stateLvReady, Vsm.advance, at', inp,
      StateMgr.handlerInput, hd]

theorem step_press (tk : UInt32) (te ecu : Bool) (n : Nat) (d : VData) (h : Pressed d) :
    (at' wait tmo .lvReady tk false te ecu n).step (inp d) = at' wait tmo .hvActive 0 true te false n := by
  have hd : d.dash.buttonPressed = true := h
  simp [Vsm.World.step, Vsm.step, Vsm.handle, Vsm.stateLvReady, Vsm.advance, at', inp,
    StateMgr.handlerInput, hd, Vsm.Outputs.apply]

theorem mul10 {k : Nat} (h : 10 * k < 2^32) : ((10 : UInt32) * UInt32.ofNat k).toNat = 10 * k := by
  rw [UInt32.toNat_mul, UInt32.toNat_ofNat']
  have : (10 : UInt32).toNat = 10 := rfl
  rw [this]
  omega

theorem run_dwell (hw : wait.toNat ≤ 4294967290) (pv te ecu : Bool) (n : Nat) :
    ∀ (l : List VData) (k : Nat), k ≤ (wait.toNat + 9) / 10 → l.length + k = (wait.toNat + 9) / 10 + 1 →
    (at' wait tmo .hvActive (UInt32.ofNat k) pv te ecu n).run (l.map inp) =
      at' wait tmo .hvCharging 0 pv te ecu (n + 1)
  | [], k, hk, h => by simp at h; omega
  | d :: l, k, hk, h => by
    have h10 : 10 * k < 2^32 := by omega
    by_cases hc : k = (wait.toNat + 9) / 10
    · have hl : l = [] := by
        have : l.length = 0 := by simp at h; omega
        exact List.eq_nil_of_length_eq_zero this
      subst hl
      have ge : wait ≤ 10 * UInt32.ofNat k := by
        rw [UInt32.le_iff_toNat_le, mul10 h10]; omega
      simp [Vsm.World.run, Vsm.World.step, Vsm.step, Vsm.handle, Vsm.stateHvActive, Vsm.advance, at', inp,
        StateMgr.handlerInput, ge, Vsm.Outputs.apply]
    · have lt : ¬ wait ≤ 10 * UInt32.ofNat k := by
        rw [UInt32.le_iff_toNat_le, mul10 h10]; omega
      have ih := run_dwell hw pv te ecu n l (k + 1) (by omega) (by simp at h; omega)
      rw [← ih]
      have e1 : UInt32.ofNat (k + 1) = UInt32.ofNat k + 1 := by
        apply UInt32.toNat_inj.mp
        rw [UInt32.toNat_add, UInt32.toNat_ofNat', UInt32.toNat_ofNat']
        have : (1 : UInt32).toNat = 1 := rfl
        rw [this]; omega
      simp only [Vsm.World.run, List.map_cons, List.foldl_cons]
      congr 1
      simp [Vsm.World.step, Vsm.step, Vsm.handle, Vsm.stateHvActive, Vsm.advance, at', inp,
        StateMgr.handlerInput, lt, e1]

theorem run_charge (pv te ecu : Bool) (n : Nat) :
    ∀ (l : List VData) (k : Nat), (∀ d ∈ l, ¬ InverterReady d) → 10 * (l.length + k - 1) ≤ tmo.toNat →
    (at' wait tmo .hvCharging (UInt32.ofNat k) pv te ecu n).run (l.map inp) =
      at' wait tmo .hvCharging (UInt32.ofNat (k + l.length)) pv te ecu n
  | [], k, _, _ => rfl
  | d :: l, k, hd, h => by
    have ht : tmo.toNat < 2^32 := tmo.toNat_lt
    simp only [List.length_cons] at h
    have h10 : 10 * k < 2^32 := by omega
    have lt : ¬ tmo < 10 * UInt32.ofNat k := by
      rw [UInt32.lt_iff_toNat_lt, mul10 h10]; omega
    have hn : ¬ d.inverter.vsmState.toNat = 5 := fun hx =>
      hd d (by simp) (by
        show d.inverter.vsmState = 5
        exact UInt8.toNat_inj.mp hx)
    have ih := run_charge pv te ecu n l (k + 1) (fun x hx => hd x (List.mem_cons_of_mem _ hx)) (by omega)
    rw [List.length_cons, show k + (l.length + 1) = k + 1 + l.length by omega, ← ih]
    have e1 : UInt32.ofNat (k + 1) = UInt32.ofNat k + 1 := by
      apply UInt32.toNat_inj.mp
      rw [UInt32.toNat_add, UInt32.toNat_ofNat', UInt32.toNat_ofNat']
      have : (1 : UInt32).toNat = 1 := rfl
      rw [this]; omega
    simp only [Vsm.World.run, List.map_cons, List.foldl_cons]
    congr 1
    simp [Vsm.World.step, Vsm.step, Vsm.handle, Vsm.stateHvCharging, Vsm.advance, at', inp,
      StateMgr.handlerInput, lt, e1, Vsm.invReady, hn]

theorem step_ready (tk : UInt32) (pv te ecu : Bool) (n : Nat) (d : VData) (h : InverterReady d) :
    (at' wait tmo .hvCharging tk pv te ecu n).step (inp d) = at' wait tmo .activeNeutral 0 pv te ecu n := by
  have hd : d.inverter.vsmState = 5 := h
  simp [Vsm.World.step, Vsm.step, Vsm.handle, Vsm.stateHvCharging, Vsm.advance, at', inp,
    StateMgr.handlerInput, hd, Vsm.invReady]

theorem run_held (te ecu : Bool) (n : Nat) : ∀ (l : List VData) (tk : UInt32), (∀ d ∈ l, Pressed d) →
    ∃ tk', (at' wait tmo .activeNeutral tk true te ecu n).run (l.map inp) =
      at' wait tmo .activeNeutral tk' true te ecu n
  | [], tk, _ => ⟨tk, rfl⟩
  | d :: l, tk, h => by
    have hd : d.dash.buttonPressed = true := h d (by simp)
    obtain ⟨tk', e⟩ := run_held te ecu n l (tk + 1) (fun x hx => h x (List.mem_cons_of_mem _ hx))
    refine ⟨tk', ?_⟩
    rw [← e]
    simp [Vsm.World.run, Vsm.World.step, Vsm.step, Vsm.handle, Vsm.stateActiveNeutral, Vsm.advance, at',
      inp, StateMgr.handlerInput, hd]

theorem run_released (te ecu : Bool) (n : Nat) : ∀ (l : List VData) (tk : UInt32) (pv : Bool), l ≠ [] →
    (∀ d ∈ l, Released d) →
    ∃ tk', (at' wait tmo .activeNeutral tk pv te ecu n).run (l.map inp) =
      at' wait tmo .activeNeutral tk' false te ecu n
  | [], tk, _, h, _ => absurd rfl h
  | [d], tk, pv, _, h => by
    have hd : d.dash.buttonPressed = false := h d (by simp)
    refine ⟨tk + 1, ?_⟩
    simp [Vsm.World.run, Vsm.World.step, Vsm.step, Vsm.handle, Vsm.stateActiveNeutral, Vsm.advance, at',
      inp, StateMgr.handlerInput, hd]
  | d :: d' :: l, tk, pv, _, h => by
    have hd : d.dash.buttonPressed = false := h d (by simp)
    obtain ⟨tk', e⟩ := run_released te ecu n (d' :: l) (tk + 1) false (by simp)
      (fun x hx => h x (List.mem_cons_of_mem _ hx))
    refine ⟨tk', ?_⟩
    rw [← e, List.map_cons]
    simp only [Vsm.World.run, List.foldl_cons]
    congr 1
    simp [Vsm.World.step, Vsm.step, Vsm.handle, Vsm.stateActiveNeutral, Vsm.advance, at',
      inp, StateMgr.handlerInput, hd]

theorem step_drive (tk : UInt32) (te ecu : Bool) (n : Nat) (d : VData) (h : Pressed d) :
    (at' wait tmo .activeNeutral tk false te ecu n).step (inp d) =
      at' wait tmo .activeForward 0 true true ecu n := by
  have hd : d.dash.buttonPressed = true := h
  simp [Vsm.World.step, Vsm.step, Vsm.handle, Vsm.stateActiveNeutral, Vsm.advance, at', inp,
    StateMgr.handlerInput, hd, Vsm.Outputs.apply]

/-- The documented way ends in drive. -/
theorem drive_off (hw : wait.toNat ≤ 4294967290) {l : List VData} (ecu : Bool)
    (h : DriveOff wait.toNat tmo.toNat l) :
    (Vsm.World.start 10 wait tmo ecu).run (l.map inp) = at' wait tmo .activeForward 0 true true false 1 := by
  obtain ⟨a, b, idle, p, dwell, charge, rdy, held, rel, q, rfl, h1, h2, h3, h4, h5, h6, h7, h8, h9, h10⟩ := h
  have es : Vsm.World.start 10 wait tmo ecu = at' wait tmo .init 0 false false ecu 0 := rfl
  have one : ∀ (w : Vsm.World) (d : VData), w.run [inp d] = w.step (inp d) := fun _ _ => rfl
  simp only [List.map_cons, List.map_append, List.map_nil]
  rw [es, show ∀ x y (z : List Vsm.In), x :: y :: z = [x] ++ ([y] ++ z) from fun _ _ _ => rfl]
  simp only [run_app]
  simp only [one]
  rw [step_init, step_startup]
  obtain ⟨t1, e1⟩ := run_idle (wait := wait) (tmo := tmo) false true 0 idle 0 h1
  rw [e1, step_press _ _ _ _ _ h2]
  have e2 := run_dwell (tmo := tmo) hw true false false 0 dwell 0 (Nat.zero_le _) (by omega)
  rw [show (UInt32.ofNat 0) = 0 from rfl] at e2
  rw [e2]
  have e3 := run_charge (wait := wait) (tmo := tmo) true false false 1 charge 0 h4 (by simpa using h5)
  rw [show (UInt32.ofNat 0) = 0 from rfl] at e3
  rw [e3, step_ready _ _ _ _ _ _ h6]
  obtain ⟨t2, e4⟩ := run_held (wait := wait) (tmo := tmo) false false 1 held 0 h7
  rw [e4]
  obtain ⟨t3, e5⟩ := run_released (wait := wait) (tmo := tmo) false false 1 rel t2 true h8 h9
  rw [e5, step_drive _ _ _ _ _ h10]
end

/-! ## Driving -/

/-- The samples to come do not ask to stop, the last one having been `pv`. -/
def Goes (pv : Bool) (l : List VData) : Prop :=
  if pv = true then NotAsked l else ∀ d ∈ l, Released d

theorem goes_cons {pv : Bool} {d : VData} {l : List VData} (h : Goes pv (d :: l)) :
    (d.dash.buttonPressed && !pv) = false ∧ Goes d.dash.buttonPressed l := by
  cases pv with
  | false =>
    have h' : ∀ x ∈ d :: l, Released x := h
    have hd : d.dash.buttonPressed = false := h' d (by simp)
    rw [hd]
    exact ⟨rfl, fun x hx => h' x (List.mem_cons_of_mem _ hx)⟩
  | true =>
    have h' : NotAsked (d :: l) := h
    obtain ⟨a, b, e, ha, hb⟩ := h'
    refine ⟨by simp, ?_⟩
    cases a with
    | nil =>
      simp only [List.nil_append] at e
      subst e
      have hd : d.dash.buttonPressed = false := hb d (by simp)
      rw [hd]
      exact fun x hx => hb x (List.mem_cons_of_mem _ hx)
    | cons x a =>
      simp only [List.cons_append, List.cons.injEq] at e
      obtain ⟨rfl, rfl⟩ := e
      have hd : d.dash.buttonPressed = true := ha d (by simp)
      rw [hd]
      exact ⟨a, b, rfl, fun y hy => ha y (List.mem_cons_of_mem _ hy), hb⟩

/-- In drive, nothing left to do. -/
structure Driving (s : St) (pv : Bool) : Prop where
  state : s.mgr.vsm.core.vsmState = .activeForward
  next : s.mgr.vsm.core.nextState = .activeForward
  prev : s.mgr.vsm.core.inputButtonPrev = pv
  calls : s.pending = []
  thr : s.thr.thr = ⟨true, FORWARD⟩
  cmd : s.cmd = ⟨true, false⟩

/-- Where the throttle task is with the pedal value it read last. -/
def Due : Throttle.Pc → Option F32 → Prop
  | .idle, x => x = none
  | .gotAccel a, x => x = some a ∧ F32.IsFloat a
  | .sawEnabled a, x => x = some a ∧ F32.IsFloat a
  | .notForward _, _ => False
  | .computed t, x => ∃ a, x = some a ∧ F32.IsFloat a ∧ t = Throttle.interpolate Throttle.mapForward a

/-- The frame answers the pedal value. -/
def Answers (a : F32) (f : Sent) : Prop := f.msgId = 0x0C0 ∧ Drives a f.bytes

theorem request_answers {a : F32} (ha : F32.IsFloat a) {e : Env} (he : e.lock = true) :
    ∃ st f, Throttle.requestMotorTorque ⟨true, false⟩ e
      ⟨Throttle.interpolate Throttle.mapForward a, FORWARD⟩ = .ok ⟨⟨true, false⟩, [f], st⟩ ∧ Answers a f := by
  obtain ⟨f, h1, h2, -, h3, h4, h5, h6, h7, h8⟩ := Throttle.C136_frame_follows_the_curve ⟨true, FORWARD⟩ a ha
    rfl (.inl rfl) ⟨true, false⟩ rfl e he
  have hc : Throttle.curveOf ⟨true, FORWARD⟩ a = asked a := by
    cases a <;> rfl
  rw [hc] at h3 h4
  exact ⟨_, f, h1, h2, ⟨h6, h5.mpr rfl, h7, h8, h3, h4⟩⟩

/-- One event while driving. -/
theorem driving_step (h0 : FaultMgr.init cfg 10 = .ok m0)
    (hl : inputSamples cfg 10 ≤ 65535) (hlb : bmsSamples cfg 10 ≤ 65535)
    {h : List (Option VData)} {s s' : St} {pv : Bool} {x : Option F32} {l : List VData} {e : Ev}
    {fs : List Sent} (hi : Inv cfg m0 h s) (hs : ∀ x ∈ h, x ≠ none)
    (hh : ¬ DriveFault cfg 10 (h.filterMap id)) (hg : Granted e) (hd : Driving s pv)
    (hgo : Goes pv ((looked s e).toList ++ l)) (hdue : Due s.thr.pc x) (hr : step s e = .ok (s', fs)) :
    ∃ pv' x', Driving s' pv' ∧ Goes pv' l ∧ Due s'.thr.pc x' ∧
      ∃ done, x.toList ++ (pedalRead s e).toList = done ++ x'.toList ∧ List.Forall₂ Answers done fs := by
  have same : ∀ s'' : St, s''.mgr.vsm.core = s.mgr.vsm.core → s''.thr = s.thr →
      s''.cmd = s.cmd → s''.pending = s.pending → looked s e = none → pedalRead s e = none → fs = [] →
      ∃ pv' x', Driving s'' pv' ∧ Goes pv' l ∧ Due s''.thr.pc x' ∧
      ∃ done, x.toList ++ (pedalRead s e).toList = done ++ x'.toList ∧ List.Forall₂ Answers done fs := by
    intro s'' a b c d h1 h2 h3
    rw [h1] at hgo
    rw [h2, h3]
    exact ⟨pv, x, ⟨a ▸ hd.state, a ▸ hd.next, a ▸ hd.prev, d ▸ hd.calls, b ▸ hd.thr, c ▸ hd.cmd⟩, hgo,
      b ▸ hdue, [], by simp, .nil⟩
  by_cases hpc : e.isPc = true
  · obtain ⟨hfs, hsd, -⟩ := pc_step hpc hr
    exact same s' (by rw [hsd.manager]) hsd.throttle hsd.command hsd.pending
      (by cases e <;> first | rfl | cases hpc) (by cases e <;> first | rfl | cases hpc) hfs
  cases e with
  | pcBatch b c => exact absurd rfl hpc
  | pcAct l => exact absurd rfl hpc
  | write v => simp only [step] at hr; cases hr; exact same _ rfl rfl rfl rfl rfl rfl rfl
  | copy ok =>
    simp only [step] at hr
    by_cases hq : s.status = none ∧ s.pending = []
    · rw [if_pos hq] at hr
      split at hr
      · cases hr
      · cases hr; exact same _ rfl rfl rfl rfl rfl rfl rfl
    · rw [if_neg hq] at hr; cases hr; exact same _ rfl rfl rfl rfl rfl rfl rfl
  | call en =>
    simp only [step, hd.calls] at hr
    cases hr; exact same _ rfl rfl rfl rfl rfl rfl rfl
  | handle ok =>
    have : ok = true := hg
    subst this
    simp only [step] at hr
    cases hst : s.status with
    | none =>
      rw [hst] at hr; cases hr
      exact same s rfl rfl rfl rfl (by simp [looked, hst]) rfl rfl
    | some f =>
      rw [hst] at hr
      dsimp only at hr
      rw [if_neg (by simp [hi.i, hi.c, hi.t])] at hr
      have hn := verdict h0 hl hlb hi hs hh hst
      subst hn
      cases hr
      simp only [looked, hst, Option.map_some, Option.toList_some, List.cons_append,
        List.nil_append] at hgo
      obtain ⟨g1, g2⟩ := goes_cons hgo
      have hstep : Vsm.step s.mgr.vsm.core (StateMgr.handlerInput .noFault (some s.vd)) =
          ({ s.mgr.vsm.core with
              inputButtonPrev := s.vd.dash.buttonPressed
              ticksInState := s.mgr.vsm.core.ticksInState + 1 }, []) := by
        rw [← hd.prev] at g1
        simp only [Vsm.step, Vsm.handle, hd.state, Vsm.stateActiveForward, StateMgr.handlerInput, g1,
          Vsm.advance, hd.next]
        simp [hd.state, hd.next]
      rw [if_pos trivial, hstep]
      refine ⟨_, x, ⟨hd.state, hd.next, rfl, rfl, hd.thr, hd.cmd⟩, g2, hdue, [], ?_, .nil⟩
      simp [pedalRead]
  | throttle ok en =>
    obtain ⟨hok, hlk⟩ := hg
    subst hok
    have hlook : looked s (.throttle true en) = none := rfl
    rw [hlook] at hgo
    simp only [step, if_true] at hr
    rcases hthr : s.thr with ⟨t, pc⟩
    have ht : t = ⟨true, FORWARD⟩ := by have := hd.thr; rw [hthr] at this; exact this
    rw [hthr] at hr hdue
    subst ht
    cases pc with
    | idle =>
      simp only [Throttle.step, Drive.issue] at hr
      cases hr
      have hx : x = none := hdue
      subst hx
      refine ⟨pv, some s.vd.inputs.accel, ⟨hd.state, hd.next, hd.prev, hd.calls, rfl, hd.cmd⟩, hgo,
        ⟨rfl, hi.float⟩, [], ?_, .nil⟩
      simp [pedalRead, hthr]
    | gotAccel a =>
      simp only [Throttle.step] at hr
      rw [if_neg (by decide)] at hr
      simp only [Drive.issue] at hr
      cases hr
      refine ⟨pv, x, ⟨hd.state, hd.next, hd.prev, hd.calls, rfl, hd.cmd⟩, hgo, hdue, [], ?_, .nil⟩
      simp [pedalRead, hthr]
    | sawEnabled a =>
      simp only [Throttle.step] at hr
      rw [if_pos trivial] at hr
      simp only [Drive.issue] at hr
      cases hr
      refine ⟨pv, x, ⟨hd.state, hd.next, hd.prev, hd.calls, rfl, hd.cmd⟩, hgo,
        ⟨a, hdue.1, hdue.2, rfl⟩, [], ?_, .nil⟩
      simp [pedalRead, hthr]
    | notForward a => exact absurd hdue (by simp [Due])
    | computed t =>
      obtain ⟨a, rfl, ha, rfl⟩ := hdue
      obtain ⟨st, f, h1, h2⟩ := request_answers ha hlk
      simp only [Throttle.step, Drive.issue, hd.cmd] at hr
      rw [h1] at hr
      dsimp only at hr
      cases hr
      refine ⟨pv, none, ⟨hd.state, hd.next, hd.prev, hd.calls, rfl, rfl⟩, hgo, rfl, [a], ?_,
        .cons h2 .nil⟩
      simp [pedalRead, hthr]

theorem driving_run (h0 : FaultMgr.init cfg 10 = .ok m0)
    (hl : inputSamples cfg 10 ≤ 65535) (hlb : bmsSamples cfg 10 ≤ 65535) :
    ∀ (es : List Ev) (h : List (Option VData)) (s s' : St) (pv : Bool) (x : Option F32) (fs : List Sent),
    Inv cfg m0 h s → (∀ x ∈ h, x ≠ none) →
    ¬ DriveFault cfg 10 ((h ++ copies s es).filterMap id) → (∀ e ∈ es, Granted e) →
    FloatWrites es → Driving s pv → Goes pv (looks s es) → Due s.thr.pc x → run s es = .ok (s', fs) →
    ∃ pv' x', Driving s' pv' ∧ Due s'.thr.pc x' ∧
      ∃ done, x.toList ++ pedals s es = done ++ x'.toList ∧ List.Forall₂ Answers done fs
  | [], h, s, s', pv, x, fs, hi, hs, hh, hg, hfw, hd, hgo, hdue, hr => by
    simp only [run] at hr
    cases hr
    exact ⟨pv, x, hd, hdue, [], by simp [pedals], .nil⟩
  | e :: es, h, s, s', pv, x, fs, hi, hs, hh, hg, hfw, hd, hgo, hdue, hr => by
    obtain ⟨s1, f1, f2, h1, h2, rfl⟩ := run_cons hr
    obtain ⟨i1, -⟩ := step_sim hi (self_rel s) (fun v hv => hfw v (by simp [hv])) h1
    have ec : copies s (e :: es) = (copied s e).toList ++ copies s1 es := by
      simp only [copies, h1]
    have el : looks s (e :: es) = (looked s e).toList ++ looks s1 es := by
      simp only [looks, h1]
    have ep : pedals s (e :: es) = (pedalRead s e).toList ++ pedals s1 es := by
      simp only [pedals, h1]
    rw [el] at hgo
    obtain ⟨pv', x', d1, g1, u1, done1, e1, a1⟩ :=
      driving_step h0 hl hlb hi hs (heal hh) (hg e (by simp)) hd hgo hdue h1
    have hs1 : ∀ x ∈ h ++ (copied s e).toList, x ≠ none := by
      intro x hx
      rcases List.mem_append.mp hx with hx | hx
      · exact hs x hx
      · exact copied_some (hg e (by simp)) x hx
    rw [ec, ← List.append_assoc] at hh
    obtain ⟨pv2, x2, d2, u2, done2, e2, a2⟩ := driving_run h0 hl hlb es _ s1 s' pv' x' f2 i1 hs1 hh
      (fun x hx => hg x (List.mem_cons_of_mem _ hx)) (fun v hv => hfw v (List.mem_cons_of_mem _ hv)) d1 g1
      u1 h2
    refine ⟨pv2, x2, d2, u2, done1 ++ done2, ?_, List.rel_append a1 a2⟩
    rw [ep, ← List.append_assoc, e1, List.append_assoc, e2, List.append_assoc]

variable (cfg : Config) (sm : StateMgr.StateManager) (dec : MsgFrame.Dec) (buf : Nat → UInt8)
  (ecu control : Bool)

/-- **C135.** Take the correctly wired firmware and any history of the vehicle, with the tasks
interleaved at every access to shared data and any traffic from the PC, in which every lock is
granted and the samples copied for the fault checks never amount to a documented drive fault.
Suppose the samples the state manager acts on follow the documented way to drive (`es1`, ending
between two activations of the state manager and of the throttle task), and after that do not ask
to stop (`es2`). Then in `es2` every pedal value the throttle task reads is answered, in order, by
exactly one command frame, and there are no other command frames: it enables the inverter forwards
with the torque of the pedal curve. At the end at most the last reading is still to be answered;
none is if the throttle task is not in the middle of an activation. -/
theorem C135_drives_when_asked
    (hsm : StateMgr.smInit true true true (StateMgr.wired cfg) = .ok (.ok, sm))
    (hl : inputSamples cfg 10 ≤ 65535) (hlb : bmsSamples cfg 10 ≤ 65535)
    (hw : cfg.vcu.hvActiveStateWait.toNat ≤ 4294967290)
    (es1 es2 : List Ev) (s1 s2 : St) (f1 f2 : List Sent)
    (hf : FloatWrites (es1 ++ es2)) (hg : ∀ e ∈ es1 ++ es2, Granted e)
    (h1 : run (start sm dec buf ecu control) es1 = .ok (s1, f1)) (h2 : run s1 es2 = .ok (s2, f2))
    (hh : ¬ DriveFault cfg 10
      ((copies (start sm dec buf ecu control) es1 ++ copies s1 es2).filterMap id))
    (hoff : DriveOff cfg.vcu.hvActiveStateWait.toNat cfg.vcu.hvChargeTimeout.toNat
      (looks (start sm dec buf ecu control) es1))
    (hq : s1.pending = [] ∧ s1.thr.pc = .idle) (hgo : NotAsked (looks s1 es2)) :
    ∃ done rest, pedals s1 es2 = done ++ rest ∧ rest.length ≤ 1 ∧ (s2.thr.pc = .idle → rest = []) ∧
      List.Forall₂ (fun a f => f.msgId = 0x0C0 ∧ Drives a f.bytes) done f2 := by
  obtain ⟨m0, hm0, i0, -⟩ := start_inv cfg sm dec buf ecu control hsm
  have hcore : sm.vsm.core =
      (Vsm.World.start 10 cfg.vcu.hvActiveStateWait cfg.vcu.hvChargeTimeout ecu).vsm := by
    obtain ⟨sm', m0', g1, -, -, g2⟩ := StateMgr.init_wired cfg
    rw [hsm] at g1
    cases g1
    exact congrArg Vsm.World.vsm (g2 (StateMgr.outStart ecu)).2
  have fit0 : Fits (start sm dec buf ecu control)
      (Vsm.World.start 10 cfg.vcu.hvActiveStateWait cfg.vcu.hvChargeTimeout ecu) :=
    ⟨hcore, ⟨false, .forward, ecu, 0⟩, rfl, rfl, rfl⟩
  have hh1 := heal hh
  obtain ⟨i1, g1, fit1⟩ := fits_run hm0 hl hlb es1 [] _ s1 _ f1 i0 (by simp) (by simpa using hh1)
    (fun e he => hg e (by simp [he])) (fun v hv => hf v (by simp [hv])) fit0 h1
  rw [drive_off hw ecu hoff] at fit1
  rw [List.nil_append] at i1 g1
  obtain ⟨hc, o, o1, o2, o3⟩ := fit1
  rw [hq.1] at o3
  simp only [List.foldl_nil] at o3
  subst o3
  have hd : Driving s1 true :=
    ⟨by rw [hc]; rfl, by rw [hc]; rfl, by rw [hc]; rfl, hq.1, o1, by rw [o2]; rfl⟩
  obtain ⟨pv, x, -, hdue, done, e1, a1⟩ := driving_run hm0 hl hlb es2 _ s1 s2 true none f2 i1 g1 hh
    (fun e he => hg e (by simp [he])) (fun v hv => hf v (by simp [hv])) hd hgo (by rw [hq.2]; rfl) h2
  refine ⟨done, x.toList, by simpa using e1, by cases x <;> simp, ?_, a1⟩
  intro hidle
  rw [hidle] at hdue
  have : x = none := hdue
  rw [this]; rfl

/-! ## A drive -/

/-- The samples of `driveOff` follow the documented way, for a wait of 20 ms. -/
example : DriveOff 20 7000
    [sample false 0 0 false, sample false 0 0 false, sample true 0 0 false, sample false 0 0 false,
     sample false 0 0 false, sample false 0 0 false, sample false 5 0 false, sample false 5 0 false,
     sample true 5 1 false] :=
  ⟨sample false 0 0 false, sample false 0 0 false, [], sample true 0 0 false,
    [sample false 0 0 false, sample false 0 0 false, sample false 0 0 false], [], sample false 5 0 false,
    [], [sample false 5 0 false], sample true 5 1 false, rfl, (by simp), rfl, rfl, (by simp),
    (by simp), rfl, (by simp), (by simp), (by intro d hd; simp at hd; subst hd; rfl), rfl⟩

/-- Along it the state manager looks at exactly these samples, copies no fault, and afterwards the
pedal at full, at three quarters and at rest is answered with 500, 250 and 0 Nm, while the button is
held and then released. -/
example :
    (match demoStart with
    | .ok s =>
      match run s driveOff with
      | .ok (a, _) =>
        (looks s driveOff).map (fun d => (d.dash.buttonPressed, d.inverter.vsmState)) ==
          [(false, 0), (false, 0), (true, 0), (false, 0), (false, 0), (false, 0), (false, 5), (false, 5),
           (true, 5)] &&
        a.pending.isEmpty && decide (a.thr.pc = .idle) &&
        (let es := pedal 3 ++ whole (sample true 5 (3/4) false) ++ pedal 3 ++ [.write (sample false 5 0 false)] ++
            pedal 2 ++ whole (sample false 5 0 false) ++ pedal 4
         match run a es with
        | .ok (b, fs) =>
          decide (b.thr.pc = .idle) && fs.map Drive.torqueOf == [5000, 2500, 0] &&
          pedals a es == [.fin 1, .fin (3/4), .fin 0]
        | .error _ => false)
      | .error _ => false
    | .error _ => false) = true := by decide +kernel

end Verif.Vehicle
