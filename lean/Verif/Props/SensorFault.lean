import Verif.Props.PedalCar
import Verif.Props.Response
import Verif.Spec.SensorFault

set_option autoImplicit false

/-!
# C153: from a failed sensor to the end of torque
-/

namespace Verif.SenseCar
open Verif.F32 FaultSpec

variable (cfg : Config)

/-- A condition on the published inputs which readings of the kind `est` bring about and readings of the kind `ok`
do not end. -/
structure Lasting (c : DiscreteSense.Cfg) (Q : Inputs → Prop) (ok est : DiscreteSense.Reads → Prop) : Prop where
  keep : ∀ r d, ok r → Q d.inputs → Q (DiscreteSense.tick c r d).inputs
  set : ∀ r d, ok r → est r → Q (DiscreteSense.tick c r d).inputs

variable {c : DiscreteSense.Cfg} {Q : Inputs → Prop} {ok est : DiscreteSense.Reads → Prop}

theorem lasting_step (hl : Lasting c Q ok est) {s s' : Vehicle.St} {e : Ev} {fs : List InvDrv.Sent}
    (he : ∀ r, e = .sense r → ok r) (hs : Q s.vd.inputs ∨ ∃ r, e = .sense r ∧ est r)
    (h : Vehicle.step s (toVeh c s e) = .ok (s', fs)) : Q s'.vd.inputs := by
  cases e with
  | sense r =>
    simp only [toVeh, Vehicle.step, Except.ok.injEq, Prod.mk.injEq] at h
    rw [← h.1]
    rcases hs with hs | ⟨r', er, hr'⟩
    · exact hl.keep r s.vd (he r rfl) hs
    · cases er; exact hl.set r s.vd (he r rfl) hr'
  | veh e =>
    have hs' : Q s.vd.inputs := by
      rcases hs with hs | ⟨r, er, -⟩
      · exact hs
      · cases er
    by_cases hw : ∃ d, e = .write d
    · obtain ⟨d, rfl⟩ := hw
      simp only [toVeh, Vehicle.step, Except.ok.injEq, Prod.mk.injEq] at h
      rw [← h.1]; exact hs'
    · have hne : ∀ d, e ≠ .write d := fun d hd => hw ⟨d, hd⟩
      have ht : toVeh c s (.veh e) = e := by
        cases e <;> first | rfl | exact absurd rfl (hne _)
      rw [ht] at h
      rw [(Vehicle.step_vd h hne).2]; exact hs'

/-- At every moment of the control software's part of a history, after a reading at `t0` that brings the condition
about, it holds as long as the readings are of the right kind. -/
theorem lasting_at (hl : Lasting c Q ok est) :
    ∀ (H : List (Nat × Ev)) (s : Vehicle.St) (t0 t' : Nat),
      H.Pairwise (fun a b => a.1 ≤ b.1) → During H t0 t' ok →
      ((∃ r, (t0, Ev.sense r) ∈ H ∧ est r) ∨ (Q s.vd.inputs ∧ ∀ x ∈ H, t0 ≤ x.1)) →
      ∀ pre τ e post, timed c s H = pre ++ (τ, e) :: post → t0 < τ → τ < t' →
        ∀ s1 g, Vehicle.run s (Vehicle.events pre) = .ok (s1, g) → Q s1.vd.inputs
  | [], s, t0, t', _, _, _, pre, τ, e, post, hsp, _, _, _, _, _ => by
    cases pre <;> simp [timed] at hsp
  | (u, x) :: H, s, t0, t', ho, hh, hst, pre, τ, e, post, hsp, h1, h2, s1, g, hr => by
    simp only [timed] at hsp
    cases pre with
    | nil =>
      simp only [List.nil_append, List.cons.injEq, Prod.mk.injEq] at hsp
      simp only [Vehicle.events, List.map_nil, Vehicle.run, Except.ok.injEq, Prod.mk.injEq] at hr
      rw [← hr.1]
      rcases hst with ⟨r, hm, -⟩ | ⟨hs, -⟩
      · exfalso
        rcases List.mem_cons.mp hm with hm | hm
        · have := congrArg Prod.fst hm; dsimp only at this; omega
        · have := (List.pairwise_cons.mp ho).1 _ hm; dsimp only at this; omega
      · exact hs
    | cons p pre =>
      simp only [List.cons_append, List.cons.injEq] at hsp
      obtain ⟨rfl, hsp⟩ := hsp
      simp only [Vehicle.events, List.map_cons, Vehicle.run] at hr
      split at hr
      · cases hr
      rename_i s2 f2 hs2
      split at hr
      · cases hr
      rename_i s3 f3 hs3
      cases hr
      rw [hs2] at hsp
      dsimp only at hsp
      have ho' := (List.pairwise_cons.mp ho).2
      have hh' : During H t0 t' ok := fun τ r hm => hh τ r (List.mem_cons_of_mem _ hm)
      have hut : u ≤ τ := by
        have : (τ, e) ∈ timed c s2 H := by rw [hsp]; simp
        obtain ⟨z, hz, he⟩ := timed_times c H s2 _ this
        have := (List.pairwise_cons.mp ho).1 z hz
        dsimp only at this he; omega
      refine lasting_at hl H s2 t0 t' ho' hh' ?_ pre τ e post hsp h1 h2 _ f3 hs3
      have hstep : (t0 ≤ u) → (Q s.vd.inputs ∨ ∃ r, x = .sense r ∧ est r) → Q s2.vd.inputs := fun htu hs =>
        lasting_step hl (fun r hx => hh u r (by rw [hx]; exact List.mem_cons_self) htu (by omega)) hs hs2
      rcases hst with ⟨r, hm, hr⟩ | ⟨hs, hall⟩
      · rcases List.mem_cons.mp hm with hm | hm
        · have e1 : t0 = u := congrArg Prod.fst hm
          have e2 : Ev.sense r = x := congrArg Prod.snd hm
          refine .inr ⟨hstep (by omega) (.inr ⟨r, e2.symm, hr⟩), fun y hy => ?_⟩
          have := (List.pairwise_cons.mp ho).1 y hy
          dsimp only at this; omega
        · exact .inl ⟨r, hm, hr⟩
      · exact .inr ⟨hstep (hall _ List.mem_cons_self) (.inl hs), fun y hy => hall y (List.mem_cons_of_mem _ hy)⟩

/-! ## What readings do to the published inputs -/

theorem unread_raw (s : Sensor) (r : DiscreteSense.Reads) (d : VData) :
    let raw : Inputs → UInt16 := match s with
      | .pedalA => (·.accelRawA) | .pedalB => (·.accelRawB)
      | .brakeFront => (·.brakeRawFront) | .brakeRear => (·.brakeRawRear)
    (s.Read r → raw (DiscreteSense.tick c r d).inputs = (s.of r).2) ∧
    (¬ s.Read r → raw (DiscreteSense.tick c r d).inputs = raw d.inputs) := by
  by_cases hq : r.acquired = true
  · rw [DiscreteSense.tick_eq _ _ _ hq]
    cases s <;> refine ⟨fun h => ?_, fun h => ?_⟩ <;> dsimp only [Sensor.of] <;>
      first
        | exact if_pos h.2
        | exact if_neg fun k => h ⟨hq, k⟩
  · unfold DiscreteSense.tick
    dsimp only
    rw [if_neg hq]
    exact ⟨fun h => absurd h.1 hq, by cases s <;> exact fun _ => rfl⟩

/-- The published value of a sensor. -/
def Sensor.value (i : Inputs) : Sensor → F32
  | .pedalA => i.accelA
  | .pedalB => i.accelB
  | .brakeFront => i.brakePresFront
  | .brakeRear => i.brakePresRear

/-- A sensor that is read is published within a 33-millionth of the part of the travel it shows. -/
theorem read_value (s : Sensor) (hc : (s.cal cfg).rawLower ≠ (s.cal cfg).rawUpper) (r : DiscreteSense.Reads) (d : VData)
    (hr : s.Read r) :
    ∃ q, s.value (DiscreteSense.tick (DiscreteSense.cfgOf cfg) r d).inputs = .fin q ∧ rnd q = q ∧ 0 ≤ q ∧ q ≤ 1 ∧
      |q - max 0 (min 1 (travel (s.cal cfg) (s.of r).2))| ≤ (2 : ℚ) ^ (-25 : ℤ) := by
  rw [DiscreteSense.tick_eq _ _ _ hr.1]
  have key := DiscreteSense.scaled ⟨(s.cal cfg).rawLower, (s.cal cfg).rawUpper, true⟩ hc rfl (s.of r).2
  obtain ⟨q, e, h⟩ := key
  refine ⟨q, ?_, h⟩
  rw [← e]
  cases s <;> exact if_pos hr.2

theorem unread_value (s : Sensor) (r : DiscreteSense.Reads) (d : VData) (hr : ¬ s.Read r) :
    s.value (DiscreteSense.tick c r d).inputs = s.value d.inputs := by
  by_cases hq : r.acquired = true
  · rw [DiscreteSense.tick_eq _ _ _ hq]
    cases s <;> exact if_neg fun k => hr ⟨hq, k⟩
  · unfold DiscreteSense.tick
    dsimp only
    rw [if_neg hq]

/-- The sensor's published value is a number between 0 and 1 and at least this. -/
def Shown (x y : ℚ) (s : Sensor) (i : Inputs) : Prop := ∃ q, s.value i = .fin q ∧ x ≤ q ∧ q ≤ y

theorem shown_high (s : Sensor) (hc : (s.cal cfg).rawLower ≠ (s.cal cfg).rawUpper) {x : ℚ} (h1 : x ≤ 1) :
    Lasting (DiscreteSense.cfgOf cfg) (Shown (x - (2 : ℚ) ^ (-25 : ℤ)) 1 s) (AtLeast cfg x s) s.Read := by
  have set : ∀ r d, AtLeast cfg x s r → s.Read r →
      Shown (x - (2 : ℚ) ^ (-25 : ℤ)) 1 s (DiscreteSense.tick (DiscreteSense.cfgOf cfg) r d).inputs := by
    intro r d hr hs
    obtain ⟨q, e, -, -, q1, hd⟩ := read_value cfg s hc r d hs
    refine ⟨q, e, ?_, q1⟩
    have hx : x ≤ max 0 (min 1 (travel (s.cal cfg) (s.of r).2)) := (le_min h1 (hr hs)).trans (le_max_right _ _)
    have := (abs_le.mp hd).1
    linarith
  refine ⟨fun r d hr hq => ?_, set⟩
  by_cases hs : s.Read r
  · exact set r d hr hs
  · unfold Shown; rw [unread_value s r d hs]; exact hq

theorem shown_low (s : Sensor) (hc : (s.cal cfg).rawLower ≠ (s.cal cfg).rawUpper) {x : ℚ} (h0 : 0 ≤ x) :
    Lasting (DiscreteSense.cfgOf cfg) (Shown 0 (x + (2 : ℚ) ^ (-25 : ℤ)) s) (AtMost cfg x s) s.Read := by
  have set : ∀ r d, AtMost cfg x s r → s.Read r →
      Shown 0 (x + (2 : ℚ) ^ (-25 : ℤ)) s (DiscreteSense.tick (DiscreteSense.cfgOf cfg) r d).inputs := by
    intro r d hr hs
    obtain ⟨q, e, -, q0, -, hd⟩ := read_value cfg s hc r d hs
    refine ⟨q, e, q0, ?_⟩
    have hx : max 0 (min 1 (travel (s.cal cfg) (s.of r).2)) ≤ x := max_le h0 ((min_le_right _ _).trans (hr hs))
    have := (abs_le.mp hd).2
    linarith
  refine ⟨fun r d hr hq => ?_, set⟩
  by_cases hs : s.Read r
  · exact set r d hr hs
  · unfold Shown; rw [unread_value s r d hs]; exact hq

/-- Two lasting conditions together. -/
theorem Lasting.both {Q1 Q2 : Inputs → Prop} {ok1 ok2 est1 est2 : DiscreteSense.Reads → Prop}
    (h1 : Lasting c Q1 ok1 est1) (h2 : Lasting c Q2 ok2 est2) :
    Lasting c (fun i => Q1 i ∧ Q2 i) (fun r => ok1 r ∧ ok2 r) (fun r => est1 r ∧ est2 r) :=
  ⟨fun r d hr hq => ⟨h1.keep r d hr.1 hq.1, h2.keep r d hr.2 hq.2⟩,
   fun r d hr hq => ⟨h1.set r d hr.1 hq.1, h2.set r d hr.2 hq.2⟩⟩

/-- The averaged pedal value is at least this. -/
theorem pedal_high (hc : Calibrated cfg) {x : ℚ} (h1 : x ≤ 1) :
    Lasting (DiscreteSense.cfgOf cfg) (fun i => ∃ q, i.accel = .fin q ∧ x - (2 : ℚ) ^ (-25 : ℤ) ≤ q)
      (fun r => AtLeast cfg x .pedalA r ∧ AtLeast cfg x .pedalB r) Complete := by
  have set : ∀ r d, (AtLeast cfg x .pedalA r ∧ AtLeast cfg x .pedalB r) → Complete r →
      ∃ q, (DiscreteSense.tick (DiscreteSense.cfgOf cfg) r d).inputs.accel = .fin q ∧ x - (2 : ℚ) ^ (-25 : ℤ) ≤ q := by
    intro r d hr hs
    obtain ⟨hq, oa, ob⟩ := hs
    rw [DiscreteSense.tick_eq _ _ _ hq]
    obtain ⟨a, ea, ra, a0, a1, da⟩ := DiscreteSense.scaled (DiscreteSense.cfgOf cfg).accelA hc.a rfl r.accelA.2
    obtain ⟨b, eb, rb, b0, b1, db⟩ := DiscreteSense.scaled (DiscreteSense.cfgOf cfg).accelB hc.b rfl r.accelB.2
    obtain ⟨q, eq, q0, -, -⟩ := DiscreteSense.average a b ra rb a0 a1 b0 b1
    refine ⟨q, ?_, ?_⟩
    · dsimp only
      rw [if_pos ⟨oa, ob⟩, ea, eb]; exact eq
    · have la : x ≤ max 0 (min 1 (Adc.fraction (DiscreteSense.cfgOf cfg).accelA.lower (DiscreteSense.cfgOf cfg).accelA.upper
          r.accelA.2)) := (le_min h1 (hr.1 ⟨hq, oa⟩)).trans (le_max_right _ _)
      have lb : x ≤ max 0 (min 1 (Adc.fraction (DiscreteSense.cfgOf cfg).accelB.lower (DiscreteSense.cfgOf cfg).accelB.upper
          r.accelB.2)) := (le_min h1 (hr.2 ⟨hq, ob⟩)).trans (le_max_right _ _)
      have h1 := (abs_le.mp da).1
      have h2 := (abs_le.mp db).1
      refine (le_min ?_ ?_).trans q0 <;> linarith
  refine ⟨fun r d hr hq => ?_, set⟩
  by_cases hs : Complete r
  · exact set r d hr hs
  · rw [incomplete_same hs d]; exact hq

/-! ## C153 -/

/-- The conditions under which the tasks run: distinct calibration points, a start-up that succeeded, timer interrupts
every `P`, and for `K` periods state manager and throttle task finish each activation before the next one. -/
structure Runs (s0 : Vehicle.St) (P K : Nat) (H : List (Nat × Ev)) : Prop where
  ordered : H.Pairwise (fun a b => a.1 ≤ b.1)
  within : ∀ x ∈ H, x.1 < K * P
  defined : ∃ s fs, Vehicle.run s0 (Vehicle.events (timed (DiscreteSense.cfgOf cfg) s0 H)) = .ok (s, fs)
  keepsUp : Vehicle.KeepsUp P K s0 (timed (DiscreteSense.cfgOf cfg) s0 H)

variable {cfg}

theorem torque_ends {bad : VData → Prop} (hbad : Vehicle.Documented cfg bad (inputSamples cfg 10))
    (hl : Lasting (DiscreteSense.cfgOf cfg) Q ok est) (hQ : ∀ d : VData, Q d.inputs → bad d)
    {sm : StateMgr.StateManager} {dec : MsgFrame.Dec} {buf : Nat → UInt8} {ecu control : Bool}
    (hsm : StateMgr.smInit true true true (StateMgr.wired cfg) = .ok (.ok, sm))
    (hli : inputSamples cfg 10 ≤ 65535) (hlb : bmsSamples cfg 10 ≤ 65535)
    {P K : Nat} (hP : 0 < P) {H : List (Nat × Ev)}
    (hr : Runs cfg (Vehicle.start sm dec buf ecu control) P K H)
    {t0 : Nat} (ht : P ≤ t0) {r : DiscreteSense.Reads} (hm : (t0, Ev.sense r) ∈ H) (he : est r)
    (hd : During H t0 (t0 + 1 + (inputSamples cfg 10 + 1) * P) ok) :
    ∀ x ∈ Vehicle.frames (Vehicle.start sm dec buf ecu control)
      (timed (DiscreteSense.cfgOf cfg) (Vehicle.start sm dec buf ecu control) H),
      t0 + 1 + (inputSamples cfg 10 + 2) * P ≤ x.1 → Drive.torqueOf x.2 = 0 := by
  refine Vehicle.C123_torque_ends_in_time cfg sm dec buf ecu control hsm hli hlb P K hP _
    (timed_ordered _ H _ hr.ordered) (fun x hx => ?_)
    (timed_floats _ H _ (show F32.IsFloat (.fin 0) from ⟨by decide +kernel, by norm_num⟩)) hr.defined hr.keepsUp
    bad _ hbad (t0 + 1) (by omega) ?_
  · obtain ⟨z, hz, e⟩ := timed_times _ H _ x hx
    rw [← e]; exact hr.within z hz
  · intro pre τ e post hsp a1 a2 s1 g hrun
    exact hQ _ (lasting_at hl H _ t0 _ hr.ordered hd (.inl ⟨r, hm, he⟩) pre τ e post hsp (by omega) a2 s1 g hrun)

variable (cfg) (sm : StateMgr.StateManager) (dec : MsgFrame.Dec) (buf : Nat → UInt8) (ecu control : Bool)

/-- **C153, a sensor out of range.** Sensor task, state manager, throttle task and all other tasks from start-up. At
`t0` the sensor task reads a pedal or brake sensor and finds it outside its calibrated range; as long as `n + 1`
periods, where `n` is the number of samples that fit the configured time, it finds it there whenever it can read it. Then
every command frame from `n + 2` periods after `t0` on has torque zero. -/
theorem C153_out_of_range
    (hsm : StateMgr.smInit true true true (StateMgr.wired cfg) = .ok (.ok, sm))
    (hli : inputSamples cfg 10 ≤ 65535) (hlb : bmsSamples cfg 10 ≤ 65535)
    (P K : Nat) (hP : 0 < P) (H : List (Nat × Ev))
    (hr : Runs cfg (Vehicle.start sm dec buf ecu control) P K H)
    (s : Sensor) (t0 : Nat) (ht : P ≤ t0) (r : DiscreteSense.Reads) (hm : (t0, Ev.sense r) ∈ H) (he : s.Read r)
    (hd : During H t0 (t0 + 1 + (inputSamples cfg 10 + 1) * P) (OutOfRange cfg s)) :
    ∀ x ∈ Vehicle.frames (Vehicle.start sm dec buf ecu control)
      (timed (DiscreteSense.cfgOf cfg) (Vehicle.start sm dec buf ecu control) H),
      t0 + 1 + (inputSamples cfg 10 + 2) * P ≤ x.1 → Drive.torqueOf x.2 = 0 := by
  have lasting : ∀ (s : Sensor), Lasting (DiscreteSense.cfgOf cfg)
      (fun i => outside (s.cal cfg) ((match s with
      | .pedalA => (·.accelRawA) | .pedalB => (·.accelRawB)
      | .brakeFront => (·.brakeRawFront) | .brakeRear => (·.brakeRawRear) : Inputs → UInt16) i)) (OutOfRange cfg s) s.Read := by
    intro s
    refine ⟨fun r d hr hq => ?_, fun r d hr hs => ?_⟩
    · by_cases hs : s.Read r
      · rw [(unread_raw s r d).1 hs]; exact hr hs
      · rw [(unread_raw s r d).2 hs]; exact hq
    · rw [(unread_raw s r d).1 hs]; exact hr hs
  cases s with
  | pedalA => exact torque_ends .accelRange (lasting .pedalA) (fun d h => .inl h) hsm hli hlb hP hr ht hm he hd
  | pedalB => exact torque_ends .accelRange (lasting .pedalB) (fun d h => .inr h) hsm hli hlb hP hr ht hm he hd
  | brakeFront => exact torque_ends .brakeRange (lasting .brakeFront) (fun d h => .inl h) hsm hli hlb hP hr ht hm he hd
  | brakeRear => exact torque_ends .brakeRange (lasting .brakeRear) (fun d h => .inr h) hsm hli hlb hP hr ht hm he hd

/-- **C153, the pedal sensors disagree.** The same if the two pedal sensors show parts of their travels that lie apart
by more than the configured limit (with an allowance of an eight-millionth for rounding): one, `s`, always at least
`y`, the other at most `x`. -/
theorem C153_sensors_apart
    (hsm : StateMgr.smInit true true true (StateMgr.wired cfg) = .ok (.ok, sm)) (hc : Calibrated cfg)
    (hli : inputSamples cfg 10 ≤ 65535) (hlb : bmsSamples cfg 10 ≤ 65535)
    (P K : Nat) (hP : 0 < P) (H : List (Nat × Ev))
    (hr : Runs cfg (Vehicle.start sm dec buf ecu control) P K H)
    (lim : ℚ) (hlim : cfg.inputs.accelPedal.consistencyLimit = .fin lim)
    (hl0 : 0 ≤ lim) (x y : ℚ) (hx : 0 ≤ x) (hy : y ≤ 1) (hxy : x + lim + (2 : ℚ) ^ (-23 : ℤ) ≤ y)
    (s o : Sensor) (hso : (s = .pedalA ∧ o = .pedalB) ∨ (s = .pedalB ∧ o = .pedalA))
    (t0 : Nat) (ht : P ≤ t0) (r : DiscreteSense.Reads) (hm : (t0, Ev.sense r) ∈ H) (he : Complete r)
    (hd : During H t0 (t0 + 1 + (inputSamples cfg 10 + 1) * P) (fun r => AtLeast cfg y s r ∧ AtMost cfg x o r)) :
    ∀ x ∈ Vehicle.frames (Vehicle.start sm dec buf ecu control)
      (timed (DiscreteSense.cfgOf cfg) (Vehicle.start sm dec buf ecu control) H),
      t0 + 1 + (inputSamples cfg 10 + 2) * P ≤ x.1 → Drive.torqueOf x.2 = 0 := by
  have apart : ∀ a b : ℚ, y - (2 : ℚ) ^ (-25 : ℤ) ≤ a → a ≤ 1 → 0 ≤ b → b ≤ x + (2 : ℚ) ^ (-25 : ℤ) →
      |a - b| ≤ 2 ^ 24 ∧ lim < |rnd (a - b)| := by
    intro a b h1 h2 h3 h4
    have p23 : (2 : ℚ) ^ (-23 : ℤ) = 4 * (2 : ℚ) ^ (-25 : ℤ) := by norm_num
    have pos : (0 : ℚ) < (2 : ℚ) ^ (-25 : ℤ) := by norm_num
    rw [p23] at hxy
    generalize hε : (2 : ℚ) ^ (-25 : ℤ) = ε at *
    have e1 : |a - b| ≤ (2 : ℚ) ^ (0 : ℤ) := by
      rw [abs_of_nonneg (by linarith)]; norm_num; linarith
    have e2 := (abs_le.mp (rnd_err_le e1 (by norm_num))).1
    rw [show (0 - 25 : ℤ) = -25 by norm_num, hε] at e2
    refine ⟨e1.trans (by norm_num), ?_⟩
    exact lt_of_lt_of_le (by linarith) (le_abs_self _)
  have key : ∀ d : VData, (Shown (y - (2 : ℚ) ^ (-25 : ℤ)) 1 s d.inputs ∧ Shown 0 (x + (2 : ℚ) ^ (-25 : ℤ)) o d.inputs) →
      accelDisagree cfg d := by
    rintro d ⟨⟨a, ea, a1, a2⟩, b, eb, b1, b2⟩
    obtain ⟨h1, h2⟩ := apart a b a1 a2 b1 b2
    unfold accelDisagree
    rw [hlim]
    rcases hso with ⟨rfl, rfl⟩ | ⟨rfl, rfl⟩
    · simp only [Sensor.value] at ea eb
      rw [ea, eb]
      simp only [F32.sub, F32.neg, F32.add, ← sub_eq_add_neg]
      rw [F32.round_eq h1]
      simpa [F32.abs, F32.lt] using h2
    · simp only [Sensor.value] at ea eb
      rw [ea, eb]
      simp only [F32.sub, F32.neg, F32.add, ← sub_eq_add_neg]
      rw [F32.round_eq (by rw [abs_sub_comm]; exact h1), ← neg_sub a b, rnd_neg]
      simpa [F32.abs, F32.lt] using h2
  have hcs : (s.cal cfg).rawLower ≠ (s.cal cfg).rawUpper ∧ (o.cal cfg).rawLower ≠ (o.cal cfg).rawUpper ∧
      s.Read r ∧ o.Read r := by
    rcases hso with ⟨rfl, rfl⟩ | ⟨rfl, rfl⟩
    · exact ⟨hc.a, hc.b, ⟨he.1, he.2.1⟩, he.1, he.2.2⟩
    · exact ⟨hc.b, hc.a, ⟨he.1, he.2.2⟩, he.1, he.2.1⟩
  exact torque_ends .accelDisagree ((shown_high cfg s hcs.1 hy).both (shown_low cfg o hcs.2.1 hx)) key hsm hli hlb hP hr ht
    hm hcs.2.2 hd

/-- **C153, both pedals.** The same, where the configuration asks for this check, if both pedal sensors and the front
brake sensor show more than the configured thresholds (with an allowance of a 16-millionth of the travel). -/
theorem C153_both_pedals
    (hsm : StateMgr.smInit true true true (StateMgr.wired cfg) = .ok (.ok, sm)) (hc : Calibrated cfg)
    (hcf : cfg.inputs.brakePressureFront.rawLower ≠ cfg.inputs.brakePressureFront.rawUpper)
    (hon : cfg.inputs.pedalAbuseCheckEnabled = 1)
    (hli : inputSamples cfg 10 ≤ 65535) (hlb : bmsSamples cfg 10 ≤ 65535)
    (P K : Nat) (hP : 0 < P) (H : List (Nat × Ev))
    (hr : Runs cfg (Vehicle.start sm dec buf ecu control) P K H)
    (ta tb : ℚ) (hta : cfg.inputs.pedalAbuseAccelThreshold = .fin ta) (htb : cfg.inputs.pedalAbuseBrakeThreshold = .fin tb)
    (ha : ta + (2 : ℚ) ^ (-24 : ℤ) ≤ 1) (hb : tb + (2 : ℚ) ^ (-24 : ℤ) ≤ 1)
    (t0 : Nat) (ht : P ≤ t0) (r : DiscreteSense.Reads) (hm : (t0, Ev.sense r) ∈ H) (he : Complete r)
    (heb : Sensor.brakeFront.Read r)
    (hd : During H t0 (t0 + 1 + (inputSamples cfg 10 + 1) * P) (fun r =>
      (AtLeast cfg (ta + (2 : ℚ) ^ (-24 : ℤ)) .pedalA r ∧ AtLeast cfg (ta + (2 : ℚ) ^ (-24 : ℤ)) .pedalB r) ∧
      AtLeast cfg (tb + (2 : ℚ) ^ (-24 : ℤ)) .brakeFront r)) :
    ∀ x ∈ Vehicle.frames (Vehicle.start sm dec buf ecu control)
      (timed (DiscreteSense.cfgOf cfg) (Vehicle.start sm dec buf ecu control) H),
      t0 + 1 + (inputSamples cfg 10 + 2) * P ≤ x.1 → Drive.torqueOf x.2 = 0 := by
  refine torque_ends .pedalAbuse ((pedal_high cfg hc ha).both (shown_high cfg .brakeFront hcf hb)) ?_ hsm hli hlb hP hr ht
    hm ⟨he, heb⟩ hd
  rintro d ⟨⟨a, ea, a1⟩, b, eb, b1, -⟩
  have p24 : (2 : ℚ) ^ (-24 : ℤ) = 2 * (2 : ℚ) ^ (-25 : ℤ) := by norm_num
  have pos : (0 : ℚ) < (2 : ℚ) ^ (-25 : ℤ) := by norm_num
  rw [p24] at a1 b1
  simp only [Sensor.value] at eb
  refine ⟨hon, ?_, ?_⟩
  · rw [hta, ea]; simp only [F32.lt, decide_eq_true_eq]; linarith
  · rw [htb, eb]; simp only [F32.lt, decide_eq_true_eq]; linarith

/-! ## A drive in which a sensor wire breaks -/

/-- The default configuration with shorter times, the check of both pedals, and a front brake sensor that reads 100 to
4000. -/
def shortCfg : Config :=
  { Config.default with
    vcu := ⟨20, 7000⟩
    inputs := { Config.default.inputs with invalidDataTimeout := 20, pedalAbuseCheckEnabled := 1, brakePressureFront := ⟨100, 4000⟩ } }

/-- From power-up with it. -/
def shortStart : C Vehicle.St :=
  (StateMgr.smInit true true true (StateMgr.wired shortCfg)).map
    fun r => Vehicle.start r.2 ⟨19, 0, 0, 1024, fun _ => 0⟩ (fun _ => 0) false true

/-- A period with these raw values of the pedal sensors and the front brake sensor. -/
def periodOf (k n : Nat) (a b f : UInt16) (button : Bool) (inv : UInt8) : List (Nat × Ev) :=
  (10000 * k, .sense ⟨(.ok, a), (.ok, b), (.ok, f), (.ok, 0), button, true⟩) ::
    (Vehicle.busy k n (Vehicle.sample false inv 0 false)).map fun x => (x.1, .veh x.2)

/-- Start-up, two periods of driving, and then these raw values; `m` is the number of periods after which torque ends. -/
def driveThen (m : Nat) (a b f : UInt16) : List (Nat × Ev) :=
  (List.range 9).flatMap (fun k => periodOf k 3 0 0 200 (k == 2 || k == 8) (if k < 6 then 0 else 5)) ++
  periodOf 9 4 2000 2000 200 false 5 ++ periodOf 10 4 2000 2000 200 false 5 ++
  (List.range 6).flatMap (fun k => periodOf (11 + k) (if k < m then 4 else 3) a b f false 5)

/-- The torque of the last six periods, if the tasks kept up. -/
def torques (m : Nat) (a b f : UInt16) : List Nat :=
  match shortStart with
  | .ok s =>
    let H := timed (DiscreteSense.cfgOf shortCfg) s (driveThen m a b f)
    if Vehicle.checkKeepsUp s H 17 then
      ((Vehicle.frames s H).map fun (x : Nat × InvDrv.Sent) => Drive.torqueOf x.2).drop 7
    else []
  | .error _ => []

/-- Without a fault torque goes on. -/
example : torques 6 2000 2000 200 = [971, 971, 971, 971, 971, 971] := by decide +kernel
/-- The brake sensor's wire breaks: three samples, and torque ends. -/
example : torques 4 2000 2000 0 = [971, 971, 971, 971, 0, 0] := by decide +kernel
/-- One pedal sensor falls to the end of its travel. -/
example : torques 4 2000 0 200 = [360, 360, 360, 360, 0, 0] := by decide +kernel
/-- The driver presses both pedals. -/
example : torques 4 2000 2000 2000 = [971, 971, 971, 971, 0, 0] := by decide +kernel
/-- The conditions on the configuration. -/
example : inputSamples shortCfg 10 = 3 ∧ bmsSamples shortCfg 10 ≤ 65535 ∧ Calibrated shortCfg :=
  ⟨by decide, by decide, by decide, by decide⟩
/-- As shipped a fault counts after eleven samples: torque ends within 13 periods, 130 ms. -/
example : inputSamples Config.default 10 + 2 = 13 := by decide

end Verif.SenseCar
