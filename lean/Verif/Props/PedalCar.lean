import Verif.Props.SenseCar
import Verif.Props.Fresh

set_option autoImplicit false

/-!
# C144: from the pedal sensors to the torque on the bus
-/

namespace Verif.SenseCar
open Verif.F32

variable (cfg : Config)

/-- The pedal value in the data is at most this. -/
def Under (lim : ℚ) (d : VData) : Prop := ∃ q, d.inputs.accel = .fin q ∧ q ≤ lim

/-- The calibration points are distinct. -/
structure Calibrated : Prop where
  a : cfg.inputs.accelPedal.calibrationA.rawLower ≠ cfg.inputs.accelPedal.calibrationA.rawUpper
  b : cfg.inputs.accelPedal.calibrationB.rawLower ≠ cfg.inputs.accelPedal.calibrationB.rawUpper

/-- A complete reading below the limit puts the pedal value below it. -/
theorem complete_under {cfg : Config} (hc : Calibrated cfg) {lim : ℚ} (h0 : 0 ≤ lim) {r : DiscreteSense.Reads}
    (hr : Complete r) (ha : travel cfg.inputs.accelPedal.calibrationA r.accelA.2 ≤ lim)
    (hb : travel cfg.inputs.accelPedal.calibrationB r.accelB.2 ≤ lim) (d : VData) :
    Under (lim + (2 : ℚ) ^ (-25 : ℤ)) (DiscreteSense.tick (DiscreteSense.cfgOf cfg) r d) := by
  obtain ⟨hq, oa, ob⟩ := hr
  rw [DiscreteSense.tick_eq _ _ _ hq]
  obtain ⟨a, ea, ra, a0, a1, da⟩ := DiscreteSense.scaled (DiscreteSense.cfgOf cfg).accelA hc.a rfl r.accelA.2
  obtain ⟨b, eb, rb, b0, b1, db⟩ := DiscreteSense.scaled (DiscreteSense.cfgOf cfg).accelB hc.b rfl r.accelB.2
  obtain ⟨q, eq, -, q1, -⟩ := DiscreteSense.average a b ra rb a0 a1 b0 b1
  refine ⟨q, ?_, ?_⟩
  · dsimp only
    rw [if_pos ⟨oa, ob⟩, ea, eb]; exact eq
  · have la : max 0 (min 1 (Adc.fraction (DiscreteSense.cfgOf cfg).accelA.lower (DiscreteSense.cfgOf cfg).accelA.upper
        r.accelA.2)) ≤ lim := max_le h0 ((min_le_right _ _).trans ha)
    have lb : max 0 (min 1 (Adc.fraction (DiscreteSense.cfgOf cfg).accelB.lower (DiscreteSense.cfgOf cfg).accelB.upper
        r.accelB.2)) ≤ lim := max_le h0 ((min_le_right _ _).trans hb)
    have h1 := (abs_le.mp da).2
    have h2 := (abs_le.mp db).2
    refine q1.trans (max_le ?_ ?_) <;> linarith

/-- A reading that is not complete leaves the pedal value. -/
theorem incomplete_same {c : DiscreteSense.Cfg} {r : DiscreteSense.Reads} (hr : ¬ Complete r) (d : VData) :
    (DiscreteSense.tick c r d).inputs.accel = d.inputs.accel := by
  by_cases hq : r.acquired = true
  · rw [DiscreteSense.tick_eq _ _ _ hq]
    dsimp only
    rw [if_neg (fun h => hr ⟨hq, h.1, h.2⟩)]
  · unfold DiscreteSense.tick
    dsimp only
    rw [if_neg hq]

/-- Steps during which the pedal is held keep its value below the limit. -/
theorem under_step {cfg : Config} (hc : Calibrated cfg) {lim : ℚ} (h0 : 0 ≤ lim) {s s' : Vehicle.St} {e : Ev}
    {fs : List InvDrv.Sent}
    (he : ∀ r, e = .sense r → Complete r → travel cfg.inputs.accelPedal.calibrationA r.accelA.2 ≤ lim ∧
      travel cfg.inputs.accelPedal.calibrationB r.accelB.2 ≤ lim)
    (hs : Under (lim + (2 : ℚ) ^ (-25 : ℤ)) s.vd ∨ ∃ r, e = .sense r ∧ Complete r)
    (h : Vehicle.step s (toVeh (DiscreteSense.cfgOf cfg) s e) = .ok (s', fs)) :
    Under (lim + (2 : ℚ) ^ (-25 : ℤ)) s'.vd := by
  cases e with
  | sense r =>
    simp only [toVeh, Vehicle.step, Except.ok.injEq, Prod.mk.injEq] at h
    rw [← h.1]
    by_cases hr : Complete r
    · exact complete_under hc h0 hr (he r rfl hr).1 (he r rfl hr).2 s.vd
    · rcases hs with ⟨q, e1, e2⟩ | ⟨r', er, hr'⟩
      · exact ⟨q, (incomplete_same hr s.vd).trans e1, e2⟩
      · cases er; exact absurd hr' hr
  | veh e =>
    have hs' : Under (lim + (2 : ℚ) ^ (-25 : ℤ)) s.vd := by
      rcases hs with hs | ⟨r, er, -⟩
      · exact hs
      · cases er
    obtain ⟨q, e1, e2⟩ := hs'
    refine ⟨q, ?_, e2⟩
    by_cases hw : ∃ d, e = .write d
    · obtain ⟨d, rfl⟩ := hw
      simp only [toVeh, Vehicle.step, Except.ok.injEq, Prod.mk.injEq] at h
      rw [← h.1]; exact e1
    · have hne : ∀ d, e ≠ .write d := fun d hd => hw ⟨d, hd⟩
      have ht : toVeh (DiscreteSense.cfgOf cfg) s (.veh e) = e := by
        cases e <;> first | rfl | exact absurd rfl (hne _)
      rw [ht] at h
      rw [(Vehicle.step_vd h hne).2]; exact e1

/-- At every moment of the control software's part of a history, after a complete reading at `t0`, the pedal value is
below the limit as long as the pedal is held. -/
theorem under_at {cfg : Config} (hc : Calibrated cfg) {lim : ℚ} (h0 : 0 ≤ lim) :
    ∀ (H : List (Nat × Ev)) (s : Vehicle.St) (t t0 t' : Nat), t ≤ t0 →
      H.Pairwise (fun a b => a.1 ≤ b.1) → Held cfg lim t t' H →
      ((∃ r, (t0, Ev.sense r) ∈ H ∧ Complete r) ∨
        (Under (lim + (2 : ℚ) ^ (-25 : ℤ)) s.vd ∧ ∀ x ∈ H, t ≤ x.1)) →
      ∀ pre τ e post, timed (DiscreteSense.cfgOf cfg) s H = pre ++ (τ, e) :: post → t0 < τ → τ < t' →
        ∀ s1 g, Vehicle.run s (Vehicle.events pre) = .ok (s1, g) → Under (lim + (2 : ℚ) ^ (-25 : ℤ)) s1.vd
  | [], s, t, t0, t', _, _, _, _, pre, τ, e, post, hsp, _, _, _, _, _ => by
    cases pre <;> simp [timed] at hsp
  | (u, x) :: H, s, t, t0, t', htt, ho, hh, hst, pre, τ, e, post, hsp, h1, h2, s1, g, hr => by
    simp only [timed] at hsp
    cases pre with
    | nil =>
      simp only [List.nil_append, List.cons.injEq, Prod.mk.injEq] at hsp
      simp only [Vehicle.events, List.map_nil, Vehicle.run, Except.ok.injEq, Prod.mk.injEq] at hr
      rw [← hr.1]
      rcases hst with ⟨r, hm, -⟩ | ⟨hs, -⟩
      · exfalso
        rcases List.mem_cons.mp hm with hm | hm
        · have := congrArg Prod.fst hm; dsimp only at this; omega
        · have := (List.pairwise_cons.mp ho).1 _ hm; dsimp only at this; omega
      · exact hs
    | cons p pre =>
      simp only [List.cons_append, List.cons.injEq] at hsp
      obtain ⟨rfl, hsp⟩ := hsp
      simp only [Vehicle.events, List.map_cons, Vehicle.run] at hr
      split at hr
      · cases hr
      rename_i s2 f2 hs2
      split at hr
      · cases hr
      rename_i s3 f3 hs3
      cases hr
      rw [hs2] at hsp
      dsimp only at hsp
      have ho' := (List.pairwise_cons.mp ho).2
      have hh' : Held cfg lim t t' H := fun τ r hm => hh τ r (List.mem_cons_of_mem _ hm)
      have hut : u ≤ τ := by
        have : (τ, e) ∈ timed (DiscreteSense.cfgOf cfg) s2 H := by rw [hsp]; simp
        have key : ∀ (H : List (Nat × Ev)) (s : Vehicle.St), ∀ y ∈ timed (DiscreteSense.cfgOf cfg) s H, ∃ z ∈ H, z.1 = y.1 := by
          intro H
          induction H with
          | nil => intro s y hy; simp [timed] at hy
          | cons a H ih =>
            intro s y hy
            obtain ⟨a1, a2⟩ := a
            simp only [timed] at hy
            rcases List.mem_cons.mp hy with rfl | hy
            · exact ⟨_, List.mem_cons_self, rfl⟩
            · split at hy
              · cases hy
              · obtain ⟨z, hz, he⟩ := ih _ y hy
                exact ⟨z, List.mem_cons_of_mem _ hz, he⟩
        obtain ⟨z, hz, he⟩ := key H s2 _ this
        have := (List.pairwise_cons.mp ho).1 z hz
        dsimp only at this he; omega
      refine under_at hc h0 H s2 t t0 t' htt ho' hh' ?_ pre τ e post hsp h1 h2 _ f3 hs3
      -- the state after this event
      have hstep : (t ≤ u) → (Under (lim + (2 : ℚ) ^ (-25 : ℤ)) s.vd ∨ ∃ r, x = .sense r ∧ Complete r) →
          Under (lim + (2 : ℚ) ^ (-25 : ℤ)) s2.vd := fun htu hs =>
        under_step hc h0 (fun r hx hr => hh u r (by rw [hx]; exact List.mem_cons_self) htu (by omega) hr) hs hs2
      rcases hst with ⟨r, hm, hr⟩ | ⟨hs, hall⟩
      · rcases List.mem_cons.mp hm with hm | hm
        · have e1 : t0 = u := congrArg Prod.fst hm
          have e2 : Ev.sense r = x := congrArg Prod.snd hm
          refine .inr ⟨hstep (by omega) (.inr ⟨r, e2.symm, hr⟩), fun y hy => ?_⟩
          have := (List.pairwise_cons.mp ho).1 y hy
          dsimp only at this; omega
        · exact .inl ⟨r, hm, hr⟩
      · exact .inr ⟨hstep (hall _ List.mem_cons_self) (.inl hs), fun y hy => hall y (List.mem_cons_of_mem _ hy)⟩

theorem timed_times (c : DiscreteSense.Cfg) : ∀ (H : List (Nat × Ev)) (s : Vehicle.St), ∀ y ∈ timed c s H, ∃ z ∈ H, z.1 = y.1
  | [], s, y, hy => by simp [timed] at hy
  | (a1, a2) :: H, s, y, hy => by
    simp only [timed] at hy
    rcases List.mem_cons.mp hy with rfl | hy
    · exact ⟨_, List.mem_cons_self, rfl⟩
    · split at hy
      · cases hy
      · obtain ⟨z, hz, he⟩ := timed_times c H _ y hy
        exact ⟨z, List.mem_cons_of_mem _ hz, he⟩

theorem timed_ordered (c : DiscreteSense.Cfg) : ∀ (H : List (Nat × Ev)) (s : Vehicle.St),
    H.Pairwise (fun a b => a.1 ≤ b.1) → Vehicle.Ordered (timed c s H)
  | [], s, _ => List.Pairwise.nil
  | (a1, a2) :: H, s, ho => by
    have h1 := List.pairwise_cons.mp ho
    simp only [timed]
    split
    · exact List.pairwise_singleton _ _
    · refine List.pairwise_cons.mpr ⟨fun y hy => ?_, timed_ordered c H _ h1.2⟩
      obtain ⟨z, hz, he⟩ := timed_times c H _ y hy
      have := h1.1 z hz
      dsimp only at this ⊢; omega

theorem timed_floats (c : DiscreteSense.Cfg) : ∀ (H : List (Nat × Ev)) (s : Vehicle.St), F32.IsFloat s.vd.inputs.accel →
    Vehicle.FloatWrites (Vehicle.events (timed c s H))
  | [], s, _ => fun d hd => by simp [timed, Vehicle.events] at hd
  | (a, e) :: H, s, hf => by
    have hw : ∀ d, toVeh c s e = .write d → F32.IsFloat d.inputs.accel := by
      intro d hd
      cases e with
      | sense r =>
        simp only [toVeh, Vehicle.Ev.write.injEq] at hd
        rw [← hd]; exact tick_float c r s.vd hf
      | veh e =>
        cases e with
        | write d' =>
          simp only [toVeh, Vehicle.Ev.write.injEq] at hd
          rw [← hd]; exact hf
        | _ => simp [toVeh] at hd
    intro d hd
    simp only [timed, Vehicle.events, List.map_cons] at hd
    rcases List.mem_cons.mp hd with hd | hd
    · exact hw d hd.symm
    · cases hs : Vehicle.step s (toVeh c s e) with
      | error u => rw [hs] at hd; cases hd
      | ok r =>
        obtain ⟨s1, f1⟩ := r
        rw [hs] at hd
        refine timed_floats c H s1 ?_ d hd
        by_cases hx : ∃ d, toVeh c s e = .write d
        · obtain ⟨d, hd⟩ := hx
          rw [hd] at hs
          simp only [Vehicle.step, Except.ok.injEq, Prod.mk.injEq] at hs
          rw [← hs.1]; exact hw d hd
        · rw [(Vehicle.step_vd hs (fun d hd => hx ⟨d, hd⟩)).2]; exact hf

/-- **C144.** Sensor task, state manager, throttle task and all other tasks, from start-up, with the timer interrupts
every `P` and the throttle task finishing each activation before the next one.  From time `t` on until `t'` the driver
holds the pedal so that neither sensor reads more than the part `lim` of its calibrated travel, and at some time `t0`
in between the sensor task reads both successfully.  Then every command frame later than `t0 + P` and before
`t'` asks for at most the torque the documented curve gives for `lim`, up to the rounding of the calibration (a
33-millionth of the travel) and of the frame. -/
theorem C144_pedal_to_bus (sm : StateMgr.StateManager) (dec : MsgFrame.Dec) (buf : Nat → UInt8)
    (ecu control : Bool) (hsm : StateMgr.smInit true true true (StateMgr.wired cfg) = .ok (.ok, sm)) (hc : Calibrated cfg)
    (P : Nat) (hP : 0 < P) (H : List (Nat × Ev)) (ho : H.Pairwise (fun a b => a.1 ≤ b.1))
    (hk : Vehicle.ThrottleKeepsUp P (Vehicle.start sm dec buf ecu control)
      (timed (DiscreteSense.cfgOf cfg) (Vehicle.start sm dec buf ecu control) H))
    (lim : ℚ) (h0 : 0 ≤ lim) (h1 : lim + (2 : ℚ) ^ (-25 : ℤ) ≤ 1) (t t0 t' : Nat) (ht : t ≤ t0)
    (hheld : Held cfg lim t t' H) (r : DiscreteSense.Reads) (hr : (t0, Ev.sense r) ∈ H) (hcr : Complete r)
    (x : Nat × InvDrv.Sent)
    (hx : x ∈ Vehicle.frames (Vehicle.start sm dec buf ecu control)
      (timed (DiscreteSense.cfgOf cfg) (Vehicle.start sm dec buf ecu control) H))
    (hx1 : t0 + P < x.1) (hx2 : x.1 < t') :
    (Drive.torqueOf x.2 : ℚ) ≤ 10 * Pedal.forward (lim + (2 : ℚ) ^ (-25 : ℤ)) + 2/100 := by
  refine Vehicle.C138_easing_off cfg sm dec buf ecu control hsm P hP _ (timed_ordered _ H _ ho)
    (timed_floats _ H _ (show F32.IsFloat (.fin 0) from ⟨by decide +kernel, by norm_num⟩)) hk _ h1 (t0 + 1) t' ?_ x hx
    (by omega) hx2
  intro pre τ e post hsp a1 a2 s1 g hrun q hq
  obtain ⟨q', e1, e2⟩ := under_at hc h0 H _ t t0 t' ht ho hheld (.inl ⟨r, hr, hcr⟩) pre τ e post hsp (by omega) a2 s1 g hrun
  rw [hq] at e1
  cases e1; exact e2

/-- **C144, released.** With the pedal held within the first 9.9 % of its travel there is no torque from then on. -/
theorem C144_released (sm : StateMgr.StateManager) (dec : MsgFrame.Dec) (buf : Nat → UInt8)
    (ecu control : Bool) (hsm : StateMgr.smInit true true true (StateMgr.wired cfg) = .ok (.ok, sm)) (hc : Calibrated cfg)
    (P : Nat) (hP : 0 < P) (H : List (Nat × Ev)) (ho : H.Pairwise (fun a b => a.1 ≤ b.1))
    (hk : Vehicle.ThrottleKeepsUp P (Vehicle.start sm dec buf ecu control)
      (timed (DiscreteSense.cfgOf cfg) (Vehicle.start sm dec buf ecu control) H))
    (t t0 t' : Nat) (ht : t ≤ t0)
    (hheld : Held cfg (99/1000) t t' H) (r : DiscreteSense.Reads) (hr : (t0, Ev.sense r) ∈ H) (hcr : Complete r)
    (x : Nat × InvDrv.Sent)
    (hx : x ∈ Vehicle.frames (Vehicle.start sm dec buf ecu control)
      (timed (DiscreteSense.cfgOf cfg) (Vehicle.start sm dec buf ecu control) H))
    (hx1 : t0 + P < x.1) (hx2 : x.1 < t') : Drive.torqueOf x.2 = 0 := by
  have h := C144_pedal_to_bus cfg sm dec buf ecu control hsm hc P hP H ho hk (99/1000) (by norm_num) (by norm_num) t t0 t' ht
    hheld r hr hcr x hx hx1 hx2
  have hz : Pedal.forward (99/1000 + (2 : ℚ) ^ (-25 : ℤ)) = 0 := by
    rw [show (99/1000 + (2 : ℚ) ^ (-25 : ℤ)) = 99/1000 + 1/33554432 by norm_num]
    decide +kernel
  rw [hz] at h
  by_contra hne
  have : (1 : ℚ) ≤ Drive.torqueOf x.2 := by exact_mod_cast Nat.one_le_iff_ne_zero.mpr hne
  linarith

/-! ## A drive in which the driver eases off -/

/-- The calibration points of the default configuration are distinct. -/
example : Calibrated Config.default := ⟨by decide, by decide⟩

/-- A period: the sensors are read, then the other tasks run. -/
def period (k n : Nat) (raw : UInt16) (b : Bool) (inv : UInt8) : List (Nat × Ev) :=
  (10000 * k, .sense (reading raw b)) :: (Vehicle.busy k n (Vehicle.sample false inv 0 false)).map fun x => (x.1, .veh x.2)

/-- Start-up with the pedal released, then the pedal at three raw values, then released. -/
def easing : List (Nat × Ev) :=
  (List.range 9).flatMap (fun k => period k 3 0 (k == 2 || k == 8) (if k < 6 then 0 else 5)) ++
  period 9 4 4095 false 5 ++ period 10 4 2000 false 5 ++ period 11 4 1000 false 5 ++ period 12 4 0 false 5

/-- The torque follows the raw values within the period. -/
example :
    (match Vehicle.demoStart with
    | .ok s =>
      Vehicle.checkKeepsUp s (timed demoCfg s easing) 13 &&
      (((Vehicle.frames s (timed demoCfg s easing)).map (fun (x : Nat × InvDrv.Sent) => (x.1 / 10000, Drive.torqueOf x.2))).drop 5) ==
        [(9, 5000), (10, 971), (11, 360), (12, 0)]
    | .error _ => false) = true := by decide +kernel

end Verif.SenseCar
