import Verif.Props.Healthy
import Verif.Props.InvCar
import Verif.Props.SensorFault
import Verif.Spec.Whole

set_option autoImplicit false

/-!
# C156: every drive fault has a cause outside
-/

namespace Verif.Vehicle
open InvDrv

/-- Only a write changes the data. -/
theorem step_data {s s' : St} {fs : List Sent} {e : Ev} (h : step s e = .ok (s', fs)) (he : ∀ d, e ≠ .write d) :
    s'.vd.inputs = s.vd.inputs ∧ s'.vd.dash = s.vd.dash ∧ s'.vd.battery = s.vd.battery ∧
      s'.vd.inverter = s.vd.inverter := by
  by_cases hpc : e.isPc = true
  · have := (pc_step hpc h).2.1
    exact ⟨this.inputs, this.dash, this.battery, this.inverter⟩
  cases e with
  | write d => exact absurd rfl (he d)
  | copy ok =>
    simp only [step] at h
    split at h
    · split at h
      · cases h
      · cases h; exact ⟨rfl, rfl, rfl, rfl⟩
    · cases h; exact ⟨rfl, rfl, rfl, rfl⟩
  | handle ok =>
    simp only [step] at h
    split at h
    · cases h; exact ⟨rfl, rfl, rfl, rfl⟩
    · split at h
      · cases h
      · cases h; exact ⟨rfl, rfl, rfl, rfl⟩
  | call en =>
    simp only [step] at h
    split at h
    · cases h; exact ⟨rfl, rfl, rfl, rfl⟩
    · unfold applyOut at h
      split at h
      · cases h
      · cases h; exact ⟨rfl, rfl, rfl, rfl⟩
  | throttle ok en =>
    simp only [step] at h
    split at h
    · cases h
    · cases h; exact ⟨rfl, rfl, rfl, rfl⟩
  | pcBatch b c => exact absurd rfl hpc
  | pcAct l => exact absurd rfl hpc

end Verif.Vehicle

namespace Verif.Whole
open Verif.Can Verif.CanSpec Verif.CanFresh Verif.Dbc Verif.FaultSpec
open Verif.SenseCar (Sensor travel)

/-- The queues are those of the two registrations, the scalings those of the configuration. -/
def wiring (cfg : Config) (bdev idev : Nat) : Wiring :=
  ⟨bdev, bmsReg.queue, idev, inverterReg.queue, DiscreteSense.cfgOf cfg⟩

variable (buses : Nat → RxBus) (w : Wiring)

/-! ## The part of the control software -/

/-- What the control software sees of a history. -/
def vehOf (s : St) : List Ev → List Vehicle.Ev
  | [] => []
  | e :: H => toVeh w s e ++
    match step buses w s e with
    | .error _ => []
    | .ok (s', _) => vehOf s' H

theorem toVeh_cases (s : St) (e : Ev) : toVeh w s e = [] ∨ ∃ x, toVeh w s e = [x] := by
  cases e with
  | rx e =>
    cases e with
    | isr d g fifo => exact Or.inl rfl
    | read j =>
      simp only [toVeh]
      split
      · exact Or.inl rfl
      · split_ifs
        · exact Or.inr ⟨_, rfl⟩
        · exact Or.inr ⟨_, rfl⟩
        · exact Or.inl rfl
  | sense r => exact Or.inr ⟨_, rfl⟩
  | veh e => cases e <;> exact Or.inr ⟨_, rfl⟩

theorem run_split {s s' : St} {e : Ev} {H : List Ev} {fs : List InvDrv.Sent}
    (h : run buses w s (e :: H) = .ok (s', fs)) :
    ∃ s1 f1 f2, step buses w s e = .ok (s1, f1) ∧ run buses w s1 H = .ok (s', f2) ∧ fs = f1 ++ f2 := by
  simp only [run] at h
  split at h
  · cases h
  rename_i s1 f1 h1
  split at h
  · cases h
  rename_i s2 f2 h2
  cases h
  exact ⟨s1, f1, f2, h1, h2, rfl⟩

theorem step_split {s s' : St} {e : Ev} {fs : List InvDrv.Sent} (h : step buses w s e = .ok (s', fs)) :
    Vehicle.run s.v (toVeh w s e) = .ok (s'.v, fs) ∧ s'.rx = rxOf buses s.rx e := by
  simp only [step] at h
  split at h
  · cases h
  rename_i v g hv
  cases h
  exact ⟨hv, rfl⟩

theorem run_append {A B : List Ev} {s s1 s' : St} {f1 f2 : List InvDrv.Sent} (h1 : run buses w s A = .ok (s1, f1))
    (h2 : run buses w s1 B = .ok (s', f2)) : run buses w s (A ++ B) = .ok (s', f1 ++ f2) := by
  induction A generalizing s f1 with
  | nil => simp only [run] at h1; cases h1; exact h2
  | cons e A ih =>
    obtain ⟨s2, g1, g2, a1, a2, rfl⟩ := run_split buses w h1
    simp only [List.cons_append, run, a1, ih a2, List.append_assoc]

/-- The run of the control software inside a run of the whole. -/
theorem run_veh (H : List Ev) : ∀ (s s' : St) (fs : List InvDrv.Sent), run buses w s H = .ok (s', fs) →
    Vehicle.run s.v (vehOf buses w s H) = .ok (s'.v, fs) := by
  induction H with
  | nil => intro s s' fs h; simp only [run] at h; cases h; rfl
  | cons e H ih =>
    intro s s' fs h
    obtain ⟨s1, f1, f2, h1, h2, rfl⟩ := run_split buses w h
    simp only [vehOf, h1]
    exact Vehicle.run_append (step_split buses w h1).1 (ih s1 s' f2 h2)

theorem vehOf_append {A : List Ev} : ∀ {s s1 : St} {f1 : List InvDrv.Sent} (B : List Ev),
    run buses w s A = .ok (s1, f1) → vehOf buses w s (A ++ B) = vehOf buses w s A ++ vehOf buses w s1 B := by
  induction A with
  | nil => intro s s1 f1 B h; simp only [run] at h; cases h; rfl
  | cons e A ih =>
    intro s s1 f1 B h
    obtain ⟨s2, g1, g2, a1, a2, rfl⟩ := run_split buses w h
    simp only [List.cons_append, vehOf, a1, ih B a2, List.append_assoc]

/-! ## The data are what was reported -/

/-- The data the sensor task leaves after these activations. -/
def published (c : DiscreteSense.Cfg) (l : List DiscreteSense.Reads) : VData :=
  l.foldl (fun d r => DiscreteSense.tick c r d) VData.zero

theorem tick_congr (c : DiscreteSense.Cfg) (r : DiscreteSense.Reads) {a b : VData} (hi : a.inputs = b.inputs)
    (hd : a.dash = b.dash) :
    (DiscreteSense.tick c r a).inputs = (DiscreteSense.tick c r b).inputs ∧
    (DiscreteSense.tick c r a).dash = (DiscreteSense.tick c r b).dash := by
  unfold DiscreteSense.tick
  dsimp only
  split_ifs
  · rw [hi, hd]; exact ⟨rfl, rfl⟩
  · exact ⟨hi, hd⟩

theorem tick_other (c : DiscreteSense.Cfg) (r : DiscreteSense.Reads) (d : VData) :
    (DiscreteSense.tick c r d).battery = d.battery ∧ (DiscreteSense.tick c r d).inverter = d.inverter := by
  unfold DiscreteSense.tick
  dsimp only
  split_ifs <;> exact ⟨rfl, rfl⟩

theorem bms_other (dev : Nat) (f : CanFrame) (d : VData) :
    (Bms.handleFrame dev true f d).inputs = d.inputs ∧ (Bms.handleFrame dev true f d).dash = d.dash ∧
      (Bms.handleFrame dev true f d).inverter = d.inverter ∧
      (Bms.handleFrame dev true f d).battery.bmsFaultIndicator = d.battery.bmsFaultIndicator := by
  unfold Bms.handleFrame
  split
  · exact ⟨rfl, rfl, rfl, rfl⟩
  split
  · exact ⟨rfl, rfl, rfl, rfl⟩
  rename_i h hh
  split
  · exact ⟨rfl, rfl, rfl, rfl⟩
  simp only [if_true]
  revert hh
  unfold Bms.handlerOf
  repeat' split
  all_goals first
    | (intro hg; injection hg with hg; subst hg; exact ⟨rfl, rfl, rfl, rfl⟩)
    | (intro hg; cases hg)

theorem inv_other (dev : Nat) (f : CanFrame) (d : VData) :
    (InvDrv.handleFrame dev true f d).inputs = d.inputs ∧ (InvDrv.handleFrame dev true f d).dash = d.dash ∧
      (InvDrv.handleFrame dev true f d).battery = d.battery := by
  unfold InvDrv.handleFrame
  split
  · exact ⟨rfl, rfl, rfl⟩
  split
  · exact ⟨rfl, rfl, rfl⟩
  rename_i h hh
  split
  · exact ⟨rfl, rfl, rfl⟩
  simp only [if_true]
  revert hh
  unfold InvDrv.handlerOf
  repeat' split
  all_goals first
    | (intro hg; injection hg with hg; subst hg; exact ⟨rfl, rfl, rfl⟩)
    | (intro hg; cases hg)

/-- A frame changes a field in the same way whatever the other data are. -/
theorem bms_congr (dev : Nat) (f : CanFrame) {a b : VData} (fld : BmsField) (h : getBms fld a = getBms fld b) :
    getBms fld (Bms.handleFrame dev true f a) = getBms fld (Bms.handleFrame dev true f b) := by
  have ha := C23_stream dev [(f, true)] a fld
  have hb := C23_stream dev [(f, true)] b fld
  simp only [Bms.processing, List.foldl_cons, List.foldl_nil] at ha hb
  rw [ha, hb, h]

theorem rxs_append (a b : List Ev) : rxs (a ++ b) = rxs a ++ rxs b := List.filterMap_append
theorem readings_append (a b : List Ev) : readings (a ++ b) = readings a ++ readings b := List.filterMap_append

/-- After the events `pre` the data are what was reported. -/
structure Inv (cfg : Config) (bdev : Nat) (rx0 : RxState) (pre : List Ev) (s : St) : Prop where
  rx : s.rx = after buses rx0 (rxs pre)
  bms : ∀ fld, getBms fld s.v.vd =
    getBms fld (Bms.processing bdev ((s.rx.got bmsReg.queue).map fun f => (f, true)) VData.zero)
  fault : s.v.vd.battery.bmsFaultIndicator = false
  inputs : s.v.vd.inputs = (published (DiscreteSense.cfgOf cfg) (readings pre)).inputs
  dash : s.v.vd.dash = (published (DiscreteSense.cfgOf cfg) (readings pre)).dash
  state : s.v.vd.inverter.vsmState =
    ((s.rx.got inverterReg.queue).reverse.find? InvCar.isReport).elim (0 : UInt8) (fun f => f.data[0])

theorem got_other {s : RxState} {j k : Nat} (h : k ≠ j) : (rxStep buses s (.read j)).got k = s.got k := by
  simp only [rxStep]
  split
  · rfl
  · simp only [if_neg h]

theorem got_cons {s : RxState} {j : Nat} {f : CanFrame} {l : List CanFrame} (h : (s.qs j).items = f :: l) :
    (rxStep buses s (.read j)).got j = s.got j ++ [f] := by
  simp only [rxStep, h, if_true]

theorem got_nil {s : RxState} {j : Nat} (h : (s.qs j).items = []) : rxStep buses s (.read j) = s := by
  simp only [rxStep, h]

theorem got_isr (s : RxState) (d : Nat) (g : UInt32) (fifo : List HalRx) :
    (rxStep buses s (.isr d g fifo)).got = s.got := by
  simp only [rxStep]

variable (cfg : Config) (bdev idev : Nat)

theorem inv_step {rx0 : RxState} (hwi : InvCar.Wired buses idev rx0) {pre : List Ev} {s s' : St}
    {fs : List InvDrv.Sent} {e : Ev} (hi : Inv buses cfg bdev rx0 pre s) (hstd : AllStandard (rxs pre))
    (h : step buses (wiring cfg bdev idev) s e = .ok (s', fs)) : Inv buses cfg bdev rx0 (pre ++ [e]) s' := by
  obtain ⟨hv, hrx'⟩ := step_split buses _ h
  have write : ∀ {d : VData}, Vehicle.run s.v [.write d] = .ok (s'.v, fs) → s'.v.vd.inputs = d.inputs ∧
      s'.v.vd.dash = d.dash ∧ s'.v.vd.battery = d.battery ∧ s'.v.vd.inverter = d.inverter := by
    intro d hd
    simp only [Vehicle.run, Vehicle.step, Except.ok.injEq, Prod.mk.injEq] at hd
    rw [← hd.1]; exact ⟨rfl, rfl, rfl, rfl⟩
  have none : Vehicle.run s.v [] = .ok (s'.v, fs) → s'.v = s.v := by
    intro hd
    simp only [Vehicle.run, Except.ok.injEq, Prod.mk.injEq] at hd
    exact hd.1.symm
  cases e with
  | rx e =>
    have hafter : s'.rx = after buses rx0 (rxs (pre ++ [Ev.rx e])) := by
      have : rxs (pre ++ [Ev.rx e]) = rxs pre ++ [e] := rxs_append _ _
      rw [this, after_concat, ← hi.rx, hrx']; rfl
    have hread : readings (pre ++ [Ev.rx e]) = readings pre := by
      rw [readings_append]; exact List.append_nil _
    cases e with
    | isr d g fifo =>
      have hs := none hv
      have hg : s'.rx.got = s.rx.got := by rw [hrx']; exact got_isr buses _ _ _ _
      refine ⟨hafter, ?_, ?_, ?_, ?_, ?_⟩
      · rw [hs, hg]; exact hi.bms
      · rw [hs]; exact hi.fault
      · rw [hs, hread]; exact hi.inputs
      · rw [hs, hread]; exact hi.dash
      · rw [hs, hg]; exact hi.state
    | read j =>
      have hrx2 : s'.rx = rxStep buses s.rx (.read j) := hrx'
      cases hq : (s.rx.qs j).items with
      | nil =>
        have hs : s'.v = s.v := none (by simpa only [toVeh, hq] using hv)
        have hg : s'.rx = s.rx := by rw [hrx2]; exact got_nil buses hq
        refine ⟨hafter, ?_, ?_, ?_, ?_, ?_⟩
        · rw [hs, hg]; exact hi.bms
        · rw [hs]; exact hi.fault
        · rw [hs, hread]; exact hi.inputs
        · rw [hs, hread]; exact hi.dash
        · rw [hs, hg]; exact hi.state
      | cons f rest =>
        simp only [toVeh, hq] at hv
        by_cases hb : j = bmsReg.queue
        · have hc : j = (wiring cfg bdev idev).bmsQueue := hb
          rw [if_pos hc] at hv
          obtain ⟨d1, d2, d3, d4⟩ := write hv
          obtain ⟨o1, o2, o3, o4⟩ := bms_other bdev f s.v.vd
          subst hb
          refine ⟨hafter, ?_, ?_, ?_, ?_, ?_⟩
          · intro fld
            rw [Car.getBms_battery d3, hrx2, got_cons buses hq, List.map_append, Bms.processing, List.foldl_append]
            exact bms_congr bdev f fld (hi.bms fld)
          · rw [d3]; exact o4.trans hi.fault
          · rw [d1, hread]; exact o1.trans hi.inputs
          · rw [d2, hread]; exact o2.trans hi.dash
          · rw [d4, hrx2, got_other buses (by decide)]; exact (congrArg _ o3).trans hi.state
        · have hc : ¬ j = (wiring cfg bdev idev).bmsQueue := hb
          rw [if_neg hc] at hv
          by_cases hj : j = inverterReg.queue
          · have hc : j = (wiring cfg bdev idev).invQueue := hj
            rw [if_pos hc] at hv
            obtain ⟨d1, d2, d3, d4⟩ := write hv
            obtain ⟨o1, o2, o3⟩ := inv_other idev f s.v.vd
            subst hj
            have hbus : f.busInstance = idev := by
              refine busFrames_bus idev (rxs pre) (InvCar.got_bus buses idev hwi _ hstd f (.inr ?_))
              rw [← hi.rx, hq]; exact List.mem_cons_self
            refine ⟨hafter, ?_, ?_, ?_, ?_, ?_⟩
            · intro fld
              rw [Car.getBms_battery (d3.trans o3), hrx2, got_other buses (by decide)]
              exact hi.bms fld
            · rw [d3]; exact (congrArg _ o3).trans hi.fault
            · rw [d1, hread]; exact o1.trans hi.inputs
            · rw [d2, hread]; exact o2.trans hi.dash
            · refine (congrArg _ d4).trans ((InvCar.handle_state idev f _ hbus).trans ?_)
              rw [hrx2, got_cons buses hq, List.reverse_append,
                List.reverse_singleton, List.singleton_append, List.find?_cons]
              cases hr : InvCar.isReport f with
              | true => rfl
              | false => simp only [Bool.false_eq_true, if_false]; exact hi.state
          · have hc : ¬ j = (wiring cfg bdev idev).invQueue := hj
            rw [if_neg hc] at hv
            have hs : s'.v = s.v := none hv
            refine ⟨hafter, ?_, ?_, ?_, ?_, ?_⟩
            · rw [hs, hrx2, got_other buses (Ne.symm hb)]; exact hi.bms
            · rw [hs]; exact hi.fault
            · rw [hs, hread]; exact hi.inputs
            · rw [hs, hread]; exact hi.dash
            · rw [hs, hrx2, got_other buses (Ne.symm hj)]; exact hi.state
  | sense r =>
    obtain ⟨d1, d2, d3, d4⟩ := write hv
    have hrx : rxs (pre ++ [Ev.sense r]) = rxs pre := by
      rw [rxs_append]; exact List.append_nil _
    have hread : readings (pre ++ [Ev.sense r]) = readings pre ++ [r] := readings_append _ _
    have hg : s'.rx = s.rx := hrx'
    obtain ⟨o1, o2⟩ := tick_other (DiscreteSense.cfgOf cfg) r s.v.vd
    obtain ⟨c1, c2⟩ := tick_congr (DiscreteSense.cfgOf cfg) r hi.inputs hi.dash
    refine ⟨by rw [hrx, hg]; exact hi.rx, ?_, ?_, ?_, ?_, ?_⟩
    · intro fld
      rw [hg]
      exact (Car.getBms_battery (d3.trans o1) fld).trans (hi.bms fld)
    · rw [d3]; exact (congrArg _ o1).trans hi.fault
    · rw [d1, hread, published, List.foldl_append]; exact c1
    · rw [d2, hread, published, List.foldl_append]; exact c2
    · rw [d4, hg]
      exact (congrArg _ o2).trans hi.state
  | veh e =>
    have hrx : rxs (pre ++ [Ev.veh e]) = rxs pre := by
      rw [rxs_append]; exact List.append_nil _
    have hread : readings (pre ++ [Ev.veh e]) = readings pre := by
      rw [readings_append]; exact List.append_nil _
    have hg : s'.rx = s.rx := hrx'
    have same : s'.v.vd.inputs = s.v.vd.inputs ∧ s'.v.vd.dash = s.v.vd.dash ∧ s'.v.vd.battery = s.v.vd.battery ∧
        s'.v.vd.inverter = s.v.vd.inverter := by
      by_cases hwr : ∃ d, e = .write d
      · obtain ⟨d, rfl⟩ := hwr
        exact write (d := keep s.v.vd d) hv
      · have hv' : Vehicle.run s.v [e] = .ok (s'.v, fs) := by
          cases e <;> first | exact hv | exact absurd ⟨_, rfl⟩ hwr
        simp only [Vehicle.run] at hv'
        split at hv'
        · cases hv'
        rename_i v1 f1 h1
        simp only [Except.ok.injEq, Prod.mk.injEq] at hv'
        rw [← hv'.1]
        exact Vehicle.step_data h1 fun d hd => hwr ⟨d, hd⟩
    obtain ⟨e1, e2, e3, e4⟩ := same
    refine ⟨by rw [hrx, hg]; exact hi.rx, ?_, ?_, ?_, ?_, ?_⟩
    · intro fld
      rw [hg]; exact (Car.getBms_battery e3 fld).trans (hi.bms fld)
    · rw [e3]; exact hi.fault
    · rw [e1, hread]; exact hi.inputs
    · rw [e2, hread]; exact hi.dash
    · rw [e4, hg]; exact hi.state

theorem inv_run {rx0 : RxState} (hwi : InvCar.Wired buses idev rx0) : ∀ (H pre : List Ev) (s s' : St)
    (fs : List InvDrv.Sent), Inv buses cfg bdev rx0 pre s → AllStandard (rxs (pre ++ H)) →
    run buses (wiring cfg bdev idev) s H = .ok (s', fs) → Inv buses cfg bdev rx0 (pre ++ H) s'
  | [], pre, s, s', fs, hi, _, h => by
    simp only [run] at h; cases h
    rw [List.append_nil]; exact hi
  | e :: H, pre, s, s', fs, hi, hstd, h => by
    obtain ⟨s1, f1, f2, h1, h2, rfl⟩ := run_split buses _ h
    have hx : pre ++ e :: H = (pre ++ [e]) ++ H := by simp
    rw [hx] at hstd ⊢
    refine inv_run hwi H _ s1 s' f2 (inv_step buses cfg bdev idev hwi hi ?_ h1) hstd h2
    intro d g fifo hm
    refine hstd d g fifo ?_
    rw [List.append_assoc, rxs_append]; exact List.mem_append_left _ hm

theorem inv_start {rx0 : RxState} (hwb : Car.Wired buses bdev rx0) (hwi : InvCar.Wired buses idev rx0)
    (sm : StateMgr.StateManager) (dec : MsgFrame.Dec) (buf : Nat → UInt8) (ecu control : Bool) :
    Inv buses cfg bdev rx0 [] ⟨rx0, Vehicle.start sm dec buf ecu control⟩ := by
  refine ⟨rfl, ?_, rfl, rfl, rfl, ?_⟩
  · intro fld; dsimp only; rw [hwb.got]; rfl
  · dsimp only; rw [hwi.got]; rfl

/-! ## Moments -/

/-- The data at the events of this kind. -/
def sel (p : Vehicle.St → Vehicle.Ev → Bool) (s : Vehicle.St) : List Vehicle.Ev → List VData
  | [] => []
  | e :: es => (if p s e then [s.vd] else []) ++
    match Vehicle.step s e with
    | .ok r => sel p r.1 es
    | .error _ => []

/-- The moments of a history at which the control software is about to do something of this kind: the events before. -/
def moments (p : Vehicle.St → Vehicle.Ev → Bool) (s : St) (pre : List Ev) : List Ev → List (List Ev)
  | [] => []
  | e :: H => (match e with
      | .rx _ => []
      | .sense _ => []
      | .veh x => if p s.v x then [pre] else []) ++
    match step buses w s e with
    | .ok r => moments p r.1 (pre ++ [e]) H
    | .error _ => []

/-- The state manager takes its sample. -/
def samples (s : Vehicle.St) : Vehicle.Ev → Bool
  | .copy ok => ok && decide (s.status = none ∧ s.pending = [])
  | _ => false

/-- The state manager acts on the data. -/
def acts (s : Vehicle.St) : Vehicle.Ev → Bool
  | .handle _ => s.status.isSome
  | _ => false

/-- The throttle task reads the pedal. -/
def drives (s : Vehicle.St) : Vehicle.Ev → Bool
  | .throttle _ _ => decide (s.thr.pc = .idle)
  | _ => false

theorem copies_sel : ∀ (es : List Vehicle.Ev) (s : Vehicle.St),
    (Vehicle.copies s es).filterMap id = sel samples s es
  | [], _ => rfl
  | e :: es, s => by
    simp only [Vehicle.copies, sel, List.filterMap_append]
    congr 1
    · cases e <;> try rfl
      rename_i ok
      simp only [Vehicle.copied, samples]
      by_cases h : s.status = none ∧ s.pending = []
      · cases ok <;> simp [h]
      · simp [h]
    · cases Vehicle.step s e with
      | error u => rfl
      | ok r => exact copies_sel es r.1

theorem looks_sel : ∀ (es : List Vehicle.Ev) (s : Vehicle.St), Vehicle.looks s es = sel acts s es
  | [], _ => rfl
  | e :: es, s => by
    simp only [Vehicle.looks, sel]
    congr 1
    · cases e <;> try rfl
      simp only [Vehicle.looked, acts]
      by_cases h : s.status = none
      · simp [h]
      · obtain ⟨f, hf⟩ := Option.ne_none_iff_exists'.mp h
        simp [hf]
    · cases Vehicle.step s e with
      | error u => rfl
      | ok r => exact looks_sel es r.1

theorem pedals_sel : ∀ (es : List Vehicle.Ev) (s : Vehicle.St),
    Vehicle.pedals s es = (sel drives s es).map (·.inputs.accel)
  | [], _ => rfl
  | e :: es, s => by
    simp only [Vehicle.pedals, sel, List.map_append]
    congr 1
    · cases e <;> try rfl
      simp only [Vehicle.pedalRead, drives]
      by_cases h : s.thr.pc = .idle <;> simp [h]
    · cases Vehicle.step s e with
      | error u => rfl
      | ok r => exact pedals_sel es r.1

theorem sel_append (p : Vehicle.St → Vehicle.Ev → Bool) {a b : List Vehicle.Ev} : ∀ {s s' : Vehicle.St}
    {f : List InvDrv.Sent}, Vehicle.run s a = .ok (s', f) → sel p s (a ++ b) = sel p s a ++ sel p s' b := by
  induction a with
  | nil => intro s s' f h; cases h; rfl
  | cons e a ih =>
    intro s s' f h
    simp only [Vehicle.run] at h
    split at h
    · cases h
    rename_i s1 f1 h1
    split at h
    · cases h
    rename_i s2 f2 h2
    cases h
    simp only [List.cons_append, sel, h1, ih h2, List.append_assoc]

/-- Each moment corresponds to the data then. -/
theorem moments_sel (p : Vehicle.St → Vehicle.Ev → Bool) (hp : ∀ s d, p s (.write d) = false) {rx0 : RxState}
    (hwi : InvCar.Wired buses idev rx0) : ∀ (H pre : List Ev) (s s' : St)
    (fs : List InvDrv.Sent), Inv buses cfg bdev rx0 pre s → AllStandard (rxs (pre ++ H)) →
    run buses (wiring cfg bdev idev) s H = .ok (s', fs) →
    List.Forall₂ (fun m d => ∃ s, Inv buses cfg bdev rx0 m s ∧ d = s.v.vd)
      (moments buses (wiring cfg bdev idev) p s pre H) (sel p s.v (vehOf buses (wiring cfg bdev idev) s H))
  | [], pre, s, s', fs, hi, _, h => List.Forall₂.nil
  | e :: H, pre, s, s', fs, hi, hstd, h => by
    obtain ⟨s1, f1, f2, h1, h2, rfl⟩ := run_split buses _ h
    have hx : pre ++ e :: H = (pre ++ [e]) ++ H := by simp
    have hpre : AllStandard (rxs pre) := by
      intro d g fifo hm
      refine hstd d g fifo ?_
      rw [rxs_append]; exact List.mem_append_left _ hm
    have hi1 := inv_step buses cfg bdev idev hwi hi hpre h1
    have ih := moments_sel p hp hwi H (pre ++ [e]) s1 s' f2 hi1 (by rw [← hx]; exact hstd) h2
    obtain ⟨hv, -⟩ := step_split buses _ h1
    simp only [vehOf, moments, h1]
    rw [sel_append p hv]
    refine List.rel_append ?_ ih
    have none : ∀ {d}, List.Forall₂ (fun m d => ∃ s, Inv buses cfg bdev rx0 m s ∧ d = s.v.vd) [] (sel p s.v [.write d]) := by
      intro d
      simp only [sel, hp, Vehicle.step]
      exact List.Forall₂.nil
    cases e with
    | rx e =>
      dsimp only
      cases e with
      | isr d g fifo => exact List.Forall₂.nil
      | read j =>
        simp only [toVeh]
        split
        · exact List.Forall₂.nil
        · split_ifs
          · exact none
          · exact none
          · exact List.Forall₂.nil
    | sense r => exact none
    | veh x =>
      by_cases hw : ∃ d, x = .write d
      · obtain ⟨d, rfl⟩ := hw
        simp only [hp]
        exact none
      · have ht : toVeh (wiring cfg bdev idev) s (.veh x) = [x] := by
          cases x <;> first | rfl | exact absurd ⟨_, rfl⟩ hw
        have hend : ∀ q : C (Vehicle.St × List InvDrv.Sent), (match q with
          | .ok r => sel p r.1 []
          | .error _ => []) = [] := by
          intro q; cases q <;> rfl
        rw [ht]
        simp only [sel]
        cases hpx : p s.v x with
        | false =>
          rw [show (match Vehicle.step s.v x with
            | .ok r => ([] : List VData)
            | .error _ => []) = [] by split <;> rfl]
          exact List.Forall₂.nil
        | true =>
          rw [show (match Vehicle.step s.v x with
            | .ok r => ([] : List VData)
            | .error _ => []) = [] by split <;> rfl]
          exact List.Forall₂.cons ⟨s, hi, rfl⟩ List.Forall₂.nil

/-! ## What the data say about the situation outside -/

/-- What the last reading of a kind brought about holds. -/
theorem published_last {α : Type} (c : DiscreteSense.Cfg) (f : DiscreteSense.Reads → Option α) (P : α → VData → Prop)
    (hset : ∀ r d a, f r = some a → P a (DiscreteSense.tick c r d))
    (hkeep : ∀ r d a, f r = none → P a d → P a (DiscreteSense.tick c r d)) (l : List DiscreteSense.Reads) :
    ∀ a, l.reverse.findSome? f = some a → P a (published c l) := by
  induction l using List.reverseRecOn with
  | nil => intro a h; cases h
  | append_singleton l r ih =>
    intro a h
    rw [List.reverse_append, List.reverse_singleton, List.singleton_append, List.findSome?_cons] at h
    simp only [published, List.foldl_append, List.foldl_cons, List.foldl_nil]
    cases hr : f r with
    | some b => rw [hr] at h; cases h; exact hset r _ _ hr
    | none => rw [hr] at h; exact hkeep r _ _ hr (ih a h)

/-- The published raw value of a sensor. -/
def rawOf (s : Sensor) : Inputs → UInt16 := match s with
  | .pedalA => (·.accelRawA) | .pedalB => (·.accelRawB)
  | .brakeFront => (·.brakeRawFront) | .brakeRear => (·.brakeRawRear)

theorem last_raw {s : Sensor} {m : List Ev} {v : UInt16} (h : last s m = some v) :
    rawOf s (published (DiscreteSense.cfgOf cfg) (readings m)).inputs = v := by
  refine published_last _ _ (fun a d => rawOf s d.inputs = a) ?_ ?_ _ v h
  · intro r d a ha
    split_ifs at ha with hr
    cases ha
    have := (SenseCar.unread_raw (c := DiscreteSense.cfgOf cfg) s r d).1 hr
    cases s <;> exact this
  · intro r d a ha hd
    have hr : ¬ s.Read r := fun hr => by rw [if_pos (show r.acquired = true ∧ (s.of r).1 = .ok from hr)] at ha; cases ha
    have := (SenseCar.unread_raw (c := DiscreteSense.cfgOf cfg) s r d).2 hr
    refine Eq.trans ?_ hd
    cases s <;> exact this

theorem last_value {s : Sensor} (hc : (s.cal cfg).rawLower ≠ (s.cal cfg).rawUpper) {m : List Ev} {v : UInt16}
    (h : last s m = some v) :
    ∃ q, s.value (published (DiscreteSense.cfgOf cfg) (readings m)).inputs = .fin q ∧ 0 ≤ q ∧ q ≤ 1 ∧
      |q - part (s.cal cfg) v| ≤ (2 : ℚ) ^ (-25 : ℤ) := by
  refine published_last _ _ (fun a d => ∃ q, s.value d.inputs = .fin q ∧ 0 ≤ q ∧ q ≤ 1 ∧
      |q - part (s.cal cfg) a| ≤ (2 : ℚ) ^ (-25 : ℤ)) ?_ ?_ _ v h
  · intro r d a ha
    split_ifs at ha with hr
    cases ha
    obtain ⟨q, e, -, q0, q1, hd⟩ := SenseCar.read_value cfg s hc r d hr
    exact ⟨q, e, q0, q1, hd⟩
  · rintro r d a ha ⟨q, e, hq⟩
    have hr : ¬ s.Read r := fun hr => by rw [if_pos (show r.acquired = true ∧ (s.of r).1 = .ok from hr)] at ha; cases ha
    exact ⟨q, (SenseCar.unread_value s r d hr).trans e, hq⟩

theorem last_pedal (hc : ∀ s : Sensor, (s.cal cfg).rawLower ≠ (s.cal cfg).rawUpper) (m : List Ev) :
    ∃ q, (published (DiscreteSense.cfgOf cfg) (readings m)).inputs.accel = .fin q ∧
      |q - pedal cfg m| ≤ 3 * (2 : ℚ) ^ (-25 : ℤ) := by
  cases h : lastBoth m with
  | some v =>
    obtain ⟨a, b⟩ := v
    have key := published_last (DiscreteSense.cfgOf cfg) _ (fun v d => ∃ q, d.inputs.accel = .fin q ∧
      |q - (part (Sensor.pedalA.cal cfg) v.1 + part (Sensor.pedalB.cal cfg) v.2) / 2| ≤ 3 * (2 : ℚ) ^ (-25 : ℤ)) ?_ ?_
      (readings m) (a, b) h
    · simp only [pedal, h]; exact key
    · intro r d v hv
      split_ifs at hv with hr
      cases hv
      obtain ⟨hq, oa, ob⟩ := hr
      obtain ⟨a, ea, ra, a0, a1, da⟩ := DiscreteSense.scaled (DiscreteSense.cfgOf cfg).accelA (hc .pedalA) rfl r.accelA.2
      obtain ⟨b, eb, rb, b0, b1, db⟩ := DiscreteSense.scaled (DiscreteSense.cfgOf cfg).accelB (hc .pedalB) rfl r.accelB.2
      obtain ⟨q, eq, -, -, hd⟩ := DiscreteSense.average a b ra rb a0 a1 b0 b1
      refine ⟨q, ?_, ?_⟩
      · rw [DiscreteSense.tick_eq _ _ _ hq]
        dsimp only
        rw [if_pos ⟨oa, ob⟩, ea, eb]; exact eq
      · have da' : |a - part (Sensor.pedalA.cal cfg) r.accelA.2| ≤ (2 : ℚ) ^ (-25 : ℤ) := da
        have db' : |b - part (Sensor.pedalB.cal cfg) r.accelB.2| ≤ (2 : ℚ) ^ (-25 : ℤ) := db
        have p24 : (2 : ℚ) ^ (-24 : ℤ) = 2 * (2 : ℚ) ^ (-25 : ℤ) := by norm_num
        rw [p24] at hd
        dsimp only
        generalize (2 : ℚ) ^ (-25 : ℤ) = ε at *
        rw [abs_le] at *
        constructor <;> linarith
    · rintro r d v hv ⟨q, e, hq⟩
      have hr : ¬ SenseCar.Complete r := fun hr => by
        rw [if_pos (show r.acquired = true ∧ r.accelA.1 = .ok ∧ r.accelB.1 = .ok from hr)] at hv; cases hv
      exact ⟨q, (SenseCar.incomplete_same hr d).trans e, hq⟩
  | none =>
    have hall : ∀ r ∈ readings m, ¬ SenseCar.Complete r := by
      intro r hr hc
      have := List.findSome?_eq_none_iff.mp h r (List.mem_reverse.mpr hr)
      rw [if_pos (show r.acquired = true ∧ r.accelA.1 = .ok ∧ r.accelB.1 = .ok from hc)] at this
      cases this
    have : ∀ (l : List DiscreteSense.Reads) (d : VData), (∀ r ∈ l, ¬ SenseCar.Complete r) →
        (l.foldl (fun d r => DiscreteSense.tick (DiscreteSense.cfgOf cfg) r d) d).inputs.accel = d.inputs.accel := by
      intro l
      induction l with
      | nil => intro d _; rfl
      | cons r l ih =>
        intro d hl
        rw [List.foldl_cons, ih _ fun x hx => hl x (List.mem_cons_of_mem _ hx)]
        exact SenseCar.incomplete_same (hl r List.mem_cons_self) d
    refine ⟨0, this _ _ hall, ?_⟩
    simp only [pedal, h]
    norm_num

theorem last_button (m : List Ev) :
    (published (DiscreteSense.cfgOf cfg) (readings m)).dash.buttonPressed = decide (lastButton m = some true) := by
  have tick : ∀ (r : DiscreteSense.Reads) (d : VData), (DiscreteSense.tick (DiscreteSense.cfgOf cfg) r d).dash.buttonPressed =
      if r.acquired = true then r.button else d.dash.buttonPressed := by
    intro r d
    unfold DiscreteSense.tick
    dsimp only
    split_ifs <;> rfl
  have : ∀ l : List DiscreteSense.Reads, (published (DiscreteSense.cfgOf cfg) l).dash.buttonPressed =
      decide ((l.reverse.findSome? fun r => if r.acquired = true then some r.button else none) = some true) := by
    intro l
    induction l using List.reverseRecOn with
    | nil => rfl
    | append_singleton l r ih =>
      rw [List.reverse_append, List.reverse_singleton, List.singleton_append, List.findSome?_cons]
      simp only [published, List.foldl_append, List.foldl_cons, List.foldl_nil]
      rw [tick]
      by_cases hq : r.acquired = true
      · rw [if_pos hq, if_pos hq]
        cases r.button <;> rfl
      · rw [if_neg hq, if_neg hq]; exact ih
  exact this _

/-- A battery value is the last one reported. -/
theorem last_report {rx0 : RxState} (hwb : Car.Wired buses bdev rx0) {m : List Ev} {s : St}
    (hi : Inv buses cfg bdev rx0 m s) (hstd : AllStandard (rxs m)) (fld : BmsField) :
    getBms fld s.v.vd =
      (lastReport fld ((after buses rx0 (rxs m)).got bmsReg.queue)).getD (getBms fld VData.zero) := by
  rw [hi.bms, C23_stream, ← hi.rx]
  congr 1
  have hb : ∀ f ∈ s.rx.got bmsReg.queue, f.busInstance = bdev := by
    intro f hf
    refine busFrames_bus bdev (rxs m) ?_
    rw [hi.rx] at hf
    have h := (C24_stream buses bdev _ _ hwb.reg hwb.other rx0 hwb.empty hwb.got (rxs m) hstd).subset
      (List.mem_append.mpr (.inl hf))
    exact (List.mem_filter.mp h).1
  generalize s.rx.got bmsReg.queue = l at hb
  have e1 : ((l.map fun f => (f, true)).filter fun fa => bmsAccepted bdev fa.2 fa.1).map (·.1) =
      l.filter fun f => isBmsStatus f := by
    induction l with
    | nil => rfl
    | cons f l ih =>
      have ih := ih fun g hg => hb g (List.mem_cons_of_mem _ hg)
      have hf := hb f List.mem_cons_self
      have : bmsAccepted bdev true f = isBmsStatus f := by
        simp only [bmsAccepted, isBmsStatus, hf, decide_true, Bool.true_and, Bool.and_true]
      simp only [List.map_cons, List.filter_cons, this]
      cases isBmsStatus f
      · exact ih
      · simp only [if_true, List.map_cons, ih]
  rw [e1]
  show (l.filter fun f => isBmsStatus f).reverse.findSome? (Car.carry fld) = l.reverse.findSome? (Car.reading fld)
  rw [← List.filter_reverse]
  generalize l.reverse = k
  clear e1 hb
  induction k with
  | nil => rfl
  | cons f k ih =>
    rw [List.filter_cons, List.findSome?_cons]
    cases hs : isBmsStatus f with
    | true =>
      simp only [if_true, List.findSome?_cons]
      rw [← Car.status_reading hs, ih]
    | false =>
      simp only [Bool.false_eq_true, if_false]
      have : Car.reading fld f = none := by
        cases hr : Car.reading fld f with
        | none => rfl
        | some v => rw [(Car.reading_status hr).1] at hs; cases hs
      rw [this, ih]

/-- The inverter's state is the last one reported. -/
theorem last_state {rx0 : RxState} {m : List Ev} {s : St} (hi : Inv buses cfg bdev rx0 m s) :
    s.v.vd.inverter.vsmState = 5 ↔ lastState ((after buses rx0 (rxs m)).got inverterReg.queue) = some 5 := by
  rw [hi.state, ← hi.rx]
  unfold lastState
  cases (s.rx.got inverterReg.queue).reverse.find? InvCar.isReport with
  | none => simp
  | some f => simp

/-! ## Conditions that hold at moments -/

theorem heldFor_rel {α β : Type} {R : α → β → Prop} {P : β → Prop} {Q : α → Prop} {n : Nat} {as : List α} {bs : List β}
    (hr : List.Forall₂ R as bs) (himp : ∀ a b, R a b → P b → Q a) (h : HeldFor P n bs) : HeldFor Q n as := by
  obtain ⟨x, y, z, rfl, hn, hy⟩ := h
  rw [List.append_assoc] at hr
  have h1 := List.forall₂_drop_append _ _ _ hr
  have h2 := List.forall₂_take_append _ _ _ h1
  refine ⟨as.take x.length, (as.drop x.length).take y.length, (as.drop x.length).drop y.length, ?_, ?_, ?_⟩
  · rw [List.append_assoc, List.take_append_drop, List.take_append_drop]
  · rw [h2.length_eq, hn]
  · intro a ha
    generalize hl : (as.drop x.length).take y.length = l at h2 ha
    clear hl h1 hr hn
    induction h2 with
    | nil => cases ha
    | cons hab _ ih =>
      rcases List.mem_cons.mp ha with rfl | ha
      · exact himp _ _ hab (hy _ List.mem_cons_self)
      · exact ih (fun d hd => hy d (List.mem_cons_of_mem _ hd)) ha

theorem heldFor_one {α : Type} {P : α → Prop} {l : List α} {d : α} (hd : d ∈ l) (hp : P d) : HeldFor P 1 l := by
  obtain ⟨a, b, rfl⟩ := List.append_of_mem hd
  exact ⟨a, [d], b, by simp, rfl, by simpa using hp⟩

/-- The frames taken from the battery's queue. -/
def taken (rx0 : RxState) (m : List Ev) : List CanFrame := (after buses rx0 (rxs m)).got bmsReg.queue

/-- The frames taken from the inverter's queue. -/
def takenInv (rx0 : RxState) (m : List Ev) : List CanFrame := (after buses rx0 (rxs m)).got inverterReg.queue

theorem moments_standard (p : Vehicle.St → Vehicle.Ev → Bool) : ∀ (H pre : List Ev) (s : St),
    AllStandard (rxs (pre ++ H)) → ∀ m ∈ moments buses w p s pre H, AllStandard (rxs m)
  | [], pre, s, _, m, hm => by cases hm
  | e :: H, pre, s, hstd, m, hm => by
    have hpre : AllStandard (rxs pre) := by
      intro d g fifo hm
      refine hstd d g fifo ?_
      rw [rxs_append]; exact List.mem_append_left _ hm
    simp only [moments] at hm
    rcases List.mem_append.mp hm with hm | hm
    · cases e with
      | rx e => cases hm
      | sense r => cases hm
      | veh x =>
        dsimp only at hm
        split_ifs at hm
        · rw [List.mem_singleton.mp hm]; exact hpre
        · cases hm
    · split at hm
      · exact moments_standard p H _ _ (by rw [List.append_assoc]; exact hstd) m hm
      · cases hm

/-- The data at a moment when everything is known show no drive fault that is not there. -/
theorem cause_of_fault {rx0 : RxState} (hwb : Car.Wired buses bdev rx0)
    (hc : ∀ s : Sensor, (s.cal cfg).rawLower ≠ (s.cal cfg).rawUpper) {lim ta tb : ℚ} (hlim : Limits cfg lim ta tb)
    {ms : List (List Ev)} {ds : List VData}
    (hr : List.Forall₂ (fun m d => ∃ s, Inv buses cfg bdev rx0 m s ∧ d = s.v.vd) ms ds)
    (hstd : ∀ m ∈ ms, AllStandard (rxs m)) (hk : ∀ m ∈ ms, Known (taken buses rx0) m) (hd : DriveFault cfg 10 ds) :
    Cause cfg lim ta tb (taken buses rx0) ms := by
  have hr2 := (List.forall₂_and_left _ _).mpr ⟨fun m hm => And.intro (hstd m hm) (hk m hm), hr⟩
  have read : ∀ (s : Sensor) (m : List Ev) (t : St), Known (taken buses rx0) m → Inv buses cfg bdev rx0 m t →
      ∃ v q, last s m = some v ∧ rawOf s t.v.vd.inputs = v ∧ s.value t.v.vd.inputs = .fin q ∧ 0 ≤ q ∧ q ≤ 1 ∧
        |q - part (s.cal cfg) v| ≤ (2 : ℚ) ^ (-25 : ℤ) := by
    intro s m t hk hi
    obtain ⟨v, hv⟩ := Option.ne_none_iff_exists'.mp (hk.sensors s)
    obtain ⟨q, hq⟩ := last_value cfg (hc s) hv
    rw [hi.inputs]
    exact ⟨v, q, hv, last_raw cfg hv, hq⟩
  have range : ∀ s o : Sensor, ∀ (m : List Ev) (d : VData), ((AllStandard (rxs m) ∧ Known (taken buses rx0) m) ∧
      ∃ t, Inv buses cfg bdev rx0 m t ∧ d = t.v.vd) →
      (outside (s.cal cfg) (rawOf s d.inputs) ∨ outside (o.cal cfg) (rawOf o d.inputs)) → OutOfRange cfg s o m := by
    rintro s o m d ⟨⟨-, hk⟩, t, hi, rfl⟩ h
    rcases h with h | h
    · obtain ⟨v, q, h1, h2, -⟩ := read s m t hk hi
      rw [h2] at h; exact ⟨v, .inl ⟨h1, h⟩⟩
    · obtain ⟨v, q, h1, h2, -⟩ := read o m t hk hi
      rw [h2] at h; exact ⟨v, .inr ⟨h1, h⟩⟩
  have meas : ∀ {fld : BmsField} {bad : Val → Prop} {n : Nat}, Car.Measured cfg fld bad n →
      ∀ (m : List Ev) (d : VData), ((AllStandard (rxs m) ∧ Known (taken buses rx0) m) ∧
      ∃ t, Inv buses cfg bdev rx0 m t ∧ d = t.v.vd) → bad (getBms fld d) →
      ∃ v, lastReport fld (taken buses rx0 m) = some v ∧ bad v := by
    rintro fld bad n hm m d ⟨⟨hs, hk⟩, t, hi, rfl⟩ h
    have hf : fld ∈ [BmsField.maxT, .current, .maxV, .soc] := by cases hm <;> simp
    obtain ⟨v, hv⟩ := Option.ne_none_iff_exists'.mp (hk.battery fld hf)
    rw [last_report buses cfg bdev hwb hi hs] at h
    unfold taken at hv
    rw [hv] at h
    exact ⟨v, hv, h⟩
  have p23 : (2 : ℚ) ^ (-23 : ℤ) = 4 * (2 : ℚ) ^ (-25 : ℤ) := by norm_num
  have pos : (0 : ℚ) < (2 : ℚ) ^ (-25 : ℤ) := by norm_num
  rcases hd with h | h | h | h | h | h | h | ⟨d, hm, h⟩ | ⟨d, hm, h⟩
  · exact .inl (heldFor_rel hr2 (range .pedalA .pedalB) h)
  · refine .inr (.inl (heldFor_rel hr2 ?_ h))
    rintro m d ⟨⟨-, hk⟩, t, hi, rfl⟩ h
    obtain ⟨a, qa, a1, -, a3, a4, a5, a6⟩ := read .pedalA m t hk hi
    obtain ⟨b, qb, b1, -, b3, b4, b5, b6⟩ := read .pedalB m t hk hi
    refine ⟨a, b, a1, b1, ?_⟩
    unfold accelDisagree at h
    rw [hlim.apart] at h
    simp only [Sensor.value] at a3 b3
    rw [a3, b3] at h
    have e1 : |qa - qb| ≤ (2 : ℚ) ^ (0 : ℤ) := by
      rw [abs_le]; norm_num; constructor <;> linarith
    simp only [F32.sub, F32.neg, F32.add, ← sub_eq_add_neg] at h
    rw [F32.round_eq (e1.trans (by norm_num))] at h
    simp only [F32.abs, F32.lt, decide_eq_true_eq] at h
    have e2 := rnd_err_le e1 (by norm_num)
    rw [show (0 - 25 : ℤ) = -25 by norm_num] at e2
    rw [p23]
    generalize (2 : ℚ) ^ (-25 : ℤ) = ε at *
    have t1 : |rnd (qa - qb)| ≤ |rnd (qa - qb) - (qa - qb)| + |qa - qb| := by
      have := abs_add_le (rnd (qa - qb) - (qa - qb)) (qa - qb)
      rwa [sub_add_cancel] at this
    have t2 : |qa - qb| ≤ |part (Sensor.pedalA.cal cfg) a - part (Sensor.pedalB.cal cfg) b| + 2 * ε := by
      have := abs_add_le (part (Sensor.pedalA.cal cfg) a - part (Sensor.pedalB.cal cfg) b)
        ((qa - part (Sensor.pedalA.cal cfg) a) - (qb - part (Sensor.pedalB.cal cfg) b))
      have h3 := abs_sub (qa - part (Sensor.pedalA.cal cfg) a) (qb - part (Sensor.pedalB.cal cfg) b)
      rw [show part (Sensor.pedalA.cal cfg) a - part (Sensor.pedalB.cal cfg) b +
        ((qa - part (Sensor.pedalA.cal cfg) a) - (qb - part (Sensor.pedalB.cal cfg) b)) = qa - qb by ring] at this
      linarith
    linarith
  · exact .inr (.inr (.inl (heldFor_rel hr2 (range .brakeFront .brakeRear) h)))
  · refine .inr (.inr (.inr (.inl (heldFor_rel hr2 ?_ h))))
    rintro m d ⟨⟨-, hk⟩, t, hi, rfl⟩ ⟨hen, h1, h2⟩
    obtain ⟨f, qf, f1, -, f3, f4, f5, f6⟩ := read .brakeFront m t hk hi
    obtain ⟨⟨a, b⟩, hab⟩ := Option.ne_none_iff_exists'.mp hk.both
    obtain ⟨q, e, hq⟩ := last_pedal cfg hc m
    refine ⟨hen, a, b, f, hab, f1, ?_, ?_⟩
    · rw [hlim.pedal, hi.inputs, e] at h1
      simp only [F32.lt, decide_eq_true_eq] at h1
      simp only [pedal, hab] at hq
      rw [p23]
      generalize (2 : ℚ) ^ (-25 : ℤ) = ε at *
      have := (abs_le.mp hq).2
      linarith
    · simp only [Sensor.value] at f3
      rw [hlim.brake, f3] at h2
      simp only [F32.lt, decide_eq_true_eq] at h2
      rw [p23]
      generalize (2 : ℚ) ^ (-25 : ℤ) = ε at *
      have := (abs_le.mp f6).2
      linarith
  · exact .inr (.inr (.inr (.inr ⟨_, _, _, .temperature, heldFor_rel hr2 (fun m d hR hb => meas .temperature m d hR
      ⟨_, rfl, hb⟩) h⟩)))
  · exact .inr (.inr (.inr (.inr ⟨_, _, _, .current, heldFor_rel hr2 (fun m d hR hb => meas .current m d hR
      ⟨_, rfl, hb⟩) h⟩)))
  · exact .inr (.inr (.inr (.inr ⟨_, _, _, .voltage, heldFor_rel hr2 (fun m d hR hb => meas .voltage m d hR
      ⟨_, rfl, hb⟩) h⟩)))
  · exact .inr (.inr (.inr (.inr ⟨_, _, _, .charge, heldFor_rel hr2 (fun m d hR hb => meas .charge m d hR
      ⟨_, rfl, hb⟩) (heldFor_one (P := lowSoc cfg) hm h)⟩)))
  · exfalso
    have : ∀ d ∈ ds, d.battery.bmsFaultIndicator = false := by
      intro d hd
      clear hr2 hstd hk hm h
      induction hr with
      | nil => cases hd
      | cons hab _ ih =>
        rcases List.mem_cons.mp hd with rfl | hd
        · obtain ⟨t, hi, rfl⟩ := hab; exact hi.fault
        · exact ih hd
    rw [this d hm] at h; cases h

/-! ## The control software's part of a run -/

theorem veh_floats : ∀ (H : List Ev) (s : St), F32.IsFloat s.v.vd.inputs.accel →
    Vehicle.FloatWrites (vehOf buses w s H)
  | [], s, _ => fun d hd => by cases hd
  | e :: H, s, hf => by
    have hw : ∀ d, Vehicle.Ev.write d ∈ toVeh w s e → F32.IsFloat d.inputs.accel := by
      intro d hd
      cases e with
      | rx e =>
        cases e with
        | isr d g fifo => cases hd
        | read j =>
          simp only [toVeh] at hd
          split at hd
          · cases hd
          · split_ifs at hd
            · simp only [List.mem_singleton, Vehicle.Ev.write.injEq] at hd
              rw [hd, (bms_other _ _ _).1]; exact hf
            · simp only [List.mem_singleton, Vehicle.Ev.write.injEq] at hd
              rw [hd, (inv_other _ _ _).1]; exact hf
            · cases hd
      | sense r =>
        simp only [toVeh, List.mem_singleton, Vehicle.Ev.write.injEq] at hd
        rw [hd]; exact SenseCar.tick_float _ r s.v.vd hf
      | veh e =>
        cases e with
        | write d' =>
          simp only [toVeh, List.mem_singleton, Vehicle.Ev.write.injEq] at hd
          rw [hd]; exact hf
        | _ => simp [toVeh] at hd
    intro d hd
    simp only [vehOf] at hd
    rcases List.mem_append.mp hd with hd | hd
    · exact hw d hd
    · cases hs : step buses w s e with
      | error u => rw [hs] at hd; cases hd
      | ok r =>
        obtain ⟨s1, f1⟩ := r
        rw [hs] at hd
        refine veh_floats H s1 ?_ d hd
        obtain ⟨hv, -⟩ := step_split buses w hs
        rcases toVeh_cases w s e with h0 | ⟨x, h0⟩
        · rw [h0] at hv
          simp only [Vehicle.run, Except.ok.injEq, Prod.mk.injEq] at hv
          rw [← hv.1]; exact hf
        · rw [h0] at hv hw
          simp only [Vehicle.run] at hv
          split at hv
          · cases hv
          rename_i v1 g1 h1
          simp only [Except.ok.injEq, Prod.mk.injEq] at hv
          rw [← hv.1]
          by_cases hx : ∃ d, x = .write d
          · obtain ⟨d, rfl⟩ := hx
            simp only [Vehicle.step, Except.ok.injEq, Prod.mk.injEq] at h1
            rw [← h1.1]; exact hw d List.mem_cons_self
          · rw [(Vehicle.step_data h1 fun d hd => hx ⟨d, hd⟩).1]; exact hf

theorem veh_granted : ∀ (H : List Ev) (s : St), (∀ e, Ev.veh e ∈ H → Vehicle.Granted e) →
    ∀ e ∈ vehOf buses w s H, Vehicle.Granted e
  | [], s, _, e, he => by cases he
  | x :: H, s, hg, e, he => by
    simp only [vehOf] at he
    rcases List.mem_append.mp he with he | he
    · cases x with
      | rx x =>
        cases x with
        | isr d g fifo => cases he
        | read j =>
          simp only [toVeh] at he
          split at he
          · cases he
          · split_ifs at he
            · rw [List.mem_singleton.mp he]; trivial
            · rw [List.mem_singleton.mp he]; trivial
            · cases he
      | sense r => rw [List.mem_singleton.mp he]; trivial
      | veh y =>
        have := hg y List.mem_cons_self
        cases y with
        | write d => rw [List.mem_singleton.mp he]; trivial
        | _ => rw [List.mem_singleton.mp he]; exact this
    · split at he
      · cases he
      · exact veh_granted H _ (fun e he => hg e (List.mem_cons_of_mem _ he)) e he

theorem start_float (sm : StateMgr.StateManager) (dec : MsgFrame.Dec) (buf : Nat → UInt8) (ecu control : Bool) :
    F32.IsFloat (Vehicle.start sm dec buf ecu control).vd.inputs.accel :=
  show F32.IsFloat (.fin 0) from ⟨by decide +kernel, by norm_num⟩

variable (sm : StateMgr.StateManager) (dec : MsgFrame.Dec) (buf : Nat → UInt8) (ecu control : Bool)

/-- All three receive tasks, the sensor task and the control software from start-up. -/
abbrev begin (rx0 : RxState) : St := ⟨rx0, Vehicle.start sm dec buf ecu control⟩

/-- The verdict and the samples. -/
theorem verdict_samples (hsm : StateMgr.smInit true true true (StateMgr.wired cfg) = .ok (.ok, sm))
    (hl : inputSamples cfg 10 ≤ 65535) (hlb : bmsSamples cfg 10 ≤ 65535)
    {rx0 : RxState} {H : List Ev} {s : St} {fs : List InvDrv.Sent}
    (hrun : run buses (wiring cfg bdev idev) (begin sm dec buf ecu control rx0) H = .ok (s, fs))
    {f : Vsm.FaultStatus} (hf : s.v.status = some f) :
    (f = .fault → DriveFault cfg 10 (sel samples (Vehicle.start sm dec buf ecu control)
      (vehOf buses (wiring cfg bdev idev) (begin sm dec buf ecu control rx0) H))) ∧
    (f = .noFault → ¬ DriveFault cfg 10 (sel samples (Vehicle.start sm dec buf ecu control)
      (vehOf buses (wiring cfg bdev idev) (begin sm dec buf ecu control rx0) H))) := by
  obtain ⟨m0, hm0, i0, r0⟩ := Vehicle.start_inv cfg sm dec buf ecu control hsm
  have hv := run_veh buses _ H _ _ _ hrun
  obtain ⟨i1, -⟩ := Vehicle.run_sim _ [] _ _ _ _ i0 r0 (veh_floats buses _ H _ (start_float sm dec buf ecu control)) hv
  rw [List.nil_append] at i1
  obtain ⟨h', d, he, rfl⟩ := i1.status f hf
  have key := FaultMgr.C09_status_exact cfg 10 m0 hm0 hl hlb h' d
  rw [← he, copies_sel] at key
  exact ⟨fun h => (key.1.mp h).2, fun h => (key.2.2.mp h).2⟩

theorem start_moments (p : Vehicle.St → Vehicle.Ev → Bool) (hp : ∀ s d, p s (.write d) = false)
    {rx0 : RxState} (hwb : Car.Wired buses bdev rx0) (hwi : InvCar.Wired buses idev rx0)
    {H : List Ev} (hstd : AllStandard (rxs H)) {s : St} {fs : List InvDrv.Sent}
    (hrun : run buses (wiring cfg bdev idev) (begin sm dec buf ecu control rx0) H = .ok (s, fs)) :
    List.Forall₂ (fun m d => ∃ s, Inv buses cfg bdev rx0 m s ∧ d = s.v.vd)
      (moments buses (wiring cfg bdev idev) p (begin sm dec buf ecu control rx0) [] H)
      (sel p (Vehicle.start sm dec buf ecu control)
        (vehOf buses (wiring cfg bdev idev) (begin sm dec buf ecu control rx0) H)) :=
  moments_sel buses cfg bdev idev p hp hwi H [] _ _ _
    (inv_start buses cfg bdev idev hwb hwi sm dec buf ecu control) hstd hrun

/-! ## C156 -/

/-- **C156, every fault has a cause.** Receive tasks, sensor task, state manager and all other tasks from start-up, in
every interleaving. If the state manager's verdict is "fault", then at enough moments in a row at which it took its
sample (one, for the state of charge) something was wrong outside: a pedal or brake sensor was last read out of its
range, the pedal sensors apart, accelerator and brake pressed together, or the battery's last report beyond its limit.
Missing: this is shown for histories in which, when the first sample is taken, all sensors have been read and the
battery has reported; `C156_before_report` shows that without this it is false. -/
theorem C156_fault_has_cause_partial
    (hsm : StateMgr.smInit true true true (StateMgr.wired cfg) = .ok (.ok, sm))
    (hl : inputSamples cfg 10 ≤ 65535) (hlb : bmsSamples cfg 10 ≤ 65535)
    (hc : ∀ s : Sensor, (s.cal cfg).rawLower ≠ (s.cal cfg).rawUpper) (lim ta tb : ℚ) (hlim : Limits cfg lim ta tb)
    (rx0 : RxState) (hwb : Car.Wired buses bdev rx0) (hwi : InvCar.Wired buses idev rx0)
    (H : List Ev) (hstd : AllStandard (rxs H)) (s : St) (fs : List InvDrv.Sent)
    (hrun : run buses (wiring cfg bdev idev) (begin sm dec buf ecu control rx0) H = .ok (s, fs))
    (hk : ∀ m ∈ moments buses (wiring cfg bdev idev) samples (begin sm dec buf ecu control rx0) [] H,
      Known (taken buses rx0) m)
    (hf : s.v.status = some .fault) :
    Cause cfg lim ta tb (taken buses rx0)
      (moments buses (wiring cfg bdev idev) samples (begin sm dec buf ecu control rx0) [] H) :=
  cause_of_fault buses cfg bdev hwb hc hlim
    (start_moments buses cfg bdev idev sm dec buf ecu control samples (fun _ _ => rfl) hwb hwi hstd hrun)
    (moments_standard buses _ samples H [] _ hstd) hk
    ((verdict_samples buses cfg bdev idev sm dec buf ecu control hsm hl hlb hrun hf).1 rfl)

theorem forall₂_mem {α β : Type} {R : α → β → Prop} {as : List α} {bs : List β} (h : List.Forall₂ R as bs) {a : α}
    (ha : a ∈ as) : ∃ b ∈ bs, R a b := by
  induction h with
  | nil => cases ha
  | cons hab _ ih =>
    rcases List.mem_cons.mp ha with rfl | ha
    · exact ⟨_, List.mem_cons_self, hab⟩
    · obtain ⟨b, hb, hR⟩ := ih ha; exact ⟨b, List.mem_cons_of_mem _ hb, hR⟩

/-- **C156, before the first report.** With a limit of at least 1 for the state of charge, one sample taken before the
battery's first report of it is processed counts as a fault for ever: the verdict is never "no fault" again, whatever
the battery reports. -/
theorem C156_before_report
    (hsm : StateMgr.smInit true true true (StateMgr.wired cfg) = .ok (.ok, sm))
    (hl : inputSamples cfg 10 ≤ 65535) (hlb : bmsSamples cfg 10 ≤ 65535) (hmin : 1 ≤ cfg.bms.minStateOfCharge.toNat)
    (rx0 : RxState) (hwb : Car.Wired buses bdev rx0) (hwi : InvCar.Wired buses idev rx0)
    (H : List Ev) (hstd : AllStandard (rxs H)) (s : St) (fs : List InvDrv.Sent)
    (hrun : run buses (wiring cfg bdev idev) (begin sm dec buf ecu control rx0) H = .ok (s, fs))
    (m : List Ev) (hm : m ∈ moments buses (wiring cfg bdev idev) samples (begin sm dec buf ecu control rx0) [] H)
    (hnone : lastReport .soc (taken buses rx0 m) = none) :
    s.v.status ≠ some .noFault := by
  intro hf
  refine (verdict_samples buses cfg bdev idev sm dec buf ecu control hsm hl hlb hrun hf).2 rfl ?_
  have hr := start_moments buses cfg bdev idev sm dec buf ecu control samples (fun _ _ => rfl) hwb hwi hstd hrun
  obtain ⟨d, hd, t, hi, rfl⟩ := forall₂_mem hr hm
  refine .inr (.inr (.inr (.inr (.inr (.inr (.inr (.inl ⟨_, hd, ?_⟩)))))))
  have h := last_report buses cfg bdev hwb hi (moments_standard buses _ samples H [] _ hstd m hm) .soc
  unfold taken at hnone
  rw [hnone] at h
  have h0 : t.v.vd.battery.stateOfCarge = .fin 0 := by
    have : Val.flt t.v.vd.battery.stateOfCarge = Val.flt (.fin 0) := h
    injection this
  unfold lowSoc
  rw [h0, F32.ofInt_eq (by
    have := cfg.bms.minStateOfCharge.toNat_lt
    rw [abs_of_nonneg (by omega)]; omega)]
  have : (1 : ℚ) ≤ ((cfg.bms.minStateOfCharge.toNat : ℤ) : ℚ) := by exact_mod_cast hmin
  simp only [F32.lt, decide_eq_true_eq]
  linarith

/-- **C156, and every cause is found.** A sensor last read out of its range at this many samples in a row, or a battery
report beyond its limit: the verdict is not "no fault" from then on. -/
theorem C156_cause_found
    (hsm : StateMgr.smInit true true true (StateMgr.wired cfg) = .ok (.ok, sm))
    (hl : inputSamples cfg 10 ≤ 65535) (hlb : bmsSamples cfg 10 ≤ 65535)
    (rx0 : RxState) (hwb : Car.Wired buses bdev rx0) (hwi : InvCar.Wired buses idev rx0)
    (H : List Ev) (hstd : AllStandard (rxs H)) (s : St) (fs : List InvDrv.Sent)
    (hrun : run buses (wiring cfg bdev idev) (begin sm dec buf ecu control rx0) H = .ok (s, fs))
    (hcause : let ms := moments buses (wiring cfg bdev idev) samples (begin sm dec buf ecu control rx0) [] H
      HeldFor (OutOfRange cfg .pedalA .pedalB) (inputSamples cfg 10) ms ∨
      HeldFor (OutOfRange cfg .brakeFront .brakeRear) (inputSamples cfg 10) ms ∨
      ∃ fld bad n, Car.Measured cfg fld bad n ∧
        HeldFor (fun H => ∃ v, lastReport fld (taken buses rx0 H) = some v ∧ bad v) n ms) :
    s.v.status ≠ some .noFault := by
  intro hf
  refine (verdict_samples buses cfg bdev idev sm dec buf ecu control hsm hl hlb hrun hf).2 rfl ?_
  have hr := start_moments buses cfg bdev idev sm dec buf ecu control samples (fun _ _ => rfl) hwb hwi hstd hrun
  have hr2 := (List.forall₂_and_left _ _).mpr ⟨moments_standard buses _ samples H [] _ hstd, hr⟩
  have flip : List.Forall₂ (fun d m => AllStandard (rxs m) ∧ ∃ s, Inv buses cfg bdev rx0 m s ∧ d = s.v.vd) _ _ :=
    List.Forall₂.flip hr2
  have range : ∀ s o : Sensor, ∀ (d : VData) (m : List Ev), (AllStandard (rxs m) ∧
      ∃ t, Inv buses cfg bdev rx0 m t ∧ d = t.v.vd) → OutOfRange cfg s o m →
      (outside (s.cal cfg) (rawOf s d.inputs) ∨ outside (o.cal cfg) (rawOf o d.inputs)) := by
    rintro s o d m ⟨-, t, hi, rfl⟩ ⟨raw, ⟨h1, h2⟩ | ⟨h1, h2⟩⟩
    · left; rw [hi.inputs, last_raw cfg h1]; exact h2
    · right; rw [hi.inputs, last_raw cfg h1]; exact h2
  rcases hcause with h | h | ⟨fld, bad, n, hm, h⟩
  · exact .inl (heldFor_rel flip (range .pedalA .pedalB) h)
  · exact .inr (.inr (.inl (heldFor_rel flip (range .brakeFront .brakeRear) h)))
  · have key : HeldFor (fun d => bad (getBms fld d)) n (sel samples (Vehicle.start sm dec buf ecu control)
        (vehOf buses (wiring cfg bdev idev) (begin sm dec buf ecu control rx0) H)) := by
      refine heldFor_rel flip ?_ h
      rintro d m ⟨hs, t, hi, rfl⟩ ⟨v, hv, hb⟩
      unfold taken at hv
      rw [last_report buses cfg bdev hwb hi hs, hv]; exact hb
    exact hm.documented.1.fault key

/-! ## C157 -/

theorem forall₂_split {α β : Type} {R : α → β → Prop} {a b : List α} {ds : List β} (h : List.Forall₂ R (a ++ b) ds) :
    ∃ x y, ds = x ++ y ∧ List.Forall₂ R a x ∧ List.Forall₂ R b y := by
  induction a generalizing ds with
  | nil => exact ⟨[], ds, rfl, .nil, h⟩
  | cons c a ih =>
    cases h with
    | cons hcd ht =>
      obtain ⟨x, y, rfl, h1, h2⟩ := ih ht
      exact ⟨_ :: x, y, rfl, .cons hcd h1, h2⟩

theorem forall₂_all {α β : Type} {R : α → β → Prop} {P : α → Prop} {Q : β → Prop} (hpq : ∀ a b, R a b → P a → Q b)
    {as : List α} {bs : List β} (h : List.Forall₂ R as bs) (hp : ∀ a ∈ as, P a) : ∀ b ∈ bs, Q b := by
  induction h with
  | nil => intro b hb; cases hb
  | cons hab _ ih =>
    intro b hb
    rcases List.mem_cons.mp hb with rfl | hb
    · exact hpq _ _ hab (hp _ List.mem_cons_self)
    · exact ih (fun a ha => hp a (List.mem_cons_of_mem _ ha)) b hb

theorem forall₂_one {α β : Type} {R : α → β → Prop} {a : α} {bs : List β} (h : List.Forall₂ R [a] bs) :
    ∃ b, bs = [b] ∧ R a b := by
  cases h with
  | cons hab ht => cases ht; exact ⟨_, rfl, hab⟩

theorem driveOff_rel {α : Type} {R : α → VData → Prop} {pressed ready : α → Prop}
    (hp : ∀ a d, R a d → (pressed a ↔ Healthy.Pressed d)) (hy : ∀ a d, R a d → (ready a ↔ Healthy.InverterReady d))
    {wait timeout : Nat} {as : List α} {ds : List VData} (hr : List.Forall₂ R as ds)
    (h : DriveOff pressed ready wait timeout as) : Healthy.DriveOff wait timeout ds := by
  have up : ∀ a d, R a d → ¬ pressed a → Healthy.Released d := fun a d hR hn => by
    have : ¬ Healthy.Pressed d := fun h => hn ((hp a d hR).mpr h)
    unfold Healthy.Pressed at this
    simpa [Healthy.Released] using this
  obtain ⟨first, second, idle, press, dwell, charge, rdy, held, released, press', rfl, h1, h2, h3, h4, h5, h6, h7, h8, h9,
    h10⟩ := h
  cases hr with
  | cons r1 hr =>
    cases hr with
    | cons r2 hr =>
      obtain ⟨l, e8, rfl, hr, k8⟩ := forall₂_split hr
      obtain ⟨l, e7, rfl, hr, k7⟩ := forall₂_split hr
      obtain ⟨l, e6, rfl, hr, k6⟩ := forall₂_split hr
      obtain ⟨l, e5, rfl, hr, k5⟩ := forall₂_split hr
      obtain ⟨l, e4, rfl, hr, k4⟩ := forall₂_split hr
      obtain ⟨l, e3, rfl, hr, k3⟩ := forall₂_split hr
      obtain ⟨e1, e2, rfl, k1, k2⟩ := forall₂_split hr
      obtain ⟨dp, rfl, kp⟩ := forall₂_one k2
      obtain ⟨dr, rfl, kr⟩ := forall₂_one k5
      obtain ⟨dq, rfl, kq⟩ := forall₂_one k8
      refine ⟨_, _, e1, dp, e3, e4, dr, e6, e7, dq, rfl, forall₂_all up k1 h1, (hp _ _ kp).mp h2, ?_, ?_, ?_,
        (hy _ _ kr).mp h6, forall₂_all (fun a d hR => (hp a d hR).mp) k6 h7, ?_, forall₂_all up k7 h9, (hp _ _ kq).mp h10⟩
      · rw [← k3.length_eq]; exact h3
      · exact forall₂_all (fun a d hR hn h => hn ((hy a d hR).mpr h)) k4 h4
      · rw [← k4.length_eq]; exact h5
      · intro h0
        rw [h0] at k7
        cases k7
        exact h8 rfl

theorem notAsked_rel {α : Type} {R : α → VData → Prop} {pressed : α → Prop}
    (hp : ∀ a d, R a d → (pressed a ↔ Healthy.Pressed d)) {as : List α} {ds : List VData} (hr : List.Forall₂ R as ds)
    (h : NotAsked pressed as) : Healthy.NotAsked ds := by
  obtain ⟨held, released, rfl, h1, h2⟩ := h
  obtain ⟨x, y, rfl, k1, k2⟩ := forall₂_split hr
  refine ⟨x, y, rfl, forall₂_all (fun a d hR => (hp a d hR).mp) k1 h1, forall₂_all (fun a d hR hn => ?_) k2 h2⟩
  have : ¬ Healthy.Pressed d := fun h => hn ((hp a d hR).mpr h)
  unfold Healthy.Pressed at this
  simpa [Healthy.Released] using this

/-- The button is pressed: it was when last looked at. -/
def Pressed (m : List Ev) : Prop := lastButton m = some true

/-- The inverter is ready: its last report says so. -/
def Ready (rx0 : RxState) (m : List Ev) : Prop := lastState (takenInv buses rx0 m) = some 5

/-- **C157.** Receive tasks, sensor task, state manager, throttle task and all other tasks from start-up, in every
interleaving in which locks are granted, with everything known (`Known`) whenever the state manager takes a sample, and
without a cause of a drive fault outside. The driver presses the button as documented while the inverter reports
that it is ready in time; what counts are the last reading of the button and the last report taken from the bus when the
state manager acts. From then on, as long as the driver does not press the button again, every activation of the
throttle task is answered by one command frame, which tells the inverter to drive forwards with the torque of the
curve for the pedal position last shown by the two sensors, up to a deviation of one eight-millionth of the travel. -/
theorem C157_drives_from_outside
    (hsm : StateMgr.smInit true true true (StateMgr.wired cfg) = .ok (.ok, sm))
    (hl : inputSamples cfg 10 ≤ 65535) (hlb : bmsSamples cfg 10 ≤ 65535)
    (hwait : cfg.vcu.hvActiveStateWait.toNat ≤ 4294967290)
    (hc : ∀ s : Sensor, (s.cal cfg).rawLower ≠ (s.cal cfg).rawUpper) (lim ta tb : ℚ) (hlim : Limits cfg lim ta tb)
    (rx0 : RxState) (hwb : Car.Wired buses bdev rx0) (hwi : InvCar.Wired buses idev rx0)
    (A B : List Ev) (hstd : AllStandard (rxs (A ++ B))) (hg : ∀ e, Ev.veh e ∈ A ++ B → Vehicle.Granted e)
    (s1 s2 : St) (f1 f2 : List InvDrv.Sent)
    (h1 : run buses (wiring cfg bdev idev) (begin sm dec buf ecu control rx0) A = .ok (s1, f1))
    (h2 : run buses (wiring cfg bdev idev) s1 B = .ok (s2, f2))
    (hk : ∀ m ∈ moments buses (wiring cfg bdev idev) samples (begin sm dec buf ecu control rx0) [] (A ++ B),
      Known (taken buses rx0) m)
    (hno : ¬ Cause cfg lim ta tb (taken buses rx0)
      (moments buses (wiring cfg bdev idev) samples (begin sm dec buf ecu control rx0) [] (A ++ B)))
    (hoff : DriveOff Pressed (Ready buses rx0) cfg.vcu.hvActiveStateWait.toNat cfg.vcu.hvChargeTimeout.toNat
      (moments buses (wiring cfg bdev idev) acts (begin sm dec buf ecu control rx0) [] A))
    (hq : s1.v.pending = [] ∧ s1.v.thr.pc = .idle)
    (hgo : NotAsked Pressed (moments buses (wiring cfg bdev idev) acts s1 A B)) :
    ∃ done rest, moments buses (wiring cfg bdev idev) drives s1 A B = done ++ rest ∧ rest.length ≤ 1 ∧
      (s2.v.thr.pc = .idle → rest = []) ∧
      List.Forall₂ (fun m f => f.msgId = 0x0C0 ∧
        ∃ a, |a - pedal cfg m| ≤ (2 : ℚ) ^ (-23 : ℤ) ∧ Healthy.Drives (.fin a) f.bytes) done f2 := by
  have hstdA : AllStandard (rxs A) := by
    intro d g fifo hm
    refine hstd d g fifo ?_
    rw [rxs_append]; exact List.mem_append_left _ hm
  have i0 := inv_start buses cfg bdev idev hwb hwi sm dec buf ecu control
  have i1 := inv_run buses cfg bdev idev hwi A [] _ s1 f1 i0 hstdA h1
  rw [List.nil_append] at i1
  have hrun := run_append buses _ h1 h2
  have hva := vehOf_append buses _ B h1
  have hv1 := run_veh buses _ A _ _ _ h1
  have hv2 := run_veh buses _ B _ _ _ h2
  have hfl := veh_floats buses (wiring cfg bdev idev) (A ++ B) (begin sm dec buf ecu control rx0)
    (start_float sm dec buf ecu control)
  have hgr := veh_granted buses (wiring cfg bdev idev) (A ++ B) (begin sm dec buf ecu control rx0) hg
  rw [hva] at hfl hgr
  have hcop := Vehicle.copies_append (b := vehOf buses (wiring cfg bdev idev) s1 B) hv1
  have pressed : ∀ (m : List Ev) (d : VData), (∃ s, Inv buses cfg bdev rx0 m s ∧ d = s.v.vd) →
      (Pressed m ↔ Healthy.Pressed d) := by
    rintro m d ⟨t, hi, rfl⟩
    unfold Pressed Healthy.Pressed
    rw [hi.dash, last_button]
    simp
  have rdy : ∀ (m : List Ev) (d : VData), (∃ s, Inv buses cfg bdev rx0 m s ∧ d = s.v.vd) →
      (Ready buses rx0 m ↔ Healthy.InverterReady d) := by
    rintro m d ⟨t, hi, rfl⟩
    exact (last_state buses cfg bdev hi).symm
  have p1 : ¬ DriveFault cfg 10 ((Vehicle.copies (Vehicle.start sm dec buf ecu control)
      (vehOf buses (wiring cfg bdev idev) (begin sm dec buf ecu control rx0) A) ++
      Vehicle.copies s1.v (vehOf buses (wiring cfg bdev idev) s1 B)).filterMap id) := by
    rw [← hcop, ← hva, copies_sel]
    intro hd
    exact hno (cause_of_fault buses cfg bdev hwb hc hlim
      (start_moments buses cfg bdev idev sm dec buf ecu control samples (fun _ _ => rfl) hwb hwi hstd hrun)
      (moments_standard buses _ samples (A ++ B) [] _ hstd) hk hd)
  have p2 : Healthy.DriveOff cfg.vcu.hvActiveStateWait.toNat cfg.vcu.hvChargeTimeout.toNat
      (Vehicle.looks (Vehicle.start sm dec buf ecu control)
        (vehOf buses (wiring cfg bdev idev) (begin sm dec buf ecu control rx0) A)) := by
    rw [looks_sel]
    exact driveOff_rel pressed rdy
      (start_moments buses cfg bdev idev sm dec buf ecu control acts (fun _ _ => rfl) hwb hwi hstdA h1) hoff
  have p3 : Healthy.NotAsked (Vehicle.looks s1.v (vehOf buses (wiring cfg bdev idev) s1 B)) := by
    rw [looks_sel]
    exact notAsked_rel pressed (moments_sel buses cfg bdev idev acts (fun _ _ => rfl) hwi B A s1 s2 f2 i1 hstd h2) hgo
  obtain ⟨done, rest, e1, e2, e3, e4⟩ := Vehicle.C135_drives_when_asked cfg sm dec buf ecu control hsm hl hlb hwait
    (vehOf buses (wiring cfg bdev idev) (begin sm dec buf ecu control rx0) A)
    (vehOf buses (wiring cfg bdev idev) s1 B) s1.v s2.v f1 f2 hfl hgr hv1 hv2 p1 p2 hq p3
  rw [pedals_sel] at e1
  have hr := moments_sel buses cfg bdev idev drives (fun _ _ => rfl) hwi B A s1 s2 f2 i1 hstd h2
  obtain ⟨x, y, hxy, rfl, rfl⟩ := List.map_eq_append_iff.mp e1
  rw [hxy] at hr
  obtain ⟨x', y', hm, k1, k2⟩ := forall₂_split hr.flip
  refine ⟨x', y', hm, ?_, ?_, ?_⟩
  · rw [← k2.length_eq]; simpa using e2
  · intro hidle
    have := e3 hidle
    rw [List.map_eq_nil_iff] at this
    rw [this] at k2; cases k2; rfl
  · clear hxy hm hr e1 e2 e3 k2
    generalize f2 = fs at e4
    induction k1 generalizing fs with
    | nil => cases e4; exact .nil
    | cons hab _ ih =>
      cases e4 with
      | cons hf ht =>
        refine .cons ?_ (ih _ ht)
        obtain ⟨t, hi, rfl⟩ := hab
        obtain ⟨q, eq, hd⟩ := last_pedal cfg hc _
        dsimp only at hf
        rw [hi.inputs, eq] at hf
        refine ⟨hf.1, q, hd.trans ?_, hf.2⟩
        norm_num

/-! ## A drive with everything that feeds it -/

/-- The example's configuration: 20 ms of waiting for high voltage. -/
def demoCfg : Config := { Config.default with vcu := ⟨20, 7000⟩ }

/-- The four sensors in the middle of their ranges or, the pedal, at this part (in thirds) of the way up. -/
def demoReads (thirds : UInt16) (button : Bool) : DiscreteSense.Reads :=
  let at' (c : AdcCal) (n : UInt16) : Adc.Status × UInt16 := (.ok, c.rawLower + (c.rawUpper - c.rawLower) / 3 * n)
  { accelA := at' demoCfg.inputs.accelPedal.calibrationA thirds
    accelB := at' demoCfg.inputs.accelPedal.calibrationB thirds
    brakeFront := at' demoCfg.inputs.brakePressureFront 0
    brakeRear := at' demoCfg.inputs.brakePressureRear 0
    button := button, acquired := true }

/-- A frame of the battery: cell voltages or temperatures, or pack data with this charge. -/
def demoBattery (id : UInt32) (soc : UInt8) : HalRx := .frame ⟨false, id, false, #v[0, 0, 0, 0, 0, soc, 0, 0], 8⟩

/-- One period: the sensors are read, three frames of the battery and one of the inverter arrive and are taken, then the
state manager makes a step. -/
def demoRound (soc st : UInt8) (thirds : UInt16) (button : Bool) : List Ev :=
  [.sense (demoReads thirds button), .rx (.isr 1 0 [demoBattery 0x301 0, demoBattery 0x302 0, demoBattery 0x303 soc]),
   .rx (.isr 0 0 [InvCar.stateFrame st]), .rx (.read 1), .rx (.read 1), .rx (.read 1), .rx (.read 0)] ++
  [.copy true, .handle true, .call Drive.okEnv, .call Drive.okEnv, .call Drive.okEnv].map .veh

/-- Start-up to drive. -/
def demoOff (soc : UInt8) : List Ev :=
  [(0, 0, false), (0, 0, false), (0, 0, true), (0, 0, false), (0, 0, false), (0, 0, false), (5, 0, false),
   (5, 0, false), (5, 3, true)].flatMap fun (x : UInt8 × UInt16 × Bool) => demoRound soc x.1 x.2.1 x.2.2

/-- The rest of the drive: full pedal, then two thirds, then none. -/
def demoOn : List Ev :=
  (Vehicle.pedal 4).map .veh ++ demoRound 16 5 2 true ++ (Vehicle.pedal 4).map .veh ++
    demoRound 16 5 0 false ++ (Vehicle.pedal 4).map .veh

/-- With the battery charged, the state manager samples and acts on what was last reported, everything being known, and
the pedal at full, two thirds and rest is answered with 500, 183.3 and 0 Nm. -/
example :
    (match Vehicle.demoStart with
    | .ok v =>
      let w := wiring demoCfg 1 0
      let s : St := ⟨demoState, v⟩
      (match run demoBuses w s (demoOff 16) with
      | .ok (a, _) =>
        (moments demoBuses w samples s [] (demoOff 16)).all (fun m =>
          [Sensor.pedalA, .pedalB, .brakeFront, .brakeRear].all (fun x => (last x m).isSome) && (lastBoth m).isSome &&
          [BmsField.maxT, .current, .maxV, .soc].all (fun f => (lastReport f (taken demoBuses demoState m)).isSome)) &&
        (moments demoBuses w acts s [] (demoOff 16)).map (fun m =>
          (lastButton m, lastState (takenInv demoBuses demoState m))) ==
          [(some false, some 0), (some false, some 0), (some true, some 0), (some false, some 0), (some false, some 0),
           (some false, some 0), (some false, some 5), (some false, some 5), (some true, some 5)] &&
        (match run demoBuses w a demoOn with
        | .ok (b, fs) => decide (b.v.thr.pc = .idle) && fs.map Drive.torqueOf == [5000, 1833, 0]
        | .error _ => false)
      | .error _ => false)
    | .error _ => false) = true := by decide +kernel

/-- The wiring and the limits are those the theorems ask for. -/
example : Car.Wired demoBuses 1 demoState ∧ InvCar.Wired demoBuses 0 demoState ∧
    (∃ lim ta tb, Limits demoCfg lim ta tb) ∧
    ∀ s : Sensor, (s.cal demoCfg).rawLower ≠ (s.cal demoCfg).rawUpper :=
  ⟨⟨rfl, by decide +kernel, fun d hd => by
      simp only [demoBuses, if_neg hd]; split <;> decide +kernel, rfl, rfl, rfl⟩,
   ⟨by decide +kernel, fun d hd => by
      simp only [demoBuses, if_neg hd]; split <;> decide +kernel, rfl, rfl⟩,
   have h : f01 = .fin (rnd (1/10)) := F32.round_eq (by norm_num [abs_of_pos])
   ⟨_, _, _, h, h, h⟩, fun s => by cases s <;> decide⟩

/-- A discharged battery is a fault with a cause: the last report when the sample was taken. The same sample without any
report is a fault as well (`C156_before_report`), and a charged battery reported before it is none. -/
example :
    (match Vehicle.demoStart with
    | .ok v =>
      let w := wiring demoCfg 1 0
      let s : St := ⟨demoState, v⟩
      let sampled (H : List Ev) : Option (Option Vsm.FaultStatus × List (Option Val)) :=
        match run demoBuses w s H with
        | .ok (a, _) => some (a.v.status,
            (moments demoBuses w samples s [] H).map fun m => lastReport .soc (taken demoBuses demoState m))
        | .error _ => none
      decide (sampled ((demoRound 0 0 0 false).take 8) = some (some .fault, [some (.flt (.fin 0))])) &&
      decide (sampled [.sense (demoReads 0 false), .veh (.copy true)] = some (some .fault, [none])) &&
      decide (sampled ((demoRound 16 0 0 false).take 8) = some (some .noFault, [some (.flt (.fin 2048))]))
    | .error _ => false) = true := by decide +kernel

end Verif.Whole
