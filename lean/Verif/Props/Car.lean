import Verif.Props.CanFresh
import Verif.Props.Response
import Verif.Spec.Car

set_option autoImplicit false

/-!
# C133: a battery fault on the bus ends torque on the bus
-/

namespace Verif.Vehicle

/-- Only a write changes the battery's data and the inputs. -/
theorem step_vd {s s' : St} {fs : List InvDrv.Sent} {e : Ev} (h : step s e = .ok (s', fs)) (he : ∀ d, e ≠ .write d) :
    s'.vd.battery = s.vd.battery ∧ s'.vd.inputs = s.vd.inputs := by
  cases e with
  | write d => exact absurd rfl (he d)
  | copy ok =>
    simp only [step] at h
    split at h
    · split at h
      · simp at h
      · simp only [Except.ok.injEq, Prod.mk.injEq] at h; rw [← h.1]; exact ⟨rfl, rfl⟩
    · simp only [Except.ok.injEq, Prod.mk.injEq] at h; rw [← h.1]; exact ⟨rfl, rfl⟩
  | handle ok =>
    simp only [step] at h
    split at h
    · simp only [Except.ok.injEq, Prod.mk.injEq] at h; rw [← h.1]; exact ⟨rfl, rfl⟩
    · split at h
      · simp at h
      · simp only [Except.ok.injEq, Prod.mk.injEq] at h; rw [← h.1]; exact ⟨rfl, rfl⟩
  | call en =>
    simp only [step] at h
    split at h
    · simp only [Except.ok.injEq, Prod.mk.injEq] at h; rw [← h.1]; exact ⟨rfl, rfl⟩
    · simp only [applyOut] at h
      split at h
      · simp at h
      · simp only [Except.ok.injEq, Prod.mk.injEq] at h; rw [← h.1]; exact ⟨rfl, rfl⟩
  | throttle ok en =>
    simp only [step] at h
    split at h
    · simp at h
    · simp only [Except.ok.injEq, Prod.mk.injEq] at h; rw [← h.1]; exact ⟨rfl, rfl⟩
  | pcBatch bytes crc =>
    simp only [step] at h
    split at h
    · simp only [Except.ok.injEq, Prod.mk.injEq] at h; rw [← h.1]; exact ⟨rfl, rfl⟩
    · split at h
      · simp at h
      · simp only [Except.ok.injEq, Prod.mk.injEq] at h; rw [← h.1]; exact ⟨rfl, rfl⟩
  | pcAct lock =>
    simp only [step] at h
    split at h
    · simp only [Except.ok.injEq, Prod.mk.injEq] at h; rw [← h.1]; exact ⟨rfl, rfl⟩
    · split at h
      · simp at h
      · rename_i a as _ _ s1 h1
        simp only [Except.ok.injEq, Prod.mk.injEq] at h
        rw [← h.1]
        cases a with
        | ecuError b => simp only [act, Except.ok.injEq] at h1; rw [← h1]; exact ⟨rfl, rfl⟩
        | power c b =>
          simp only [act, setPower] at h1
          split at h1
          · simp at h1
          · simp only [Except.ok.injEq] at h1; rw [← h1]; exact ⟨rfl, rfl⟩
        | print x => simp only [act, Except.ok.injEq] at h1; rw [← h1]; exact ⟨rfl, rfl⟩
        | terminal bs =>
          simp only [act] at h1
          split at h1
          · simp at h1
          · simp only [Except.ok.injEq] at h1; rw [← h1]; exact ⟨rfl, rfl⟩

end Verif.Vehicle

namespace Verif.Car
open Verif.Can Verif.CanSpec Verif.CanFresh Verif.Dbc Verif.FaultSpec

variable (buses : Nat → RxBus) (dev k : Nat)

/-! ## The part of the control software -/

/-- What the control software sees of a history. -/
def vehOf (s : St) : List (Nat × Ev) → Vehicle.Hist
  | [] => []
  | (t, e) :: H => (toVeh dev k s e).map (fun x => (t, x)) ++
    match step buses dev k s e with
    | .error _ => []
    | .ok (s', _) => vehOf s' H

theorem toVeh_cases (s : St) (e : Ev) : toVeh dev k s e = [] ∨ ∃ x, toVeh dev k s e = [x] := by
  cases e with
  | rx e =>
    cases e with
    | isr d g fifo => exact Or.inl rfl
    | read j =>
      simp only [toVeh]
      split
      · split
        · exact Or.inl rfl
        · exact Or.inr ⟨_, rfl⟩
      · exact Or.inl rfl
  | veh e => cases e <;> exact Or.inr ⟨_, rfl⟩

/-- The run of the control software inside a run of the whole. -/
theorem run_veh (H : List (Nat × Ev)) : ∀ (s s' : St) (fs : List (Nat × InvDrv.Sent)),
    run buses dev k s H = .ok (s', fs) →
    Vehicle.run s.v (Vehicle.events (vehOf buses dev k s H)) = .ok (s'.v, fs.map (·.2)) ∧
      Vehicle.frames s.v (vehOf buses dev k s H) = fs := by
  induction H with
  | nil =>
    intro s s' fs h
    simp only [run, Except.ok.injEq, Prod.mk.injEq] at h
    rw [← h.1, ← h.2]; exact ⟨rfl, rfl⟩
  | cons x H ih =>
    intro s s' fs h
    obtain ⟨t, e⟩ := x
    simp only [run] at h
    split at h
    · simp at h
    · rename_i s1 f1 h1
      split at h
      · simp at h
      · rename_i s2 f2 h2
        simp only [Except.ok.injEq, Prod.mk.injEq] at h
        obtain ⟨rfl, rfl⟩ := h
        obtain ⟨i1, i2⟩ := ih s1 s2 f2 h2
        have hs := h1
        simp only [step] at hs
        split at hs
        · simp at hs
        · rename_i v fs hv
          simp only [Except.ok.injEq, Prod.mk.injEq] at hs
          obtain ⟨rfl, rfl⟩ := hs
          simp only [vehOf, h1]
          rcases toVeh_cases dev k s e with h0 | ⟨y, h0⟩
          · rw [h0] at hv ⊢
            simp only [Vehicle.run, Except.ok.injEq, Prod.mk.injEq] at hv
            obtain ⟨rfl, rfl⟩ := hv
            exact ⟨i1, i2⟩
          · rw [h0] at hv ⊢
            simp only [Vehicle.run] at hv
            split at hv
            · simp at hv
            · rename_i v1 f1 hv1
              simp only [Except.ok.injEq, Prod.mk.injEq, List.append_nil] at hv
              obtain ⟨rfl, rfl⟩ := hv
              constructor
              · simp only [Vehicle.events, List.map_cons, List.map_nil, List.singleton_append, Vehicle.run, hv1]
                simp only [Vehicle.events] at i1
                rw [i1]
                simp [List.map_append, List.map_map, Function.comp_def]
              · simp only [List.map_cons, List.map_nil, List.singleton_append, Vehicle.frames, hv1]
                rw [i2]

theorem run_append (A B : List (Nat × Ev)) : ∀ (s s' : St) (fs : List (Nat × InvDrv.Sent)),
    run buses dev k s (A ++ B) = .ok (s', fs) →
    ∃ s1 f1 f2, run buses dev k s A = .ok (s1, f1) ∧ run buses dev k s1 B = .ok (s', f2) ∧ fs = f1 ++ f2 := by
  induction A with
  | nil => intro s s' fs h; exact ⟨s, [], fs, rfl, h, rfl⟩
  | cons x A ih =>
    intro s s' fs h
    obtain ⟨t, e⟩ := x
    simp only [List.cons_append, run] at h ⊢
    split at h
    · simp at h
    · rename_i s1 f1 h1
      split at h
      · simp at h
      · rename_i s2 f2 h2
        simp only [Except.ok.injEq, Prod.mk.injEq] at h
        obtain ⟨rfl, rfl⟩ := h
        obtain ⟨s3, f3, f4, a, b, c⟩ := ih s1 s2 f2 h2
        refine ⟨s3, f1.map (fun f => (t, f)) ++ f3, f4, ?_, b, ?_⟩
        · simp only [h1, a]
        · rw [c, List.append_assoc]

/-- Every moment of the control software is one of the whole. -/
theorem veh_split (H : List (Nat × Ev)) : ∀ (s s' : St) (fs : List (Nat × InvDrv.Sent)),
    run buses dev k s H = .ok (s', fs) → ∀ pre t e post, vehOf buses dev k s H = pre ++ (t, e) :: post →
    ∃ A x B, H = A ++ (t, x) :: B ∧ vehOf buses dev k s A = pre := by
  induction H with
  | nil => intro s s' fs _ pre t e post h; simp [vehOf] at h
  | cons x H ih =>
    intro s s' fs h pre t e post hv
    obtain ⟨t0, e0⟩ := x
    simp only [run] at h
    split at h
    · simp at h
    · rename_i s1 f1 h1
      split at h
      · simp at h
      · rename_i s2 f2 h2
        simp only [vehOf, h1] at hv
        have go : ∀ pre', vehOf buses dev k s1 H = pre' ++ (t, e) :: post →
            (toVeh dev k s e0).map (fun x => (t0, x)) ++ pre' = pre →
            ∃ A x B, (t0, e0) :: H = A ++ (t, x) :: B ∧ vehOf buses dev k s A = pre := by
          intro pre' hp hq
          obtain ⟨A, x, B, hH, hA⟩ := ih s1 s2 f2 h2 pre' t e post hp
          refine ⟨(t0, e0) :: A, x, B, by rw [hH]; rfl, ?_⟩
          simp only [vehOf, h1, hA, hq]
        rcases toVeh_cases dev k s e0 with h0 | ⟨y, h0⟩
        · refine go pre ?_ (by rw [h0]; rfl)
          rw [h0] at hv; exact hv
        · rw [h0] at hv
          cases pre with
          | nil =>
            simp only [List.map_cons, List.map_nil, List.singleton_append, List.nil_append, List.cons.injEq,
              Prod.mk.injEq] at hv
            refine ⟨[], e0, H, ?_, rfl⟩
            rw [hv.1.1]; rfl
          | cons p pre =>
            simp only [List.map_cons, List.map_nil, List.singleton_append, List.cons_append, List.cons.injEq] at hv
            refine go pre hv.2 ?_
            rw [h0, ← hv.1]; rfl

/-! ## The battery's data -/

/-- Fields that come from frames. -/
def fromBus (fld : BmsField) : Prop := fld ≠ .faultIndicator

/-- The battery's data are those of the frames its task has taken. -/
structure Inv (rx0 : RxState) (evs : List RxEv) (s : St) : Prop where
  rx : s.rx = after buses rx0 evs
  bms : ∀ fld, fromBus fld → getBms fld s.v.vd =
    getBms fld (Bms.processing dev ((s.rx.got k).map fun f => (f, true)) VData.zero)
  float : F32.IsFloat s.v.vd.inputs.accel

theorem getBms_battery {a b : VData} (h : a.battery = b.battery) (fld : BmsField) : getBms fld a = getBms fld b := by
  cases fld <;> simp only [getBms, h]

theorem getBms_keep (old d : VData) (fld : BmsField) (hf : fromBus fld) :
    getBms fld (keepBattery old d) = getBms fld old := by
  cases fld <;> first | rfl | exact absurd rfl hf

/-- A frame changes a field in the same way whatever the other data are. -/
theorem handle_congr (f : CanFrame) (a b : VData) (h : ∀ fld, fromBus fld → getBms fld a = getBms fld b) (fld : BmsField)
    (hf : fromBus fld) :
    getBms fld (Bms.handleFrame dev true f a) = getBms fld (Bms.handleFrame dev true f b) := by
  have ha := C23_stream dev [(f, true)] a fld
  have hb := C23_stream dev [(f, true)] b fld
  simp only [Bms.processing, List.foldl_cons, List.foldl_nil] at ha hb
  rw [ha, hb, h fld hf]

theorem handle_inputs (f : CanFrame) (d : VData) :
    (Bms.handleFrame dev true f d).inputs = d.inputs := by
  have h := C23_layout_partial dev true f d
  by_cases ha : bmsAccepted dev true f = true
  · exact ((h.1 ha).2.1).symm
  · rw [h.2 (by simpa using ha)]

theorem write_vd {s s' : Vehicle.St} {fs : List InvDrv.Sent} {d : VData}
    (h : Vehicle.run s [.write d] = .ok (s', fs)) : s'.vd.battery = d.battery ∧ s'.vd.inputs = d.inputs := by
  simp only [Vehicle.run, Vehicle.step, Except.ok.injEq, Prod.mk.injEq] at h
  rw [← h.1]; exact ⟨rfl, rfl⟩

/-- The values other tasks write are floats. -/
def FloatWrites (H : List (Nat × Ev)) : Prop := ∀ t d, (t, Ev.veh (.write d)) ∈ H → F32.IsFloat d.inputs.accel

theorem inv_step {rx0 : RxState} {evs : List RxEv} {s s' : St} {fs : List InvDrv.Sent} {t : Nat} {e : Ev}
    (hi : Inv buses dev k rx0 evs s) (hf : FloatWrites [(t, e)]) (h : step buses dev k s e = .ok (s', fs)) :
    Inv buses dev k rx0 (evs ++ rxs [(t, e)]) s' := by
  simp only [step] at h
  split at h
  · simp at h
  · rename_i v fs' hv
    simp only [Except.ok.injEq, Prod.mk.injEq] at h
    obtain ⟨rfl, rfl⟩ := h
    cases e with
    | rx e =>
      have hrx : rxs [(t, Ev.rx e)] = [e] := rfl
      have hrx' : rxOf buses s.rx (.rx e) = after buses rx0 (evs ++ [e]) := by
        rw [after_concat, ← hi.rx]; rfl
      rw [hrx]
      cases e with
      | isr d g fifo =>
        simp only [toVeh, Vehicle.run, Except.ok.injEq, Prod.mk.injEq] at hv
        rw [← hv.1]
        exact ⟨hrx', hi.bms, hi.float⟩
      | read j =>
        by_cases hj : j = k
        · subst hj
          simp only [toVeh, if_true] at hv
          cases hq : (s.rx.qs j).items with
          | nil =>
            rw [hq] at hv
            simp only [Vehicle.run, Except.ok.injEq, Prod.mk.injEq] at hv
            rw [← hv.1]
            refine ⟨hrx', ?_, hi.float⟩
            have : rxOf buses s.rx (.rx (.read j)) = s.rx := by simp only [rxOf, rxStep, hq]
            rw [this]; exact hi.bms
          | cons f rest =>
            rw [hq] at hv
            dsimp only at hv
            obtain ⟨b1, b2⟩ := write_vd hv
            refine ⟨hrx', ?_, ?_⟩
            · intro fld hfl
              have hg : (rxOf buses s.rx (.rx (.read j))).got j = s.rx.got j ++ [f] := by
                simp only [rxOf, rxStep, hq, if_true]
              dsimp only
              rw [hg, getBms_battery b1, List.map_append, Bms.processing, List.foldl_append]
              exact handle_congr dev f _ _ hi.bms fld hfl
            · dsimp only
              rw [b2, handle_inputs]; exact hi.float
        · simp only [toVeh, if_neg hj, Vehicle.run, Except.ok.injEq, Prod.mk.injEq] at hv
          rw [← hv.1]
          refine ⟨hrx', ?_, hi.float⟩
          have : (rxOf buses s.rx (.rx (.read j))).got k = s.rx.got k := by
            simp only [rxOf, rxStep]
            split
            · rfl
            · simp only [if_neg (Ne.symm hj)]
          dsimp only
          rw [this]; exact hi.bms
    | veh e =>
      have hrx : rxs [(t, Ev.veh e)] = [] := rfl
      rw [hrx, List.append_nil]
      have other : (∀ d, e ≠ .write d) → Inv buses dev k rx0 evs ⟨rxOf buses s.rx (.veh e), v⟩ := by
        intro hne
        have hv' : Vehicle.run s.v [e] = .ok (v, fs') := by
          cases e <;> first | exact hv | exact absurd rfl (hne _)
        simp only [Vehicle.run] at hv'
        split at hv'
        · simp at hv'
        · rename_i v1 f1 h1
          simp only [Except.ok.injEq, Prod.mk.injEq] at hv'
          obtain ⟨rfl, -⟩ := hv'
          obtain ⟨b1, b2⟩ := Vehicle.step_vd h1 hne
          exact ⟨hi.rx, fun fld hfl => (getBms_battery b1 fld).trans (hi.bms fld hfl), by rw [b2]; exact hi.float⟩
      cases e with
      | write d =>
        obtain ⟨b1, b2⟩ := write_vd hv
        refine ⟨hi.rx, ?_, ?_⟩
        · intro fld hfl
          show getBms fld v.vd = _
          rw [getBms_battery b1, getBms_keep _ _ _ hfl]; exact hi.bms fld hfl
        · show F32.IsFloat v.vd.inputs.accel
          rw [b2]; exact hf t d (by simp)
      | copy ok => exact other (by simp)
      | handle ok => exact other (by simp)
      | call en => exact other (by simp)
      | throttle ok en => exact other (by simp)
      | pcBatch b c => exact other (by simp)
      | pcAct l => exact other (by simp)

theorem rxs_append (A B : List (Nat × Ev)) : rxs (A ++ B) = rxs A ++ rxs B := by
  simp [rxs, List.filterMap_append]

theorem inv_run {rx0 : RxState} (H : List (Nat × Ev)) : ∀ (evs : List RxEv) (s s' : St)
    (fs : List (Nat × InvDrv.Sent)), Inv buses dev k rx0 evs s → FloatWrites H → run buses dev k s H = .ok (s', fs) →
    Inv buses dev k rx0 (evs ++ rxs H) s' := by
  induction H with
  | nil =>
    intro evs s s' fs hi _ h
    simp only [run, Except.ok.injEq, Prod.mk.injEq] at h
    rw [← h.1]; simpa [rxs] using hi
  | cons x H ih =>
    intro evs s s' fs hi hf h
    obtain ⟨t, e⟩ := x
    simp only [run] at h
    split at h
    · simp at h
    · rename_i s1 f1 h1
      split at h
      · simp at h
      · rename_i s2 f2 h2
        simp only [Except.ok.injEq, Prod.mk.injEq] at h
        obtain ⟨rfl, -⟩ := h
        have h3 := inv_step buses dev k hi (t := t) (fun t' d hd => hf t' d (by simp at hd; simp [hd])) h1
        have h4 := ih _ s1 s2 f2 h3 (fun t' d hd => hf t' d (List.mem_cons_of_mem _ hd)) h2
        have : rxs ((t, e) :: H) = rxs [(t, e)] ++ rxs H := rxs_append [(t, e)] H
        rw [this, ← List.append_assoc]; exact h4


/-! ## From the wire to the field -/

/-- The battery's queue on bus `dev`: one registration, nothing in it at the start. -/
structure Wired (rx0 : RxState) : Prop where
  inUse : (buses dev).inUse = true
  reg : (buses dev).regs.filter (fun r => r.queue == bmsReg.queue) = [bmsReg]
  other : ∀ d, d ≠ dev → (buses d).regs.filter (fun r => r.queue == bmsReg.queue) = []
  empty : (rx0.qs bmsReg.queue).items = []
  got : rx0.got bmsReg.queue = []
  cap : (rx0.qs bmsReg.queue).cap = queueLength

theorem served_prefix {rx0 : RxState} {a b : List RxEv} {ts : Nat → Nat} {w : Nat}
    (h : Served buses rx0 dev k (a ++ b) ts w) : Served buses rx0 dev k a ts w :=
  ⟨h.gap, fun p g fifo hp => h.served p g fifo (hp.trans (List.prefix_append a b))⟩

theorem standard_prefix {a b : List RxEv} (h : AllStandard (a ++ b)) : AllStandard a :=
  fun d g fifo hm => h d g fifo (List.mem_append_left b hm)

/-- What a frame says about a field, whatever its length. -/
def carry (fld : BmsField) (f : CanFrame) : Option Val :=
  ((bmsTable codeScale).find? (fun s => decide (s.msgId = f.msgId.toNat) && decide (s.field = fld))).map
    (·.value f.data)

theorem reading_status {fld : BmsField} {f : CanFrame} {v : Val} (h : reading fld f = some v) :
    isBmsStatus f = true ∧ carry fld f = some v := by
  unfold reading at h
  split_ifs at h with hd
  refine ⟨?_, h⟩
  simp only [Option.map_eq_some_iff] at h
  obtain ⟨sg, hs, -⟩ := h
  have h1 := List.find?_some hs
  have h2 := List.mem_of_find?_eq_some hs
  simp only [Bool.and_eq_true, decide_eq_true_eq] at h1
  have hall : ∀ sg ∈ bmsTable codeScale, sg.msgId ∈ bmsIds := by
    intro sg hm
    simp only [bmsTable, List.mem_cons, List.not_mem_nil, or_false] at hm
    rcases hm with rfl | rfl | rfl | rfl | rfl | rfl | rfl | rfl | rfl | rfl | rfl | rfl | rfl | rfl <;>
      simp [bmsIds]
  simp only [isBmsStatus, Bool.and_eq_true, decide_eq_true_eq]
  exact ⟨hd, h1.1 ▸ hall sg h2⟩

theorem status_reading {fld : BmsField} {f : CanFrame} (h : isBmsStatus f = true) :
    reading fld f = carry fld f := by
  simp only [isBmsStatus, Bool.and_eq_true, decide_eq_true_eq] at h
  unfold reading carry
  rw [if_pos h.1]

theorem latest_tail (fld : BmsField) (A B : List CanFrame) {f : CanFrame} {v : Val} (hf : f ∈ B)
    (hv : carry fld f = some v) :
    ∃ g ∈ B, ∃ w, carry fld g = some w ∧ latest (bmsTable codeScale) fld (A ++ B) = some w := by
  have hl : latest (bmsTable codeScale) fld (A ++ B) = (A ++ B).reverse.findSome? (carry fld) := rfl
  rw [hl, List.reverse_append, List.findSome?_append]
  cases hb : B.reverse.findSome? (carry fld) with
  | none =>
    rw [List.findSome?_eq_none_iff] at hb
    have := hb f (List.mem_reverse.mpr hf)
    rw [hv] at this; cases this
  | some w =>
    obtain ⟨g, hg, hw⟩ := List.exists_of_findSome?_eq_some hb
    exact ⟨g, List.mem_reverse.mp hg, w, hw, rfl⟩

/-- Once the queue was found empty after a frame with the field, the field holds a value of that frame or a later
one. -/
theorem field_after {rx0 : RxState} (hw : Wired buses dev rx0) (a m r : List RxEv) (ts : Nat → Nat)
    (hstd : AllStandard (a ++ m ++ r)) (hs : Served buses rx0 dev bmsReg.queue (a ++ m ++ r) ts 12000)
    (hempty : ((after buses rx0 (a ++ m)).qs bmsReg.queue).items = []) (fld : BmsField)
    (hc : ∃ f ∈ busFrames dev m, ∃ v, reading fld f = some v) :
    ∃ f ∈ busFrames dev (m ++ r), ∃ v, reading fld f = some v ∧
      getBms fld (Bms.processing dev (((after buses rx0 (a ++ m ++ r)).got bmsReg.queue).map fun f => (f, true))
        VData.zero) = v := by
  have h1 := C96_nothing_lost buses rx0 dev _ bmsReg hw.inUse hw.reg hw.other hw.empty hw.got hw.cap _ hstd ts hs
  have h2 := C96_nothing_lost buses rx0 dev _ bmsReg hw.inUse hw.reg hw.other hw.empty hw.got hw.cap _
    (standard_prefix hstd) ts (served_prefix buses dev _ hs)
  rw [hempty, List.append_nil] at h2
  obtain ⟨X, hX⟩ := got_mono buses rx0 (a ++ m) r bmsReg.queue
  have hXr : X <+: (busFrames dev r).filter (wants bmsReg) := by
    rw [← hX, h2, busFrames_append dev (a ++ m) r, List.filter_append, List.append_assoc] at h1
    exact ⟨_, List.append_cancel_left h1⟩
  have hbus : ∀ f ∈ (after buses rx0 (a ++ m ++ r)).got bmsReg.queue, f.busInstance = dev := by
    intro f hf
    have : f ∈ (busFrames dev (a ++ m ++ r)).filter (wants bmsReg) := by
      rw [← h1]; exact List.mem_append_left _ hf
    exact busFrames_bus dev _ (List.mem_filter.mp this).1
  rw [C23_stream]
  have hfil : ((((after buses rx0 (a ++ m ++ r)).got bmsReg.queue).map fun f => (f, true)).filter
      fun fa => bmsAccepted dev fa.2 fa.1).map (·.1) =
      (busFrames dev a).filter isBmsStatus ++ ((busFrames dev m).filter isBmsStatus ++ X.filter isBmsStatus) := by
    have e := filter_status (p := isBmsStatus) (q := fun _ => true) (dev := dev) hbus (acc := bmsAccepted)
      (fun f hf => by simp [bmsAccepted, isBmsStatus, hf]) (fun _ _ => rfl)
    rw [List.filter_true] at e
    rw [e, ← hX, h2, busFrames_append, List.filter_append, List.filter_filter, List.filter_append, List.append_assoc]
    have key : ∀ f : CanFrame, (isBmsStatus f && wants bmsReg f) = isBmsStatus f := by
      intro f
      cases hb : isBmsStatus f with
      | false => rfl
      | true => rw [bms_wants hb]; rfl
    simp only [key]
  rw [hfil]
  obtain ⟨f, hf, v, hv⟩ := hc
  obtain ⟨hst, hcy⟩ := reading_status hv
  obtain ⟨g, hg, w, hgw, hlat⟩ := latest_tail fld ((busFrames dev a).filter isBmsStatus)
    ((busFrames dev m).filter isBmsStatus ++ X.filter isBmsStatus)
    (List.mem_append_left _ (List.mem_filter.mpr ⟨hf, hst⟩)) hcy
  refine ⟨g, ?_, w, ?_, by rw [hlat]; rfl⟩
  · rw [busFrames_append]
    rcases List.mem_append.mp hg with hg | hg
    · exact List.mem_append_left _ (List.mem_filter.mp hg).1
    · exact List.mem_append_right _ (List.mem_filter.mp (hXr.subset (List.mem_filter.mp hg).1)).1
  · have hgs : isBmsStatus g = true := by
      rcases List.mem_append.mp hg with hg | hg <;> exact (List.mem_filter.mp hg).2
    rw [status_reading hgs, hgw]

/-- A frame of the bus came with one of the interrupts. -/
theorem frame_event {H : List (Nat × Ev)} {f : CanFrame} (h : f ∈ busFrames dev (rxs H)) :
    ∃ t g fifo, (t, Ev.rx (.isr dev g fifo)) ∈ H ∧ ∃ w ∈ arrived fifo, f = asSeen dev w := by
  simp only [busFrames, List.mem_flatMap, rxs, List.mem_filterMap] at h
  obtain ⟨e, ⟨⟨t, x⟩, hx, he⟩, hf⟩ := h
  cases x with
  | veh y => simp at he
  | rx y =>
    simp only [Option.some.injEq] at he
    subst he
    cases y with
    | read j => simp at hf
    | isr d g fifo =>
      dsimp only at hf
      split_ifs at hf with hd
      · subst hd
        obtain ⟨w, hw, rfl⟩ := List.mem_map.mp hf
        exact ⟨t, g, fifo, hx, w, hw, rfl⟩
      · simp at hf

/-! ## Times -/

theorem veh_times (H : List (Nat × Ev)) : ∀ s : St,
    ((vehOf buses dev k s H).map (·.1)).Sublist (H.map (·.1)) := by
  induction H with
  | nil => intro s; simp [vehOf]
  | cons x H ih =>
    intro s
    obtain ⟨t, e⟩ := x
    simp only [vehOf]
    have hrest : ∀ L : Vehicle.Hist, (L.map (·.1)).Sublist (H.map (·.1)) →
        (((toVeh dev k s e).map (fun x => (t, x)) ++ L).map (·.1)).Sublist (((t, e) :: H).map (·.1)) := by
      intro L hL
      rcases toVeh_cases dev k s e with h0 | ⟨y, h0⟩
      · rw [h0]; exact hL.cons _
      · rw [h0]; exact hL.cons_cons _
    split
    · exact hrest [] (List.nil_sublist _)
    · exact hrest _ (ih _)

theorem veh_floats {rx0 : RxState} (H : List (Nat × Ev)) : ∀ (evs : List RxEv) (s : St),
    Inv buses dev k rx0 evs s → FloatWrites H → Vehicle.FloatWrites (Vehicle.events (vehOf buses dev k s H)) := by
  induction H with
  | nil => intro evs s _ _ d hd; simp [vehOf, Vehicle.events] at hd
  | cons x H ih =>
    intro evs s hi hf d hd
    obtain ⟨t, e⟩ := x
    simp only [vehOf, Vehicle.events, List.map_append, List.mem_append, List.map_map] at hd
    rcases hd with hd | hd
    · have hd' : Vehicle.Ev.write d ∈ toVeh dev k s e := by
        obtain ⟨y, hy, e1⟩ := List.mem_map.mp hd
        simp only [Function.comp] at e1
        rw [← e1]; exact hy
      cases e with
      | rx e =>
        cases e with
        | isr _ _ _ => simp [toVeh] at hd'
        | read j =>
          simp only [toVeh] at hd'
          split at hd'
          · split at hd'
            · simp at hd'
            · simp only [List.mem_singleton, Vehicle.Ev.write.injEq] at hd'
              rw [hd', handle_inputs]; exact hi.float
          · simp at hd'
      | veh e =>
        cases e <;> simp [toVeh] at hd'
        rename_i d0
        rw [hd']
        exact hf t d0 (by simp)
    · split at hd
      · simp at hd
      · rename_i s1 f1 h1
        exact ih _ s1 (inv_step buses dev k hi (t := t) (fun t' d hd => hf t' d (by simp at hd; simp [hd])) h1)
          (fun t' d hd => hf t' d (List.mem_cons_of_mem _ hd)) d hd

theorem Measured.documented {cfg : Config} {fld : BmsField} {bad : Val → Prop} {n : Nat} (h : Measured cfg fld bad n) :
    Vehicle.Documented cfg (fun d => bad (getBms fld d)) n ∧ fromBus fld := by
  cases h with
  | temperature =>
    refine ⟨?_, by simp [fromBus]⟩
    have e : (fun d => ∃ x, getBms .maxT d = .flt x ∧ F32.lt (F32.ofInt cfg.bms.maxCellTemp.toInt) x = true)
        = cellTemp cfg := by
      funext d; simp [getBms, cellTemp]
    rw [e]; exact .cellTemp
  | current =>
    refine ⟨?_, by simp [fromBus]⟩
    have e : (fun d => ∃ x, getBms .current d = .flt x ∧ F32.lt (F32.ofInt cfg.bms.maxCurrent.toInt) x = true)
        = FaultSpec.current cfg := by
      funext d; simp [getBms, FaultSpec.current]
    rw [e]; exact .current
  | voltage =>
    refine ⟨?_, by simp [fromBus]⟩
    have e : (fun d => ∃ x, getBms .maxV d = .flt x ∧ F32.lt (F32.ofInt cfg.bms.maxCellVoltage.toInt) x = true)
        = cellVolt cfg := by
      funext d; simp [getBms, cellVolt]
    rw [e]; exact .cellVolt
  | charge =>
    refine ⟨?_, by simp [fromBus]⟩
    have e : (fun d => ∃ x, getBms .soc d = .flt x ∧ F32.lt x (F32.ofInt cfg.bms.minStateOfCharge.toNat) = true)
        = lowSoc cfg := by
      funext d; simp [getBms, lowSoc]
    rw [e]; exact .lowSoc

/-- **C133.** A car with the battery management system on bus `dev`; times in any unit, timer interrupts at the
multiples of `P`.  The battery's receive queue is emptied often enough for the bus speed and the control tasks
keep up with their timer for `K` periods.  If a frame that carries a fault value arrives between `t` and `t1`, the
queue has been emptied by `t1`, and no frame says otherwise until `n + 1` periods after `t1`, where the fault counts
after `n` samples, then every command frame handed to the CAN layer at `t1 + (n + 2) P` or later has torque zero. -/
theorem C133_bus_to_bus (cfg : Config) (sm : StateMgr.StateManager) (dec : MsgFrame.Dec) (buf : Nat → UInt8)
    (ecu control : Bool) (hsm : StateMgr.smInit true true true (StateMgr.wired cfg) = .ok (.ok, sm))
    (hl : inputSamples cfg 10 ≤ 65535) (hlb : bmsSamples cfg 10 ≤ 65535)
    (rx0 : RxState) (hw : Wired buses dev rx0)
    (P K : Nat) (hP : 0 < P) (a m c : List (Nat × Ev))
    (ho : (a ++ m ++ c).Pairwise (fun x y => x.1 ≤ y.1)) (hK : ∀ x ∈ a ++ m ++ c, x.1 < K * P)
    (hf : FloatWrites (a ++ m ++ c)) (hstd : AllStandard (rxs (a ++ m ++ c))) (ts : Nat → Nat)
    (hs : Served buses rx0 dev bmsReg.queue (rxs (a ++ m ++ c)) ts 12000)
    (s' : St) (fs : List (Nat × InvDrv.Sent))
    (hrun : run buses dev bmsReg.queue ⟨rx0, Vehicle.start sm dec buf ecu control⟩ (a ++ m ++ c) = .ok (s', fs))
    (hkeep : Vehicle.KeepsUp P K (Vehicle.start sm dec buf ecu control)
      (vehOf buses dev bmsReg.queue ⟨rx0, Vehicle.start sm dec buf ecu control⟩ (a ++ m ++ c)))
    (fld : BmsField) (bad : Val → Prop) (n : Nat) (hm : Measured cfg fld bad n)
    (t t1 : Nat) (ht1 : P ≤ t1) (hbefore : ∀ x ∈ a ++ m, x.1 < t1) (hfrom : ∀ x ∈ m, t ≤ x.1)
    (hcarry : ∃ f ∈ busFrames dev (rxs m), ∃ v, reading fld f = some v)
    (hempty : ((after buses rx0 (rxs (a ++ m))).qs bmsReg.queue).items = [])
    (hrep : Reports dev fld bad t (t1 + (n + 1) * P) (a ++ m ++ c)) :
    ∀ x ∈ fs, t1 + (n + 2) * P ≤ x.1 → Drive.torqueOf x.2 = 0 := by
  set v0 := Vehicle.start sm dec buf ecu control with hv0
  set s0 : St := ⟨rx0, v0⟩ with hs0
  obtain ⟨hd, hbus⟩ := hm.documented
  have hi0 : Inv buses dev bmsReg.queue rx0 [] s0 := by
    refine ⟨rfl, ?_, ?_⟩
    · intro fld _
      rw [hs0]
      dsimp only
      rw [hw.got]; rfl
    · show F32.IsFloat (.fin 0)
      exact ⟨by decide +kernel, by norm_num⟩
  obtain ⟨hr1, hr2⟩ := run_veh buses dev bmsReg.queue _ _ _ _ hrun
  have htimes := veh_times buses dev bmsReg.queue (a ++ m ++ c) s0
  have key := Vehicle.C123_torque_ends_in_time cfg sm dec buf ecu control hsm hl hlb P K hP
    (vehOf buses dev bmsReg.queue s0 (a ++ m ++ c)) ?_ ?_ ?_ ⟨_, _, hr1⟩ hkeep _ n hd t1 ht1 ?_
  · rw [hr2] at key
    exact key
  · have h1 : ((a ++ m ++ c).map (·.1)).Pairwise (· ≤ ·) := List.pairwise_map.mpr ho
    exact List.pairwise_map.mp (h1.sublist htimes)
  · intro x hx
    obtain ⟨y, hy, e⟩ := List.mem_map.mp (htimes.subset (List.mem_map_of_mem hx))
    rw [← e]; exact hK y hy
  · exact veh_floats buses dev bmsReg.queue _ [] s0 hi0 hf
  · intro pre τ e post hsplit hτ1 hτ2 sv fv hsv
    obtain ⟨A, x, B, hH, hA⟩ := veh_split buses dev bmsReg.queue _ _ _ _ hrun pre τ e post hsplit
    -- the prefix goes beyond `a ++ m`
    obtain ⟨r, hr⟩ : ∃ r, A = a ++ m ++ r := by
      rcases List.append_eq_append_iff.mp hH with ⟨l, h1, -⟩ | ⟨l, h1, h2⟩
      · exact ⟨l, h1⟩
      · cases l with
        | nil => exact ⟨[], by rw [h1]; simp⟩
        | cons y l =>
          simp only [List.cons_append, List.cons.injEq] at h2
          have := hbefore (τ, x) (by rw [h1, h2.1]; simp)
          simp only at this
          omega
    have hAH : a ++ m ++ c = A ++ (τ, x) :: B := hH
    have hrunA := hrun
    rw [hAH] at hrunA
    obtain ⟨s1, f1, f2, g1, g2, -⟩ := run_append buses dev bmsReg.queue A _ _ _ _ hrunA
    have hfA : FloatWrites A := fun t' d hd => hf t' d (by rw [hAH]; exact List.mem_append_left _ hd)
    have hI := inv_run buses dev bmsReg.queue A [] s0 s1 f1 hi0 hfA g1
    rw [List.nil_append] at hI
    have hv1 := (run_veh buses dev bmsReg.queue A _ _ _ g1).1
    rw [hA] at hv1
    have : sv = s1.v := by
      have := hsv.symm.trans hv1
      simp only [Except.ok.injEq, Prod.mk.injEq] at this
      exact this.1
    rw [this]
    show bad (getBms fld s1.v.vd)
    rw [hI.bms fld hbus, hI.rx]
    have hrx : rxs A = rxs a ++ rxs m ++ rxs r := by rw [hr, rxs_append, rxs_append]
    have hrxH : rxs (a ++ m ++ c) = rxs A ++ rxs ((τ, x) :: B) := by rw [hAH, rxs_append]
    rw [hrxH] at hstd hs
    rw [hrx] at hstd hs
    obtain ⟨f, hfm, v, hv, hget⟩ := field_after buses dev hw (rxs a) (rxs m) (rxs r) ts (standard_prefix hstd)
      (served_prefix buses dev _ hs) (by rw [← rxs_append]; exact hempty) fld hcarry
    rw [hrx, hget]
    rw [← rxs_append] at hfm
    obtain ⟨tf, g, fifo, hev, w, hwm, rfl⟩ := frame_event dev hfm
    have hAe : a ++ m ++ c = a ++ ((m ++ r) ++ (τ, x) :: B) := by rw [hAH, hr]; simp
    have ho2 : ((m ++ r) ++ (τ, x) :: B).Pairwise (fun x y => x.1 ≤ y.1) := by
      rw [hAe] at ho
      exact (List.pairwise_append.mp ho).2.1
    have ht : t ≤ tf := by
      obtain ⟨f0, hf0, -⟩ := hcarry
      obtain ⟨u, _, _, hu, -⟩ := frame_event dev hf0
      rcases List.mem_append.mp hev with h | h
      · exact hfrom _ h
      · have h1 := (List.pairwise_append.mp (List.pairwise_append.mp ho2).1).2.2 _ hu _ h
        have h2 := hfrom _ hu
        simp only at h1 h2
        omega
    have hlt : tf < t1 + (n + 1) * P := by
      have h1 := (List.pairwise_append.mp ho2).2.2 _ hev (τ, x) (by simp)
      simp only at h1
      omega
    refine hrep tf g fifo ?_ ht hlt w hwm v hv
    rw [hAe]
    exact List.mem_append_right _ (List.mem_append_left _ hev)

/-! ## A drive with the battery on the bus -/

/-- A frame with pack data: current and voltage zero, this number (high byte, low byte zero) for the charge. -/
def chargeFrame (soc : UInt8) : HalRx := .frame ⟨false, 0x303, false, #v[0, 0, 0, 0, 0, soc, 0, 0], 8⟩

/-- A period of 10 ms (times in microseconds): a frame of the battery arrives and is taken, then other data and the
activations of throttle task and state manager. -/
def period (k n : Nat) (soc : UInt8) (d : VData) : List (Nat × Ev) :=
  [(k * 10000, .rx (.isr 1 0 [chargeFrame soc])), (k * 10000 + 1, .rx (.read 1))] ++
  (Vehicle.busy k n d).map fun x => (x.1 + 2, .veh x.2)

/-- Start-up and drive; the battery reports a charge of zero from 110 ms on. -/
def chargeDrive : List (Nat × Ev) :=
  (List.range 9).flatMap (fun k => period k 3 16
    (Vehicle.sample (k == 2 || k == 8) (if k < 6 then 0 else 5) (if k < 8 then 0 else 1) false)) ++
  period 9 4 16 (Vehicle.sample false 5 1 false) ++ period 10 4 16 (Vehicle.sample false 5 1 false) ++
  (List.range 5).flatMap (fun k => period (11 + k) (if k < 2 then 4 else 3) 0 (Vehicle.sample false 5 1 false))

/-- What the frames say, with the scale factor of the code (on units see C11). -/
example : reading .soc (asSeen 1 ⟨false, 0x303, false, #v[0, 0, 0, 0, 0, 16, 0, 0], 8⟩) = some (.flt (.fin 2048)) ∧
    reading .soc (asSeen 1 ⟨false, 0x303, false, #v[0, 0, 0, 0, 0, 0, 0, 0], 8⟩) = some (.flt (.fin 0)) ∧
    reading .soc (asSeen 1 ⟨false, 0x301, false, #v[0, 0, 0, 0, 0, 0, 0, 0], 8⟩) = none := by decide +kernel

/-- The control tasks keep up with this history, the battery's queue is empty after every reading, and torque ends
within the bound of C133: with the frame of 110 ms taken by `t1 = 110 ms + 2 µs`, nothing but zero from
`t1 + 30 ms` on. -/
example :
    (match Vehicle.demoStart with
    | .ok v =>
      let s : St := ⟨demoState, v⟩
      let H := vehOf demoBuses 1 1 s chargeDrive
      Vehicle.checkKeepsUp v H 16 &&
      (List.range 16).all (fun k =>
        ((after demoBuses demoState (rxs (chargeDrive.filter fun x => x.1 < k * 10000 + 2))).qs 1).items.isEmpty) &&
      (match run demoBuses 1 1 s chargeDrive with
      | .ok (_, fs) => ((fs.map (fun x => (x.1 / 10000, Drive.torqueOf x.2))).drop 5) ==
          [(9, 5000), (10, 5000), (11, 5000), (12, 5000), (13, 0), (14, 0), (15, 0)]
      | .error _ => false)
    | .error _ => false) = true := by decide +kernel

end Verif.Car
