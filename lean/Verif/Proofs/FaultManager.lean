import Verif.Model.FaultManager
import Verif.Spec.FaultManager

set_option autoImplicit false

namespace Verif.FaultMgr
open Verif.FaultSpec
open Verif.Vsm (FaultStatus)

/-- Timer and last verdict after a list of samples. -/
def timerAfter (limit : UInt16) (bs : List Bool) : UInt16 :=
  bs.foldl (fun t b => (handleTimed b t limit).2) 0

/-- Some sample failed. -/
def anyFail (limit : UInt16) : UInt16 → List Bool → Bool
  | _, [] => false
  | t, b :: bs => !(handleTimed b t limit).1 || anyFail limit (handleTimed b t limit).2 bs

theorem timerAfter_snoc (limit : UInt16) (bs : List Bool) (b : Bool) :
    timerAfter limit (bs ++ [b]) = (handleTimed b (timerAfter limit bs) limit).2 := by
  simp [timerAfter]

theorem anyFail_append (limit t : UInt16) (xs ys : List Bool) :
    anyFail limit t (xs ++ ys) =
      (anyFail limit t xs || anyFail limit (xs.foldl (fun t b => (handleTimed b t limit).2) t) ys) := by
  induction xs generalizing t with
  | nil => simp [anyFail]
  | cons x xs ih => simp [anyFail, ih, Bool.or_assoc]

theorem anyFail_snoc (limit : UInt16) (bs : List Bool) (b : Bool) :
    anyFail limit 0 (bs ++ [b]) =
      (anyFail limit 0 bs || !(handleTimed b (timerAfter limit bs) limit).1) := by
  rw [anyFail_append]; simp [anyFail, timerAfter]

/-- Length of the trailing run of bad samples. -/
def trail (bs : List Bool) : Nat := (bs.reverse.takeWhile id).length

theorem trail_snoc (bs : List Bool) (b : Bool) :
    trail (bs ++ [b]) = if b then trail bs + 1 else 0 := by
  unfold trail; cases b <;> simp

theorem trail_nil : trail [] = 0 := rfl

theorem le_trail_iff (bs : List Bool) (n : Nat) :
    n ≤ trail bs ↔ ∃ pre win, bs = pre ++ win ∧ win.length = n ∧ ∀ x ∈ win, x = true := by
  constructor
  · intro h
    refine ⟨(bs.reverse.drop n).reverse, (bs.reverse.take n).reverse, ?_, ?_, ?_⟩
    · rw [← List.reverse_append, List.take_append_drop, List.reverse_reverse]
    · have h2 : trail bs ≤ bs.length := by
        unfold trail
        have := (List.takeWhile_prefix id (l := bs.reverse)).length_le
        simpa using this
      simp; omega
    · intro x hx
      have hx' : x ∈ bs.reverse.take n := by simpa using hx
      have hp : bs.reverse.take n <+: bs.reverse.takeWhile id := by
        apply List.prefix_of_prefix_length_le (List.take_prefix _ _) (List.takeWhile_prefix _)
        simp; unfold trail at h; omega
      have := hp.subset hx'
      have := (List.all_eq_true.mp (List.all_takeWhile (p := id) (l := bs.reverse))) x this
      exact this
  · rintro ⟨pre, win, rfl, rfl, h⟩
    unfold trail
    rw [List.reverse_append, List.takeWhile_append_of_pos]
    · simp
    · intro x hx; simpa using h x (by simpa using hx)

/-- The timer is the trailing run length, saturated at the limit. -/
theorem timer_eq (limit : UInt16) (hl : limit.toNat < 65535) (bs : List Bool) :
    (timerAfter limit bs).toNat = min (trail bs) limit.toNat := by
  induction bs using List.reverseRecOn with
  | nil => simp [timerAfter, trail_nil]
  | append_singleton bs b ih =>
    rw [timerAfter_snoc, trail_snoc]
    unfold handleTimed
    cases b
    · simp
    · have h1 : (timerAfter limit bs + 1).toNat = (timerAfter limit bs).toNat + 1 := by
        rw [UInt16.toNat_add]; simp; omega
      simp only [if_true]
      by_cases hgt : timerAfter limit bs + 1 > limit
      · have : limit.toNat < (timerAfter limit bs + 1).toNat := UInt16.lt_iff_toNat_lt.mp hgt
        simp only [if_pos hgt]; omega
      · have : ¬ limit.toNat < (timerAfter limit bs + 1).toNat := fun h => hgt (UInt16.lt_iff_toNat_lt.mpr h)
        simp only [if_neg hgt]; omega

theorem fail_iff (limit : UInt16) (hl : limit.toNat < 65535) (bs : List Bool) (b : Bool) :
    (handleTimed b (timerAfter limit bs) limit).1 = false ↔
      limit.toNat + 1 ≤ trail (bs ++ [b]) := by
  rw [trail_snoc]
  have ht := timer_eq limit hl bs
  unfold handleTimed
  cases b
  · simp
  · have h1 : (timerAfter limit bs + 1).toNat = (timerAfter limit bs).toNat + 1 := by
      rw [UInt16.toNat_add]; simp; omega
    simp only [if_true]
    by_cases hgt : timerAfter limit bs + 1 > limit
    · have : limit.toNat < (timerAfter limit bs + 1).toNat := UInt16.lt_iff_toNat_lt.mp hgt
      simp only [if_pos hgt]; simp; omega
    · have : ¬ limit.toNat < (timerAfter limit bs + 1).toNat := fun h => hgt (UInt16.lt_iff_toNat_lt.mpr h)
      simp only [if_neg hgt]; simp; omega

theorem anyFail_iff (limit : UInt16) (hl : limit.toNat < 65535) (bs : List Bool) :
    anyFail limit 0 bs = true ↔ HeldFor (fun b => b = true) (limit.toNat + 1) bs := by
  induction bs using List.reverseRecOn with
  | nil =>
    simp only [anyFail, HeldFor]
    constructor
    · intro h; cases h
    · rintro ⟨pre, win, post, h, h2, -⟩
      have := congrArg List.length h
      simp at this; omega
  | append_singleton bs b ih =>
    rw [anyFail_snoc]
    simp only [Bool.or_eq_true, Bool.not_eq_true', ih, fail_iff limit hl, le_trail_iff]
    constructor
    · rintro (⟨p, w, q, h, h2, h3⟩ | ⟨p, w, h, h2, h3⟩)
      · exact ⟨p, w, q ++ [b], by rw [h]; simp, h2, h3⟩
      · exact ⟨p, w, [], by rw [h]; simp, h2, h3⟩
    · rintro ⟨p, w, q, h, h2, h3⟩
      rcases List.eq_nil_or_concat q with rfl | ⟨q', x, rfl⟩
      · exact Or.inr ⟨p, w, by simpa using h, h2, h3⟩
      · left
        rw [List.concat_eq_append, ← List.append_assoc] at h
        have := List.append_inj' h rfl
        exact ⟨p, w, q', this.1, h2, h3⟩

theorem HeldFor_map {α : Type} (f : α → Bool) (n : Nat) (ds : List α) :
    HeldFor (fun b => b = true) n (ds.map f) ↔ HeldFor (fun d => f d = true) n ds := by
  constructor
  · rintro ⟨p, w, q, h, h2, h3⟩
    obtain ⟨l1, l2, rfl, h4, h5⟩ := List.map_eq_append_iff.mp h
    obtain ⟨l3, l4, rfl, h6, h7⟩ := List.map_eq_append_iff.mp h4
    refine ⟨l3, l4, l2, rfl, by rw [← h2, ← h7]; simp, ?_⟩
    intro d hd; exact h3 _ (by rw [← h7]; exact List.mem_map_of_mem hd)
  · rintro ⟨p, w, q, h, h2, h3⟩
    refine ⟨p.map f, w.map f, q.map f, by simp [h], by simp [h2], ?_⟩
    intro b hb
    obtain ⟨d, hd, rfl⟩ := List.mem_map.mp hb
    exact h3 d hd

/-! ### The whole manager -/

def bAccelRange (cfg : Config) (d : VData) : Bool :=
  d.inputs.accelRawA > cfg.inputs.accelPedal.calibrationA.rawUpper ||
  d.inputs.accelRawA < cfg.inputs.accelPedal.calibrationA.rawLower ||
  d.inputs.accelRawB > cfg.inputs.accelPedal.calibrationB.rawUpper ||
  d.inputs.accelRawB < cfg.inputs.accelPedal.calibrationB.rawLower
def bAccelDisagree (cfg : Config) (d : VData) : Bool :=
  F32.gt (F32.abs (F32.sub d.inputs.accelA d.inputs.accelB)) cfg.inputs.accelPedal.consistencyLimit
def bBrakeRange (cfg : Config) (d : VData) : Bool :=
  d.inputs.brakeRawFront > cfg.inputs.brakePressureFront.rawUpper ||
  d.inputs.brakeRawFront < cfg.inputs.brakePressureFront.rawLower ||
  d.inputs.brakeRawRear > cfg.inputs.brakePressureRear.rawUpper ||
  d.inputs.brakeRawRear < cfg.inputs.brakePressureRear.rawLower
def bAbuse (cfg : Config) (d : VData) : Bool :=
  F32.gt d.inputs.accel cfg.inputs.pedalAbuseAccelThreshold &&
  F32.gt d.inputs.brakePresFront cfg.inputs.pedalAbuseBrakeThreshold
def bTemp (cfg : Config) (d : VData) : Bool :=
  F32.gt d.battery.maxCellTemperature (F32.ofInt cfg.bms.maxCellTemp.toInt)
def bCurrent (cfg : Config) (d : VData) : Bool :=
  F32.gt d.battery.dcCurrent (F32.ofInt cfg.bms.maxCurrent.toInt)
def bVolt (cfg : Config) (d : VData) : Bool :=
  F32.gt d.battery.maxCellVoltage (F32.ofInt cfg.bms.maxCellVoltage.toInt)
def bSoc (cfg : Config) (d : VData) : Bool :=
  F32.lt d.battery.stateOfCarge (F32.ofInt cfg.bms.minStateOfCharge.toNat)

/-- `c` if `p`, else nothing. -/
def bit (c : BitVec 32) (p : Bool) : BitVec 32 := if p then c else 0

theorem bit_or (c : BitVec 32) (p q : Bool) : bit c (p || q) = bit c p ||| bit c q := by
  cases p <;> cases q <;> simp [bit]

theorem or_if_bit (x c : BitVec 32) (p : Bool) : (if p = true then x ||| c else x) = x ||| bit c p := by
  cases p <;> simp [bit]

/-- Fault word after a history, as a function of the nine verdicts. -/
def word (p1 p2 p3 p4 p5 p6 p7 p8 p9 : Bool) : BitVec 32 :=
  bit ACCELPDL_RANGE p1 ||| bit ACCELPDL_SENSE p2 ||| bit BRAKEPDL_RANGE p3 |||
  bit BRAKEPDL_ABUSE p4 ||| bit BMS_CELLTEMP p5 ||| bit BMS_CURRENT p6 |||
  bit BMS_CELLVOLT p7 ||| bit BMS_LOWSOC p8 ||| bit BMS_FAULTIND p9

def inLimit (cfg : Config) (tick : UInt32) : UInt16 :=
  (cfg.inputs.invalidDataTimeout.toUInt32 / tick).toUInt16
def bmsLimit (cfg : Config) (tick : UInt32) : UInt16 :=
  (cfg.bms.invalidDataTimeout.toUInt32 / tick).toUInt16

theorem limit_toNat (a : UInt16) (t : UInt32) :
    ((a.toUInt32 / t).toUInt16).toNat = a.toNat / t.toNat := by
  rw [UInt32.toNat_toUInt16, UInt32.toNat_div, UInt16.toNat_toUInt32]
  apply Nat.mod_eq_of_lt
  have := a.toNat_lt
  exact Nat.lt_of_le_of_lt (Nat.div_le_self _ _) this

/-- State after a history of steps. -/
def run (cfg : Config) (m : Internal) (h : List (Option VData)) : Internal :=
  h.foldl (fun m d => (step cfg m d).2) m

/-- What the internal state is after a history `ds` of accessible samples. -/
structure Inv (cfg : Config) (tick : UInt32) (ds : List VData) (m : Internal) : Prop where
  l1 : m.accelPedalRangeTimerLimit = inLimit cfg tick
  l2 : m.accelPedalConsistencyTimerLimit = inLimit cfg tick
  l3 : m.brakePressureRangeTimerLimit = inLimit cfg tick
  l4 : m.pedalAbuseTimerLimit = inLimit cfg tick
  l5 : m.bmsFaultTimerLimit = bmsLimit cfg tick
  t1 : m.accelPedalRangeTimer = timerAfter (inLimit cfg tick) (ds.map (bAccelRange cfg))
  t2 : m.accelPedalConsistencyTimer = timerAfter (inLimit cfg tick) (ds.map (bAccelDisagree cfg))
  t3 : m.brakePressureRangeTimer = timerAfter (inLimit cfg tick) (ds.map (bBrakeRange cfg))
  t4 : cfg.inputs.pedalAbuseCheckEnabled = 1 →
    m.pedalAbuseTimer = timerAfter (inLimit cfg tick) (ds.map (bAbuse cfg))
  t5 : m.cellTempOverTimer = timerAfter (bmsLimit cfg tick) (ds.map (bTemp cfg))
  t6 : m.currentOverDrawTimer = timerAfter (bmsLimit cfg tick) (ds.map (bCurrent cfg))
  t7 : m.cellVoltageOverTimer = timerAfter (bmsLimit cfg tick) (ds.map (bVolt cfg))
  w : m.faults = word
    (anyFail (inLimit cfg tick) 0 (ds.map (bAccelRange cfg)))
    (anyFail (inLimit cfg tick) 0 (ds.map (bAccelDisagree cfg)))
    (anyFail (inLimit cfg tick) 0 (ds.map (bBrakeRange cfg)))
    (decide (cfg.inputs.pedalAbuseCheckEnabled = 1) &&
      anyFail (inLimit cfg tick) 0 (ds.map (bAbuse cfg)))
    (anyFail (bmsLimit cfg tick) 0 (ds.map (bTemp cfg)))
    (anyFail (bmsLimit cfg tick) 0 (ds.map (bCurrent cfg)))
    (anyFail (bmsLimit cfg tick) 0 (ds.map (bVolt cfg)))
    (ds.any (bSoc cfg))
    (ds.any (fun d => d.battery.bmsFaultIndicator))

theorem inv_init (cfg : Config) (tick : UInt32) (m : Internal) (h : init cfg tick = .ok m) :
    Inv cfg tick [] m := by
  unfold init at h
  split at h
  · cases h
  · injection h with h
    subst h
    constructor <;> simp [inLimit, bmsLimit, timerAfter, anyFail, word, bit]

theorem or_rot (x y : BitVec 32) : x ||| (x ||| y) = x ||| y := by
  rw [← BitVec.or_assoc, BitVec.or_self]

theorem ite3_snd {α β : Type} (a b : Prop) [Decidable a] [Decidable b] (x y z : α) (m : β) :
    (if a then (x, m) else if b then (y, m) else (z, m)).2 = m := by
  by_cases a <;> by_cases b <;> simp [*]

theorem ite3_fst {α β : Type} (a b : β → Prop) [DecidablePred a] [DecidablePred b]
    (x y z : α) (m : β) :
    (if a m then (x, m) else if b m then (y, m) else (z, m)).1 =
      (let r := (if a m then (x, m) else if b m then (y, m) else (z, m)).2
       if a r then x else if b r then y else z) := by
  rw [ite3_snd]
  by_cases a m <;> by_cases b m <;> simp [*]

/-- The verdict is a function of the new fault word. -/
theorem step_fst (cfg : Config) (m : Internal) (d : VData) :
    (step cfg m (some d)).1 =
      if ((step cfg m (some d)).2.faults &&& FAULT_MASK) > 0 then .fault
      else if ((step cfg m (some d)).2.faults &&& LV_ERROR_MASK) > 0 then .lvError
      else .noFault :=
  ite3_fst (fun r : Internal => (r.faults &&& FAULT_MASK) > 0)
    (fun r : Internal => (r.faults &&& LV_ERROR_MASK) > 0) _ _ _ _

theorem step_faults (cfg : Config) (m : Internal) (d : VData) :
    ∃ x, (step cfg m (some d)).2.faults = m.faults ||| x := by
  have h : (step cfg m (some d)).2 = _ := ite3_snd _ _ _ _ _ _
  rw [h]
  simp only [orIn, BitVec.or_assoc]
  exact ⟨_, rfl⟩

theorem inv_step (cfg : Config) (tick : UInt32) (ds : List VData) (m : Internal) (d : VData)
    (h : Inv cfg tick ds m) : Inv cfg tick (ds ++ [d]) (step cfg m (some d)).2 := by
  have key : (step cfg m (some d)).2 =
      (let m1 := orIn m (isFaultAccelPedal cfg m d)
       let m2 := orIn m1 (isFaultBrakePedal cfg m1 d)
       orIn m2 (isFaultBMS cfg m2 d)) := by
    show Prod.snd (ite _ _ (ite _ _ _)) = _
    rw [ite3_snd]
    simp [orIn, isFaultInverter, isLVErrorBMS, isLVErrorInverter]
  rw [key]
  by_cases ha : cfg.inputs.pedalAbuseCheckEnabled = 1
  all_goals
    constructor <;>
    simp only [orIn, isFaultBMS, isFaultBrakePedal, isFaultAccelPedal, List.map_append, List.map_cons,
      List.map_nil, timerAfter_snoc, ha, ↓reduceIte]
  case pos.l1 | neg.l1 => exact h.l1
  case pos.l2 | neg.l2 => exact h.l2
  case pos.l3 | neg.l3 => exact h.l3
  case pos.l4 | neg.l4 => exact h.l4
  case pos.l5 | neg.l5 => exact h.l5
  case pos.t1 | neg.t1 => rw [h.l1, h.t1]; rfl
  case pos.t2 | neg.t2 => rw [h.l2, h.t2]; rfl
  case pos.t3 | neg.t3 => rw [h.l3, h.t3]; rfl
  case pos.t4 => intro _; rw [h.l4, h.t4 ha]; rfl
  case neg.t4 => intro hh; exact absurd hh (by simp)
  case pos.t5 | neg.t5 => rw [h.l5, h.t5]; rfl
  case pos.t6 | neg.t6 => rw [h.l5, h.t6]; rfl
  case pos.t7 | neg.t7 => rw [h.l5, h.t7]; rfl
  case pos.w =>
    simp only [anyFail_snoc, List.any_append, List.any_cons, List.any_nil, Bool.or_false]
    simp only [or_if_bit]
    rw [h.l1, h.t1, h.l2, h.t2, h.l3, h.t3, h.l4, h.t4 ha, h.l5, h.t5, h.t6, h.t7, h.w]
    simp only [word, ha, decide_true, Bool.true_and, bit_or]
    simp only [bAccelRange, bAccelDisagree, bBrakeRange, bAbuse, bTemp, bCurrent, bVolt, bSoc]
    apply BitVec.eq_of_getLsbD_eq
    intro i hi
    simp only [BitVec.getLsbD_or]
    ac_nf
  case neg.w =>
    simp only [anyFail_snoc, List.any_append, List.any_cons, List.any_nil, Bool.or_false]
    simp only [or_if_bit]
    rw [h.l1, h.t1, h.l2, h.t2, h.l3, h.t3, h.l5, h.t5, h.t6, h.t7, h.w]
    simp only [word, ha, decide_false, Bool.false_and, bit_or]
    simp only [bAccelRange, bAccelDisagree, bBrakeRange, bTemp, bCurrent, bVolt, bSoc]
    apply BitVec.eq_of_getLsbD_eq
    intro i hi
    simp only [BitVec.getLsbD_or]
    grind

theorem inv_run (cfg : Config) (tick : UInt32) (m : Internal) (hm : init cfg tick = .ok m)
    (h : List (Option VData)) : Inv cfg tick (h.filterMap id) (run cfg m h) := by
  induction h using List.reverseRecOn with
  | nil => exact inv_init cfg tick m hm
  | append_singleton h d ih =>
    have e : run cfg m (h ++ [d]) = (step cfg (run cfg m h) d).2 := by simp [run]
    rw [e]
    cases d with
    | none =>
      have e2 : (step cfg (run cfg m h) none).2 = run cfg m h := rfl
      rw [e2]; simpa using ih
    | some d =>
      have := inv_step cfg tick _ _ d ih
      simpa using this

/-- The verdict as a function of the fault word. -/
theorem word_mask : ∀ p1 p2 p3 p4 p5 p6 p7 p8 p9 : Bool,
    ((word p1 p2 p3 p4 p5 p6 p7 p8 p9 &&& FAULT_MASK) > 0 ↔
      (p1 || p2 || p3 || p4 || p5 || p6 || p7 || p8 || p9) = true) ∧
    ¬ ((word p1 p2 p3 p4 p5 p6 p7 p8 p9 &&& LV_ERROR_MASK) > 0) := by
  decide +kernel

theorem word_bits : ∀ p1 p2 p3 p4 p5 p6 p7 p8 p9 : Bool,
      ((word p1 p2 p3 p4 p5 p6 p7 p8 p9 &&& 0x00000100#32 = 0x00000100#32) ↔ p1 = true) ∧
      ((word p1 p2 p3 p4 p5 p6 p7 p8 p9 &&& 0x00000200#32 = 0x00000200#32) ↔ p2 = true) ∧
      ((word p1 p2 p3 p4 p5 p6 p7 p8 p9 &&& 0x00000400#32 = 0x00000400#32) ↔ p3 = true) ∧
      ((word p1 p2 p3 p4 p5 p6 p7 p8 p9 &&& 0x00001000#32 = 0x00001000#32) ↔ p4 = true) ∧
      ((word p1 p2 p3 p4 p5 p6 p7 p8 p9 &&& 0x00002000#32 = 0x00002000#32) ↔ p5 = true) ∧
      ((word p1 p2 p3 p4 p5 p6 p7 p8 p9 &&& 0x00004000#32 = 0x00004000#32) ↔ p6 = true) ∧
      ((word p1 p2 p3 p4 p5 p6 p7 p8 p9 &&& 0x00008000#32 = 0x00008000#32) ↔ p7 = true) ∧
      ((word p1 p2 p3 p4 p5 p6 p7 p8 p9 &&& 0x00010000#32 = 0x00010000#32) ↔ p8 = true) ∧
      ((word p1 p2 p3 p4 p5 p6 p7 p8 p9 &&& 0x00020000#32 = 0x00020000#32) ↔ p9 = true) ∧
      word p1 p2 p3 p4 p5 p6 p7 p8 p9 &&& 0xFFFC08FF#32 = 0 := by decide +kernel

end Verif.FaultMgr
