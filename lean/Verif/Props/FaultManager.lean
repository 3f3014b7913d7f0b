import Verif.Proofs.FaultManager

set_option autoImplicit false

/-!
# Properties of the fault manager (C07, C08, C09, C12)
-/

namespace Verif.FaultMgr
open Verif.FaultSpec
open Verif.Vsm (FaultStatus)

/-- C07.  For every history of samples `bs` and next sample `b` (true = bad), with
the timer as the history left it, the timed check fails at `b` exactly when `b`
and the `limit` samples before it are all bad.  (For limits below 65535; see
`C07_limit_max_never_fails` for the one remaining value.) -/
theorem C07_debounce_exact (limit : UInt16) (hl : limit.toNat < 65535)
    (bs : List Bool) (b : Bool) :
    (handleTimed b (bs.foldl (fun t x => (handleTimed x t limit).2) 0) limit).1 = false ↔
      ∃ before window, bs ++ [b] = before ++ window ∧
        window.length = limit.toNat + 1 ∧ ∀ x ∈ window, x = true := by
  have := fail_iff limit hl bs b
  rw [le_trail_iff] at this
  exact this

/-- C07, excluded value: with the limit 65535 the 16-bit timer wraps and the
check never fails, however long the condition lasts. -/
theorem C07_limit_max_never_fails (b : Bool) (t : UInt16) :
    (handleTimed b t 65535).1 = true := by
  unfold handleTimed
  cases b
  · rfl
  · have h : ¬ (t + 1 > 65535) := by
      intro h
      have := UInt16.lt_iff_toNat_lt.mp h
      have h2 := (t+1).toNat_lt
      simp at this; omega
    simp [h]

/-- Limit 2: fails at the third bad sample in a row, and again while it lasts;
a good sample restarts the count. -/
example : [true, true, true, true, false, true, true].foldl
    (fun (p : List Bool × UInt16) b =>
      (p.1 ++ [(handleTimed b p.2 2).1], (handleTimed b p.2 2).2)) ([], 0)
    = ([true, true, false, false, true, true, true], 2) := by decide

/-- C08.  In one step, and hence over any continuation, no fault bit is ever
cleared. -/
theorem C08_faults_latch (cfg : Config) (m : Internal) (h : List (Option VData)) (i : Nat)
    (hi : m.faults.getLsbD i = true) :
    (h.foldl (fun m d => (step cfg m d).2) m).faults.getLsbD i = true := by
  induction h generalizing m with
  | nil => exact hi
  | cons d h ih =>
    apply ih
    cases d with
    | none => exact hi
    | some d =>
      obtain ⟨x, hx⟩ := step_faults cfg m d
      rw [hx, BitVec.getLsbD_or, hi, Bool.true_or]

/-- C08.  Once a step has reported FAULT, every later step with data access
reports FAULT. -/
theorem C08_fault_status_latches (cfg : Config) (m : Internal) (d : Option VData)
    (h : List (Option VData)) (d' : VData) (hf : (step cfg m d).1 = .fault) :
    (step cfg (h.foldl (fun m d => (step cfg m d).2) (step cfg m d).2) (some d')).1 = .fault := by
  -- a reported FAULT means some upper bit is set
  have bitOf : ∀ (w : BitVec 32), (w &&& FAULT_MASK) > 0 →
      ∃ i, w.getLsbD i = true ∧ FAULT_MASK.getLsbD i = true := by
    intro w hw
    by_contra hn
    push Not at hn
    have : w &&& FAULT_MASK = 0 := by
      apply BitVec.eq_of_getLsbD_eq
      intro i _
      rw [BitVec.getLsbD_and]
      by_cases h1 : w.getLsbD i = true
      · have := hn i h1; simp at this; simp [h1, this]
      · simp [h1]
    rw [this] at hw
    exact absurd hw (by decide)
  have ofBit : ∀ (w : BitVec 32) i, w.getLsbD i = true → FAULT_MASK.getLsbD i = true →
      (w &&& FAULT_MASK) > 0 := by
    intro w i h1 h2
    have hne : w &&& FAULT_MASK ≠ 0 := by
      intro h0
      have := congrArg (fun x => x.getLsbD i) h0
      simp [BitVec.getLsbD_and, h1, h2] at this
    show 0#32 < _
    rw [BitVec.lt_def]
    rcases Nat.eq_zero_or_pos (w &&& FAULT_MASK).toNat with h0 | h0
    · exact absurd (BitVec.eq_of_toNat_eq (by simpa using h0)) hne
    · simpa using h0
  have hm : ((step cfg m d).2.faults &&& FAULT_MASK) > 0 := by
    cases d with
    | none => simp [step] at hf
    | some d =>
      rw [step_fst] at hf
      split at hf
      · assumption
      · split at hf <;> cases hf
  obtain ⟨i, h1, h2⟩ := bitOf _ hm
  have h3 := C08_faults_latch cfg _ (h ++ [some d']) i h1
  rw [List.foldl_append] at h3
  have h4 := ofBit _ i h3 h2
  simp only [List.foldl_cons, List.foldl_nil] at h4
  rw [step_fst, if_pos h4]

/-- One fault word bit, stated on the whole history: bit of `c` set exactly when
the condition occurred. -/
def BitIff (m : Internal) (c : BitVec 32) (p : Prop) : Prop := (m.faults &&& c = c) ↔ p

/-- C09, per fault.  After any history of steps since initialisation, each
implemented fault bit is set exactly when its documented condition has occurred
in the samples that could be accessed; no other bit is ever set. -/
theorem C09_each_fault_bit (cfg : Config) (tick : UInt32) (m0 : Internal)
    (h0 : init cfg tick = .ok m0)
    (hl : inputSamples cfg tick ≤ 65535) (hlb : bmsSamples cfg tick ≤ 65535)
    (steps : List (Option VData)) :
    let m := steps.foldl (fun m d => (step cfg m d).2) m0
    let h := steps.filterMap id
    BitIff m 0x00000100#32 (HeldFor (accelRange cfg) (inputSamples cfg tick) h) ∧
    BitIff m 0x00000200#32 (HeldFor (accelDisagree cfg) (inputSamples cfg tick) h) ∧
    BitIff m 0x00000400#32 (HeldFor (brakeRange cfg) (inputSamples cfg tick) h) ∧
    BitIff m 0x00001000#32 (HeldFor (pedalAbuse cfg) (inputSamples cfg tick) h) ∧
    BitIff m 0x00002000#32 (HeldFor (cellTemp cfg) (bmsSamples cfg tick) h) ∧
    BitIff m 0x00004000#32 (HeldFor (current cfg) (bmsSamples cfg tick) h) ∧
    BitIff m 0x00008000#32 (HeldFor (cellVolt cfg) (bmsSamples cfg tick) h) ∧
    BitIff m 0x00010000#32 (∃ d ∈ h, lowSoc cfg d) ∧
    BitIff m 0x00020000#32 (∃ d ∈ h, d.battery.bmsFaultIndicator = true) ∧
    m.faults &&& 0xFFFC08FF#32 = 0 := by
  intro m h
  have inv : Inv cfg tick h m := inv_run cfg tick m0 h0 steps
  have e1 : (inLimit cfg tick).toNat + 1 = inputSamples cfg tick := by
    rw [inLimit, limit_toNat]; rfl
  have e2 : (bmsLimit cfg tick).toNat + 1 = bmsSamples cfg tick := by
    rw [bmsLimit, limit_toNat]; rfl
  have hl' : (inLimit cfg tick).toNat < 65535 := by omega
  have hlb' : (bmsLimit cfg tick).toNat < 65535 := by omega
  have conv : ∀ (b : VData → Bool) (P : VData → Prop) (lim : UInt16) (n : Nat),
      lim.toNat < 65535 → lim.toNat + 1 = n → (∀ d, b d = true ↔ P d) →
      (anyFail lim 0 (h.map b) = true ↔ HeldFor P n h) := by
    intro b P lim n h1 h2 h3
    rw [anyFail_iff lim h1, HeldFor_map, h2]
    have : (fun d => b d = true) = P := by funext d; exact propext (h3 d)
    rw [this]
  have rng : ∀ (c : AdcCal) (x : UInt16),
      ((decide (x > c.rawUpper) || decide (x < c.rawLower)) = true ↔ outside c x) := by
    intro c x
    simp only [outside, Bool.or_eq_true, decide_eq_true_eq, UInt16.lt_iff_toNat_lt, gt_iff_lt]
    omega
  obtain ⟨g1, g2, g3, g4, g5, g6, g7, g8, g9, g10⟩ := word_bits
    (anyFail (inLimit cfg tick) 0 (h.map (bAccelRange cfg)))
    (anyFail (inLimit cfg tick) 0 (h.map (bAccelDisagree cfg)))
    (anyFail (inLimit cfg tick) 0 (h.map (bBrakeRange cfg)))
    (decide (cfg.inputs.pedalAbuseCheckEnabled = 1) &&
      anyFail (inLimit cfg tick) 0 (h.map (bAbuse cfg)))
    (anyFail (bmsLimit cfg tick) 0 (h.map (bTemp cfg)))
    (anyFail (bmsLimit cfg tick) 0 (h.map (bCurrent cfg)))
    (anyFail (bmsLimit cfg tick) 0 (h.map (bVolt cfg)))
    (h.any (bSoc cfg))
    (h.any (fun d => d.battery.bmsFaultIndicator))
  rw [← inv.w] at g1 g2 g3 g4 g5 g6 g7 g8 g9 g10
  refine ⟨g1.trans ?_, g2.trans ?_, g3.trans ?_, g4.trans ?_, g5.trans ?_, g6.trans ?_,
    g7.trans ?_, g8.trans ?_, g9.trans ?_, g10⟩
  · refine conv _ _ _ _ hl' e1 fun d => ?_
    simp only [accelRange, ← rng, bAccelRange, Bool.or_eq_true, or_assoc]
  · exact conv _ _ _ _ hl' e1 fun d => Iff.rfl
  · refine conv _ _ _ _ hl' e1 fun d => ?_
    simp only [brakeRange, ← rng, bBrakeRange, Bool.or_eq_true, or_assoc]
  · by_cases ha : cfg.inputs.pedalAbuseCheckEnabled = 1
    · simp only [ha, decide_true, Bool.true_and]
      refine conv _ _ _ _ hl' e1 fun d => ?_
      simp [pedalAbuse, bAbuse, ha, F32.gt]
    · simp only [ha, decide_false, Bool.false_and]
      constructor
      · intro h; cases h
      · rintro ⟨p, w, q, -, h2, h3⟩
        cases w with
        | nil => simp [inputSamples] at h2
        | cons d w => exact absurd (h3 d (by simp)).1 ha
  · exact conv _ _ _ _ hlb' e2 fun d => Iff.rfl
  · exact conv _ _ _ _ hlb' e2 fun d => Iff.rfl
  · exact conv _ _ _ _ hlb' e2 fun d => Iff.rfl
  · simp [lowSoc, bSoc]
  · simp

/-- C09.  After any history, the next step reports FAULT iff a documented drive
fault has occurred in the accessible samples up to and including it, LV_ERROR iff
the vehicle state could not be accessed, and NO_FAULT otherwise. -/
theorem C09_status_exact (cfg : Config) (tick : UInt32) (m0 : Internal)
    (h0 : init cfg tick = .ok m0)
    (hl : inputSamples cfg tick ≤ 65535) (hlb : bmsSamples cfg tick ≤ 65535)
    (steps : List (Option VData)) (last : Option VData) :
    let r := (step cfg (steps.foldl (fun m d => (step cfg m d).2) m0) last).1
    (r = .fault ↔ last.isSome ∧ DriveFault cfg tick ((steps ++ [last]).filterMap id)) ∧
    (r = .lvError ↔ last = none) ∧
    (r = .noFault ↔ last.isSome ∧ ¬ DriveFault cfg tick ((steps ++ [last]).filterMap id)) := by
  intro r
  cases last with
  | none =>
    have : r = .lvError := rfl
    rw [this]; simp
  | some d =>
    have key := C09_each_fault_bit cfg tick m0 h0 hl hlb (steps ++ [some d])
    have inv := inv_run cfg tick m0 h0 (steps ++ [some d])
    simp only [run] at inv
    have e : (steps ++ [some d]).foldl (fun m d => (step cfg m d).2) m0 =
        (step cfg (steps.foldl (fun m d => (step cfg m d).2) m0) (some d)).2 := by simp
    obtain ⟨p1, p2, p3, p4, p5, p6, p7, p8, p9, hw⟩ : ∃ p1 p2 p3 p4 p5 p6 p7 p8 p9,
      ((steps ++ [some d]).foldl (fun m d => (step cfg m d).2) m0).faults =
        word p1 p2 p3 p4 p5 p6 p7 p8 p9 := ⟨_, _, _, _, _, _, _, _, _, inv.w⟩
    have hmk := word_mask p1 p2 p3 p4 p5 p6 p7 p8 p9
    obtain ⟨g1, g2, g3, g4, g5, g6, g7, g8, g9, -⟩ := word_bits p1 p2 p3 p4 p5 p6 p7 p8 p9
    rw [← hw] at hmk g1 g2 g3 g4 g5 g6 g7 g8 g9
    obtain ⟨k1, k2, k3, k4, k5, k6, k7, k8, k9, -⟩ := key
    have hmask : (((steps ++ [some d]).foldl (fun m d => (step cfg m d).2) m0).faults &&& FAULT_MASK) > 0
        ↔ DriveFault cfg tick ((steps ++ [some d]).filterMap id) := by
      unfold DriveFault
      unfold BitIff at k1 k2 k3 k4 k5 k6 k7 k8 k9
      rw [← k1, ← k2, ← k3, ← k4, ← k5, ← k6, ← k7, ← k8, ← k9, g1, g2, g3, g4, g5, g6, g7, g8, g9,
        hmk.1]
      simp only [Bool.or_eq_true, or_assoc]
    have hlv : ¬ (((steps ++ [some d]).foldl (fun m d => (step cfg m d).2) m0).faults &&& LV_ERROR_MASK) > 0 := by
      exact hmk.2
    rw [e] at hmask hlv
    have hr : r = if ((step cfg (steps.foldl (fun m d => (step cfg m d).2) m0) (some d)).2.faults &&& FAULT_MASK) > 0
        then .fault else .noFault := by
      show (step cfg (steps.foldl (fun m d => (step cfg m d).2) m0) (some d)).1 = _
      rw [step_fst, if_neg hlv]
    by_cases hd : DriveFault cfg tick ((steps ++ [some d]).filterMap id)
    · rw [if_pos (hmask.mpr hd)] at hr; rw [hr]; simp_all
    · rw [if_neg (fun h => hd (hmask.mp h))] at hr; rw [hr]; simp_all

/-- The hypotheses of C09 hold for the shipped configuration and tick: 11
consecutive bad samples trip a timed check. -/
example : (∃ m, init Config.default 10 = .ok m) ∧ inputSamples Config.default 10 = 11 ∧
    bmsSamples Config.default 10 = 11 := ⟨⟨_, rfl⟩, by decide, by decide⟩

/-- A sample that is healthy for the given limits. -/
def healthy : VData :=
  { VData.zero with battery := { VData.zero.battery with stateOfCarge := .fin 1000 } }

example : (init Config.default 10).toOption.map (fun m => (step Config.default m (some healthy)).1)
    = some .noFault := by decide +kernel
example : (init Config.default 10).toOption.map (fun m => (step Config.default m (some VData.zero)).1)
    = some .fault := by decide +kernel

/-- The documented table of fault codes, faultManager.h:65-87. -/
def driveFaultCodes : List (BitVec 32) :=
  [ACCELPDL_RANGE, ACCELPDL_SENSE, BRAKEPDL_RANGE, BRAKEPDL_SENSE, BRAKEPDL_ABUSE, BMS_CELLTEMP,
   BMS_CURRENT, BMS_CELLVOLT, BMS_LOWSOC, BMS_FAULTIND, INV_OVERTEMP, INV_IGBTTEMP,
   INV_MOTORTEMP, INV_CURRENT, INV_FAULTIND, INV_FAULTMSG, INV_STATE]
def lvErrorCodes : List (BitVec 32) :=
  [LV_ERROR_BMS_TIMEOUT, LV_ERROR_INV_TIMEOUT, LV_ERROR_INV_STATE]

/-- C12, what holds: the drive fault codes are exactly the single bits 8 to 24 (so
one-hot and pairwise distinct, in the upper 24 bits), every LV error code is a
single bit of the low byte, and the two masks partition the word.  Missing: the
LV codes are not pairwise distinct (`C12_lv_codes_collide`). -/
theorem C12_codes_partial :
    driveFaultCodes = (List.range' 8 17).map (fun k => 1#32 <<< k) ∧
    (∀ c ∈ lvErrorCodes, ∃ k, k < 8 ∧ c = 1#32 <<< k) ∧
    driveFaultCodes.Nodup ∧
    (∀ c ∈ driveFaultCodes, c &&& FAULT_MASK = c ∧ c &&& LV_ERROR_MASK = 0) ∧
    (∀ c ∈ lvErrorCodes, c &&& LV_ERROR_MASK = c ∧ c &&& FAULT_MASK = 0) ∧
    FAULT_MASK ||| LV_ERROR_MASK = 0xFFFFFFFF#32 := by
  refine ⟨by decide, ?_, by decide, ?_, ?_, by decide +kernel⟩
  case refine_2 =>
    simp only [driveFaultCodes, List.forall_mem_cons, List.not_mem_nil, false_implies, implies_true,
      and_true]
    decide +kernel
  case refine_3 =>
    simp only [lvErrorCodes, List.forall_mem_cons, List.not_mem_nil, false_implies, implies_true,
      and_true]
    decide +kernel
  intro c hc
  simp only [lvErrorCodes, List.mem_cons, List.not_mem_nil, or_false] at hc
  rcases hc with rfl | rfl | rfl
  · exact ⟨0, by decide, by decide⟩
  · exact ⟨1, by decide, by decide⟩
  · exact ⟨1, by decide, by decide⟩

/-- C12 fails: "inverter CAN timeout" and "inverter LV error state" share one
code, so they cannot be told apart. -/
theorem C12_lv_codes_collide : LV_ERROR_INV_TIMEOUT = LV_ERROR_INV_STATE ∧ ¬ lvErrorCodes.Nodup := by
  decide

end Verif.FaultMgr
