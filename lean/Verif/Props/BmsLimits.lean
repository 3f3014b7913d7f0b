import Verif.Props.CanStatus
import Verif.Props.FaultManager

set_option autoImplicit false

/-!
# C11, C63, C64: BMS frames against the shipped limits; documented faults that are
never detected
-/

namespace Verif.FaultMgr
open F32 Verif.FaultSpec Verif.Dbc

/-! ## Documented physical values (README, "Data Formats") -/

/-- Temperature in degrees, encoded x10. -/
def physTemp (raw : ℤ) : ℚ := raw / 10
/-- Pack current in amperes, encoded x10. -/
def physCurrent (raw : ℤ) : ℚ := raw / 10
/-- Cell voltage in volts, encoded x100. -/
def physCellVolt (raw : ℤ) : ℚ := raw / 100
/-- State of charge in percent, encoded x100. -/
def physSoc (raw : ℤ) : ℚ := raw / 100

/-- `d` is what the vehicle state holds after the BMS driver has processed a
maximum-cell frame with payload `pc` and a pack frame with payload `pk`, each
being the latest of its kind. -/
def Shows (bus : Nat) (pc pk : Payload) (d : VData) : Prop :=
  ∃ d0 : VData, d = Bms.processing bus
    [(⟨bus, 0x301, pc, 8⟩, true), (⟨bus, 0x303, pk, 8⟩, true)] d0

/-- C11 in full: the shipped limits act at 75 degC, 450 A, 4.2 V and 10 %. -/
def LimitsActAsDocumented : Prop :=
  ∀ (bus : Nat) (pc pk : Payload) (d : VData), Shows bus pc pk d →
    (cellTemp Config.default d ↔ 75 < physTemp (sle16 pc 0)) ∧
    (current Config.default d ↔ 450 < physCurrent (sle16 pk 0)) ∧
    (cellVolt Config.default d ↔ 42/10 < physCellVolt (sle16 pc 3)) ∧
    (lowSoc Config.default d ↔ physSoc (le16 pk 4) < 10)

theorem sle16_range (p : Payload) (i : Nat) (h : i + 1 < 8) :
    -32768 ≤ sle16 p i h ∧ sle16 p i h ≤ 32767 := by
  have := le16_lt p i h
  unfold sle16 sign16
  split_ifs <;> omega

theorem lim_temp : F32.ofInt Config.default.bms.maxCellTemp.toInt = fin 750 := by decide +kernel
theorem lim_cur : F32.ofInt Config.default.bms.maxCurrent.toInt = fin 4500 := by decide +kernel
theorem lim_volt : F32.ofInt Config.default.bms.maxCellVoltage.toInt = fin 420 := by decide +kernel
theorem lim_soc : F32.ofInt (Config.default.bms.minStateOfCharge.toNat : ℤ) = fin 1000 := by
  decide +kernel

/-- Decoded values against the shipped limits, for every raw number. -/
theorem raw_limits (n : ℤ) (h1 : -32768 ≤ n) (h2 : n ≤ 32767) :
    (F32.lt (fin 750) (Bms.msgToTemperature n) = true ↔ 750 < n) ∧
    F32.lt (fin 4500) (Bms.msgToCurrent n) = false ∧
    F32.lt (fin 420) (Bms.msgToVoltageLow n) = false := by
  obtain ⟨ht, ⟨v, hv, hv2⟩, -, ⟨w, hw, hw2⟩, -⟩ := C23_scale_partial n h1 (by omega)
  have q1 : (-32768:ℚ) ≤ n := by exact_mod_cast h1
  have q2 : (n:ℚ) ≤ 32767 := by exact_mod_cast h2
  refine ⟨?_, ?_, ?_⟩
  · rw [ht, lt_fin, decide_eq_true_eq]
    have : (10 * ((n:ℚ) / 10)) = n := by ring
    rw [this]; exact_mod_cast Iff.rfl
  · rw [hv, lt_fin, decide_eq_false_iff_not]
    have := (abs_le.mp hv2).2
    intro; linarith
  · rw [hw, lt_fin, decide_eq_false_iff_not]
    have := (abs_le.mp hw2).2
    intro; linarith

theorem raw_soc (n : Nat) (h : n < 65536) :
    (F32.lt (Bms.msgToStateOfChargePct n) (fin 1000) = true ↔ n < 2000) := by
  have hs := (C23_scale_partial n (by omega) (by omega)).2.2.2.2 (by omega)
  rw [Int.toNat_natCast] at hs
  rw [hs, lt_fin, decide_eq_true_eq]
  have : (50 * (((n:ℤ):ℚ) / 100)) = (n:ℚ) / 2 := by push_cast; ring
  rw [this, div_lt_iff₀ (by norm_num)]
  norm_num

/-- **C11, what holds.** The temperature limit acts at the documented 75 degC
(the missing division in the conversion and the x10 in the configuration cancel).
The current and voltage limits act at no value at all, and the state-of-charge
limit acts at 20 % instead of 10 %. -/
theorem C11_limits_partial (bus : Nat) (pc pk : Payload) (d : VData) (h : Shows bus pc pk d) :
    (cellTemp Config.default d ↔ 75 < physTemp (sle16 pc 0)) ∧
    ¬ current Config.default d ∧
    ¬ cellVolt Config.default d ∧
    (lowSoc Config.default d ↔ physSoc (le16 pk 4) < 20) := by
  obtain ⟨d0, rfl⟩ := h
  have e : Bms.processing bus [(⟨bus, 0x301, pc, 8⟩, true), (⟨bus, 0x303, pk, 8⟩, true)] d0 =
      Bms.handlePackState pk (Bms.handleMaxCellState pc d0) := by
    simp [Bms.processing, Bms.handleFrame, Bms.handlerOf]
  rw [e]
  have t := sle16_range pc 0 (by decide)
  have v := sle16_range pc 3 (by decide)
  have c := sle16_range pk 0 (by decide)
  refine ⟨?_, ?_, ?_, ?_⟩
  · unfold cellTemp
    rw [lim_temp]
    refine (raw_limits _ t.1 t.2).1.trans ?_
    unfold physTemp
    rw [lt_div_iff₀ (by norm_num)]
    norm_num
    exact_mod_cast Iff.rfl
  · unfold current
    rw [lim_cur, Bool.not_eq_true]
    exact (raw_limits _ c.1 c.2).2.1
  · unfold cellVolt
    rw [lim_volt, Bool.not_eq_true]
    exact (raw_limits _ v.1 v.2).2.2
  · unfold lowSoc
    rw [lim_soc]
    refine (raw_soc _ (le16_lt pk 4 (by decide))).trans ?_
    unfold physSoc
    rw [div_lt_iff₀ (by norm_num)]
    norm_num

/-- **C11 is false**: 500 A never trips the 450 A limit. -/
theorem C11_limits_violated : ¬ LimitsActAsDocumented := by
  intro h
  have h1 := (h 1 (Vector.replicate 8 0) #v[0x88, 0x13, 0, 0, 0xFF, 0x0F, 0, 0] _
    ⟨VData.zero, rfl⟩).2.1
  have h2 := (C11_limits_partial 1 (Vector.replicate 8 0) #v[0x88, 0x13, 0, 0, 0xFF, 0x0F, 0, 0] _
    ⟨VData.zero, rfl⟩).2.1
  exact h2 (h1.mpr (by decide +kernel))

/-! ## Histories -/

/-- Vehicle data as the running system can produce it, as far as the battery
section goes: all zero at start, changed only by the BMS driver. -/
inductive Produced (bus : Nat) : VData → Prop
  | start (d : VData) : d.battery = VData.zero.battery → Produced bus d
  | frames (d : VData) (q : List (CanFrame × Bool)) : Produced bus d →
      Produced bus (Bms.processing bus q d)
  | other (d d' : VData) : Produced bus d → d'.battery = d.battery → Produced bus d'

/-- The battery section always holds decoded raw numbers and a clear fault
indicator. -/
def BatteryRaw (b : Battery) : Prop :=
  (∃ n : ℤ, -32768 ≤ n ∧ n ≤ 32767 ∧ b.dcCurrent = Bms.msgToCurrent n) ∧
  (∃ n : ℤ, -32768 ≤ n ∧ n ≤ 32767 ∧ b.maxCellVoltage = Bms.msgToVoltageLow n) ∧
  b.bmsFaultIndicator = false

theorem batteryRaw_frame {bus : Nat} {a : Bool} {f : CanFrame} {d : VData}
    (h : BatteryRaw d.battery) : BatteryRaw (Bms.handleFrame bus a f d).battery := by
  have r := sle16_range f.data
  unfold Bms.handleFrame
  by_cases hb : f.busInstance = bus
  swap
  · rw [if_pos hb]; exact h
  rw [if_neg (by simpa using hb)]
  by_cases hd : f.dlc = 8
  swap
  · cases Bms.handlerOf f.msgId with
    | none => exact h
    | some g => simp only [if_pos hd]; exact h
  cases a
  · cases Bms.handlerOf f.msgId with
    | none => exact h
    | some g => simp only [hd]; exact h
  obtain ⟨h1, h2, h3⟩ := h
  unfold Bms.handlerOf
  by_cases g1 : f.msgId = 0x301
  · simp only [g1, hd]
    exact ⟨h1, ⟨_, (r 3 (by decide)).1, (r 3 (by decide)).2, rfl⟩, h3⟩
  by_cases g2 : f.msgId = 0x302
  · simp only [g2, hd]
    exact ⟨h1, h2, h3⟩
  by_cases g3 : f.msgId = 0x303
  · simp only [g3, hd]
    exact ⟨⟨_, (r 0 (by decide)).1, (r 0 (by decide)).2, rfl⟩, h2, h3⟩
  by_cases g4 : f.msgId = 0x304
  · simp only [g4, hd]
    exact ⟨h1, h2, h3⟩
  simp only [g1, g2, g3, g4, if_false]
  exact ⟨h1, h2, h3⟩

theorem Produced.raw {bus : Nat} {d : VData} (h : Produced bus d) : BatteryRaw d.battery := by
  induction h with
  | start d h =>
    rw [h]
    exact ⟨⟨0, by decide, by decide, by decide +kernel⟩, ⟨0, by decide, by decide, by decide +kernel⟩,
      rfl⟩
  | frames d q _ ih =>
    unfold Bms.processing
    induction q generalizing d with
    | nil => exact ih
    | cons fa q ihq =>
      simp only [List.foldl_cons]
      rename_i hd
      have := Produced.frames d [fa] hd
      exact ihq _ (by simpa [Bms.processing] using this) (batteryRaw_frame ih)
  | other d d' _ h ih => rw [h]; exact ih

/-- **C11, histories.** With the shipped configuration no stream of BMS frames
whatsoever makes the fault manager report over-current or cell over-voltage; and
no frame carries the BMS fault indicator, so that fault is never reported either. -/
theorem C11_current_voltage_faults_unreachable (bus : Nat) (tick : UInt32) (m0 : Internal)
    (h0 : init Config.default tick = .ok m0) (steps : List (Option VData))
    (hp : ∀ d, some d ∈ steps → Produced bus d) :
    let m := steps.foldl (fun m d => (step Config.default m d).2) m0
    m.faults &&& BMS_CURRENT = 0 ∧ m.faults &&& BMS_CELLVOLT = 0 ∧
      m.faults &&& BMS_FAULTIND = 0 := by
  intro m
  have ht : tick ≠ 0 := by
    intro h; subst h; simp [init] at h0
  have ht' : 1 ≤ tick.toNat := by
    rw [Nat.one_le_iff_ne_zero]
    intro h; exact ht (UInt32.toNat_inj.mp h)
  have hl : inputSamples Config.default tick ≤ 65535 := by
    unfold inputSamples
    have : Config.default.inputs.invalidDataTimeout.toNat / tick.toNat ≤ 100 :=
      Nat.div_le_self _ _
    omega
  have hlb : bmsSamples Config.default tick ≤ 65535 := by
    unfold bmsSamples
    have : Config.default.bms.invalidDataTimeout.toNat / tick.toNat ≤ 100 :=
      Nat.div_le_self _ _
    omega
  obtain ⟨-, -, -, -, -, g6, g7, -, g9, -⟩ :=
    C09_each_fault_bit Config.default tick m0 h0 hl hlb steps
  have one : ∀ (P : VData → Prop), (∀ d, some d ∈ steps → ¬ P d) →
      ¬ HeldFor P (bmsSamples Config.default tick) (steps.filterMap id) := by
    intro P hP ⟨a, w, b, e, hw, hall⟩
    cases w with
    | nil => simp [bmsSamples] at hw
    | cons d w =>
      have hm : d ∈ steps.filterMap id := by rw [e]; simp
      have : some d ∈ steps := by simpa using hm
      exact hP d this (hall d (by simp))
  have bit : ∀ (w : BitVec 32) (i : Nat) (hi : i < 32), ¬ (w &&& (1#32 <<< i) = 1#32 <<< i) →
      w &&& (1#32 <<< i) = 0 := by
    intro w i hi h
    ext j hj
    by_cases hij : j = i
    · subst hij
      by_contra hc
      apply h
      ext k hk
      by_cases hk' : k = j
      · subst hk'
        simp at hc ⊢
        exact hc
      · simp [BitVec.getElem_one]
        intro h1 h2; omega
    · simp [BitVec.getElem_one]
      intro h1 h2; omega
  refine ⟨bit m.faults 14 (by decide) fun h => ?_, bit m.faults 15 (by decide) fun h => ?_,
    bit m.faults 17 (by decide) fun h => ?_⟩
  · refine one _ ?_ (g6.mp h)
    intro d hd hc
    obtain ⟨n, h1, h2, e⟩ := (hp d hd).raw.1
    unfold current at hc
    rw [lim_cur, e, (raw_limits n h1 h2).2.1] at hc
    cases hc
  · refine one _ ?_ (g7.mp h)
    intro d hd hc
    obtain ⟨n, h1, h2, e⟩ := (hp d hd).raw.2.1
    unfold cellVolt at hc
    rw [lim_volt, e, (raw_limits n h1 h2).2.2] at hc
    cases hc
  · obtain ⟨d, hd, hc⟩ := g9.mp h
    have hd' : some d ∈ steps := by simpa using hd
    rw [(hp d hd').raw.2.2] at hc
    cases hc

/-- **C11, start-up.** If the fault manager samples the vehicle state once before
the first pack frame has arrived (state of charge still zero), it reports FAULT at
that step and at every later accessible step, whatever the BMS sends afterwards. -/
theorem C11_fault_before_first_pack_frame (tick : UInt32) (m0 : Internal)
    (h0 : init Config.default tick = .ok m0) (d : VData)
    (hd : d.battery.stateOfCarge = VData.zero.battery.stateOfCarge)
    (later : List (Option VData)) (d' : VData) :
    (step Config.default m0 (some d)).1 = .fault ∧
    (step Config.default
      (later.foldl (fun m x => (step Config.default m x).2) (step Config.default m0 (some d)).2)
      (some d')).1 = .fault := by
  have hl : inputSamples Config.default tick ≤ 65535 := by
    unfold inputSamples
    have : Config.default.inputs.invalidDataTimeout.toNat / tick.toNat ≤ 100 :=
      Nat.div_le_self _ _
    omega
  have hlb : bmsSamples Config.default tick ≤ 65535 := by
    unfold bmsSamples
    have : Config.default.bms.invalidDataTimeout.toNat / tick.toNat ≤ 100 :=
      Nat.div_le_self _ _
    omega
  have hs := C09_status_exact Config.default tick m0 h0 hl hlb [] (some d)
  have h1 : (step Config.default m0 (some d)).1 = .fault := by
    refine hs.1.mpr ⟨rfl, ?_⟩
    right; right; right; right; right; right; right; left
    refine ⟨d, by simp, ?_⟩
    unfold lowSoc
    rw [hd]
    decide +kernel
  exact ⟨h1, C08_fault_status_latches _ _ _ _ _ h1⟩

/-- A vehicle with 15 % charge, 25 degC, 3.70 V and no current, pedals released:
faulted on its first sample. -/
example :
    let d := Bms.processing 1
      [(⟨1, 0x301, #v[0xFA, 0, 0, 0x72, 0x01, 0, 0, 0], 8⟩, true),
       (⟨1, 0x303, #v[0, 0, 0, 0, 0xDC, 0x05, 0, 0], 8⟩, true)] VData.zero
    (init Config.default 10).map (fun m => (step Config.default m (some d)).1) = .ok .fault := by
  decide +kernel

/-! ## C63, C64: documented faults nobody detects -/

/-- **C63 is false.** A bus that goes silent is never noticed: whatever the time
without frames (the sample repeated any number of times), the status is what the
sample itself warrants; LV_ERROR is reported only when the state could not be
read, and none of the low-voltage fault codes is ever raised. -/
theorem C63_can_silence_not_detected (cfg : Config) (tick : UInt32) (m0 : Internal)
    (h0 : init cfg tick = .ok m0)
    (hl : inputSamples cfg tick ≤ 65535) (hlb : bmsSamples cfg tick ≤ 65535)
    (d : VData) (hok : ¬ DriveFault cfg tick (List.replicate 65536 d)) (n : Nat) :
    (step cfg ((List.replicate n (some d)).foldl (fun m x => (step cfg m x).2) m0) (some d)).1
      = .noFault := by
  have hs := C09_status_exact cfg tick m0 h0 hl hlb (List.replicate n (some d)) (some d)
  refine hs.2.2.mpr ⟨rfl, ?_⟩
  have e : (List.replicate n (some d) ++ [some d]).filterMap id = List.replicate (n+1) d := by
    rw [List.filterMap_append, List.filterMap_replicate]
    simp [List.replicate_succ']
  rw [e]
  intro hf
  apply hok
  have held : ∀ (P : VData → Prop) (k : Nat), 0 < k → k ≤ 65535 →
      HeldFor P k (List.replicate (n+1) d) → HeldFor P k (List.replicate 65536 d) := by
    intro P k hk hk' ⟨a, w, b, e, hw, hall⟩
    have hPd : P d := by
      cases w with
      | nil => simp at hw; omega
      | cons x w =>
        have : x ∈ List.replicate (n+1) d := by rw [e]; simp
        rw [List.eq_of_mem_replicate this] at hall
        exact hall d (by simp)
    refine ⟨[], List.replicate k d, List.replicate (65536 - k) d, ?_, by simp, ?_⟩
    · rw [List.nil_append, List.replicate_append_replicate]; congr 1; omega
    · intro x hx; rw [List.eq_of_mem_replicate hx]; exact hPd
  have hi : 0 < inputSamples cfg tick := Nat.succ_pos _
  have hb : 0 < bmsSamples cfg tick := Nat.succ_pos _
  have hmem : ∀ x, x ∈ List.replicate (n+1) d → x ∈ List.replicate 65536 d := by
    intro x hx
    rw [List.eq_of_mem_replicate hx]
    exact List.mem_replicate.mpr ⟨by norm_num, rfl⟩
  rcases hf with h | h | h | h | h | h | h | ⟨x, hx, h⟩ | ⟨x, hx, h⟩
  · exact Or.inl (held _ _ hi hl h)
  · exact Or.inr (Or.inl (held _ _ hi hl h))
  · exact Or.inr (Or.inr (Or.inl (held _ _ hi hl h)))
  · exact Or.inr (Or.inr (Or.inr (Or.inl (held _ _ hi hl h))))
  · exact Or.inr (Or.inr (Or.inr (Or.inr (Or.inl (held _ _ hb hlb h)))))
  · exact Or.inr (Or.inr (Or.inr (Or.inr (Or.inr (Or.inl (held _ _ hb hlb h))))))
  · exact Or.inr (Or.inr (Or.inr (Or.inr (Or.inr (Or.inr (Or.inl (held _ _ hb hlb h)))))))
  · exact Or.inr (Or.inr (Or.inr (Or.inr (Or.inr (Or.inr (Or.inr (Or.inl ⟨x, hmem x hx, h⟩)))))))
  · exact Or.inr (Or.inr (Or.inr (Or.inr (Or.inr (Or.inr (Or.inr (Or.inr ⟨x, hmem x hx, h⟩)))))))

/-- A parked, healthy sample: 21 % charge or more, everything in range. -/
def healthyBms : VData :=
  { VData.zero with battery := { VData.zero.battery with stateOfCarge := fin 1050 } }

theorem healthy_ok (h : List VData) (hh : ∀ d ∈ h, d = healthyBms) :
    ¬ DriveFault Config.default 10 h := by
  have one : ∀ (P : VData → Prop) (k : Nat), 0 < k → ¬ P healthyBms → ¬ HeldFor P k h := by
    intro P k hk hP ⟨a, w, b, e, hw, hall⟩
    cases w with
    | nil => simp at hw; omega
    | cons x w =>
      have : x ∈ h := by rw [e]; simp
      have hx := hall x (by simp)
      rw [hh x this] at hx
      exact hP hx
  rintro (g | g | g | g | g | g | g | ⟨x, hx, g⟩ | ⟨x, hx, g⟩)
  · exact one _ _ (by decide) (by unfold accelRange outside; decide) g
  · exact one _ _ (by decide) (by unfold accelDisagree; decide +kernel) g
  · exact one _ _ (by decide) (by unfold brakeRange outside; decide) g
  · exact one _ _ (by decide) (by unfold pedalAbuse; decide) g
  · exact one _ _ (by decide) (by unfold cellTemp; decide +kernel) g
  · exact one _ _ (by decide) (by unfold current; decide +kernel) g
  · exact one _ _ (by decide) (by unfold cellVolt; decide +kernel) g
  · rw [hh x hx] at g; revert g; unfold lowSoc; decide +kernel
  · rw [hh x hx] at g; revert g; decide

/-- The hypotheses of `C63_can_silence_not_detected` hold for the shipped
configuration and a healthy sample, so a silent bus is never reported. -/
theorem C63_healthy_then_silent_forever (m0 : Internal) (h0 : init Config.default 10 = .ok m0)
    (n : Nat) :
    (step Config.default
      ((List.replicate n (some healthyBms)).foldl (fun m x => (step Config.default m x).2) m0)
      (some healthyBms)).1 = .noFault :=
  C63_can_silence_not_detected Config.default 10 m0 h0 (by decide) (by decide) healthyBms
    (healthy_ok _ fun _ h => List.eq_of_mem_replicate h) n

/-- **C64 is false.** No documented inverter or motor fault (0x00040000 to
0x01000000), no brake-sensor disagreement and no low-voltage fault code is ever
raised, for any configuration and any history. -/
theorem C64_inverter_faults_never_raised (cfg : Config) (tick : UInt32) (m0 : Internal)
    (h0 : init cfg tick = .ok m0)
    (hl : inputSamples cfg tick ≤ 65535) (hlb : bmsSamples cfg tick ≤ 65535)
    (steps : List (Option VData)) :
    ∀ c ∈ [INV_OVERTEMP, INV_IGBTTEMP, INV_MOTORTEMP, INV_CURRENT, INV_FAULTIND, INV_FAULTMSG,
        INV_STATE, BRAKEPDL_SENSE, LV_ERROR_BMS_TIMEOUT, LV_ERROR_INV_TIMEOUT, LV_ERROR_INV_STATE],
      (steps.foldl (fun m d => (step cfg m d).2) m0).faults &&& c = 0 := by
  obtain ⟨-, -, -, -, -, -, -, -, -, g⟩ := C09_each_fault_bit cfg tick m0 h0 hl hlb steps
  intro c hc
  have hsub : c = 0xFFFC08FF#32 &&& c := by
    simp only [List.mem_cons, List.not_mem_nil, or_false] at hc
    rcases hc with rfl | rfl | rfl | rfl | rfl | rfl | rfl | rfl | rfl | rfl | rfl <;> decide
  rw [hsub, ← BitVec.and_assoc, g]
  simp

end Verif.FaultMgr
