import Verif.Model.Inverter
import Verif.Model.Bms
import Verif.Spec.Dbc

set_option autoImplicit false

/-!
# C22, C23: status frames from the inverter and the BMS
-/

namespace Verif.Dbc
open F32

/-! ## Bit extraction -/

section
variable (p : Payload)

theorem bl (i : Nat) (h : i < 8) : p[i].toNat < 256 := p[i].toNat_lt

theorem w16_0 : word p / 2^0 % 2^16 = le16 p 0 := by
  have h0 := bl p 0 (by decide); have h1 := bl p 1 (by decide)
  simp only [word, le16, Nat.reduceAdd] at *; omega
theorem w16_16 : word p / 2^16 % 2^16 = le16 p 2 := by
  have h0 := bl p 0 (by decide); have h1 := bl p 1 (by decide)
  have h2 := bl p 2 (by decide); have h3 := bl p 3 (by decide)
  simp only [word, le16, Nat.reduceAdd] at *; omega
theorem w16_24 : word p / 2^24 % 2^16 = le16 p 3 := by
  have h0 := bl p 0 (by decide); have h1 := bl p 1 (by decide)
  have h2 := bl p 2 (by decide); have h3 := bl p 3 (by decide)
  have h4 := bl p 4 (by decide)
  simp only [word, le16, Nat.reduceAdd] at *; omega
theorem w16_32 : word p / 2^32 % 2^16 = le16 p 4 := by
  have h0 := bl p 0 (by decide); have h1 := bl p 1 (by decide)
  have h2 := bl p 2 (by decide); have h3 := bl p 3 (by decide)
  have h4 := bl p 4 (by decide); have h5 := bl p 5 (by decide)
  simp only [word, le16, Nat.reduceAdd] at *; omega
theorem w16_48 : word p / 2^48 % 2^16 = le16 p 6 := by
  have h0 := bl p 0 (by decide); have h1 := bl p 1 (by decide)
  have h2 := bl p 2 (by decide); have h3 := bl p 3 (by decide)
  have h4 := bl p 4 (by decide); have h5 := bl p 5 (by decide)
  have h6 := bl p 6 (by decide); have h7 := bl p 7 (by decide)
  simp only [word, le16, Nat.reduceAdd] at *; omega
theorem w8_0 : word p / 2^0 % 2^8 = p[0].toNat := by
  have h0 := bl p 0 (by decide)
  simp only [word] at *; omega
theorem w8_8 : word p / 2^8 % 2^8 = p[1].toNat := by
  have h0 := bl p 0 (by decide); have h1 := bl p 1 (by decide)
  simp only [word] at *; omega
theorem w8_16 : word p / 2^16 % 2^8 = p[2].toNat := by
  have h0 := bl p 0 (by decide); have h1 := bl p 1 (by decide)
  have h2 := bl p 2 (by decide)
  simp only [word] at *; omega
theorem w8_40 : word p / 2^40 % 2^8 = p[5].toNat := by
  have h0 := bl p 0 (by decide); have h1 := bl p 1 (by decide)
  have h2 := bl p 2 (by decide); have h3 := bl p 3 (by decide)
  have h4 := bl p 4 (by decide); have h5 := bl p 5 (by decide)
  simp only [word] at *; omega
theorem w3_37 : word p / 2^37 % 2^3 = (p[4] >>> 5).toNat := by
  have h0 := bl p 0 (by decide); have h1 := bl p 1 (by decide)
  have h2 := bl p 2 (by decide); have h3 := bl p 3 (by decide)
  have h4 := bl p 4 (by decide)
  have : (p[4] >>> 5).toNat = p[4].toNat / 32 := by
    rw [UInt8.toNat_shiftRight]; rw [Nat.shiftRight_eq_div_pow]; rfl
  rw [this]
  simp only [word] at *; omega
theorem w1_48 : word p / 2^48 % 2^1 = (p[6] &&& 1).toNat := by
  have h0 := bl p 0 (by decide); have h1 := bl p 1 (by decide)
  have h2 := bl p 2 (by decide); have h3 := bl p 3 (by decide)
  have h4 := bl p 4 (by decide); have h5 := bl p 5 (by decide)
  have h6 := bl p 6 (by decide)
  have : (p[6] &&& 1).toNat = p[6].toNat % 2 := by
    rw [UInt8.toNat_and]; exact Nat.and_one_is_mod _
  rw [this]
  simp only [word] at *; omega
theorem w1_56 : word p / 2^56 % 2^1 = (p[7] &&& 1).toNat := by
  have h0 := bl p 0 (by decide); have h1 := bl p 1 (by decide)
  have h2 := bl p 2 (by decide); have h3 := bl p 3 (by decide)
  have h4 := bl p 4 (by decide); have h5 := bl p 5 (by decide)
  have h6 := bl p 6 (by decide); have h7 := bl p 7 (by decide)
  have : (p[7] &&& 1).toNat = p[7].toNat % 2 := by
    rw [UInt8.toNat_and]; exact Nat.and_one_is_mod _
  rw [this]
  simp only [word] at *; omega
theorem w32_0 : word p / 2^0 % 2^32 = (le32 p 0).toNat := by
  have h0 := bl p 0 (by decide); have h1 := bl p 1 (by decide)
  have h2 := bl p 2 (by decide); have h3 := bl p 3 (by decide)
  simp only [word, le32, Nat.reduceAdd, UInt32.toNat_ofNat'] at *; omega
theorem w32_32 : word p / 2^32 % 2^32 = (le32 p 4).toNat := by
  have h0 := bl p 0 (by decide); have h1 := bl p 1 (by decide)
  have h2 := bl p 2 (by decide); have h3 := bl p 3 (by decide)
  have h4 := bl p 4 (by decide); have h5 := bl p 5 (by decide)
  have h6 := bl p 6 (by decide); have h7 := bl p 7 (by decide)
  simp only [word, le32, Nat.reduceAdd, UInt32.toNat_ofNat'] at *; omega

theorem le16_lt (i : Nat) (h : i + 1 < 8) : le16 p i h < 65536 := by
  have h0 := bl p i (by omega); have h1 := bl p (i+1) (by omega)
  simp only [le16]; omega
end

theorem sign_eq (n : Nat) :
    (if true && decide (2^(16-1) ≤ n) then (n:Int) - 2^16 else (n:Int)) = sign16 n := by
  unfold sign16
  by_cases h : n < 32768
  · rw [if_pos h]; simp; omega
  · rw [if_neg h]; simp; omega

theorem sign16_abs {n : Nat} (h : n < 65536) : |sign16 n| ≤ 2^24 := by
  unfold sign16; rw [abs_le]; split_ifs <;> constructor <;> omega

theorem scaled_eq {n : ℤ} (h : |n| ≤ 2^24) {k : ℚ} (hk : F32.round k = fin k) (h0 : k ≠ 0) :
    InvDrv.scaled n k = F32.round ((n:ℚ) / k) := by
  unfold InvDrv.scaled
  rw [F32.ofInt_eq h, hk, div_fin _ _ h0]

theorem r10 : F32.round 10 = fin 10 := by decide +kernel
theorem r100 : F32.round 100 = fin 100 := by decide +kernel
theorem r1000 : F32.round 1000 = fin 1000 := by decide +kernel

theorem u_abs {n : Nat} (h : n < 65536) : |(n:ℤ)| ≤ 2^24 := by
  rw [abs_le]; constructor <;> omega

/-! ## C22 -/

/-- Values of the conversion functions as single roundings. -/
theorem u10 (p : Payload) (i : Nat) (h : i + 1 < 8) :
    InvDrv.scaled ((le16 p i h : Nat) : ℤ) 10 = F32.round (((le16 p i h : Nat) : ℤ) / 10) :=
  scaled_eq (u_abs (le16_lt p i h)) r10 (by norm_num)
theorem u100 (p : Payload) (i : Nat) (h : i + 1 < 8) :
    InvDrv.scaled ((le16 p i h : Nat) : ℤ) 100 = F32.round (((le16 p i h : Nat) : ℤ) / 100) :=
  scaled_eq (u_abs (le16_lt p i h)) r100 (by norm_num)
theorem u1000 (p : Payload) (i : Nat) (h : i + 1 < 8) :
    InvDrv.scaled ((le16 p i h : Nat) : ℤ) 1000 = F32.round (((le16 p i h : Nat) : ℤ) / 1000) :=
  scaled_eq (u_abs (le16_lt p i h)) r1000 (by norm_num)
theorem s10 (p : Payload) (i : Nat) (h : i + 1 < 8) :
    InvDrv.scaled (sle16 p i h) 10 = F32.round ((sle16 p i h : ℤ) / 10) :=
  scaled_eq (sign16_abs (le16_lt p i h)) r10 (by norm_num)

/-- Raw numbers of the signals used. -/
theorem raw_u {F : Type} (s : Signal F) (p : Payload) {n : Nat} (hs : s.signed = false)
    (h : word p / 2^s.start % 2^s.len = n) : s.rawValue p = (n : ℤ) := by
  simp [Signal.rawValue, hs, h]

theorem raw_s {F : Type} (s : Signal F) (p : Payload) {n : Nat} (hs : s.signed = true)
    (hl : s.len = 16) (h : word p / 2^s.start % 2^16 = n) : s.rawValue p = sign16 n := by
  simp only [Signal.rawValue, hs, hl, h]
  exact sign_eq n

theorem val_raw {F : Type} {id : Nat} {f : F} {st ln : Nat} {p : Payload} {n : Nat}
    (h : word p / 2^st % 2^ln = n) :
    Val.int (n : ℤ) = (⟨id, f, st, ln, false, .raw⟩ : Signal F).value p := by
  simp only [Signal.value]; rw [raw_u _ _ rfl h]

theorem val_raw_s {F : Type} {id : Nat} {f : F} {st : Nat} {p : Payload} {n : Nat}
    (h : word p / 2^st % 2^16 = n) :
    Val.int (sign16 n) = (⟨id, f, st, 16, true, .raw⟩ : Signal F).value p := by
  simp only [Signal.value]; rw [raw_s _ _ rfl rfl h]

theorem val_per {F : Type} {id : Nat} {f : F} {st : Nat} {p : Payload} {n : Nat} {k : ℚ}
    (h : word p / 2^st % 2^16 = n) (hk : F32.round k = fin k) (h0 : k ≠ 0) :
    Val.flt (InvDrv.scaled (n : ℤ) k) = (⟨id, f, st, 16, false, .per k⟩ : Signal F).value p := by
  have hn : n < 65536 := by rw [← h]; exact Nat.mod_lt _ (by norm_num)
  simp only [Signal.value]; rw [raw_u _ _ rfl h, scaled_eq (u_abs hn) hk h0]

theorem val_per_s {F : Type} {id : Nat} {f : F} {st : Nat} {p : Payload} {n : Nat} {k : ℚ}
    (h : word p / 2^st % 2^16 = n) (hk : F32.round k = fin k) (h0 : k ≠ 0) :
    Val.flt (InvDrv.scaled (sign16 n) k) = (⟨id, f, st, 16, true, .per k⟩ : Signal F).value p := by
  have hn : n < 65536 := by rw [← h]; exact Nat.mod_lt _ (by norm_num)
  simp only [Signal.value]; rw [raw_s _ _ rfl rfl h, scaled_eq (sign16_abs hn) hk h0]

open InvDrv in
theorem handleTemperatures1_updates (p : Payload) (d : VData) :
    Updates inverterTable getInv 0x0A0 p d (handleTemperatures1 p d) := by
  intro fld
  cases fld
  case moduleA => exact val_per (w16_0 p) r10 (by norm_num)
  case moduleB => exact val_per (w16_16 p) r10 (by norm_num)
  case moduleC => exact val_per (w16_32 p) r10 (by norm_num)
  case gateDriver => exact val_per (w16_48 p) r10 (by norm_num)
  all_goals rfl

open InvDrv in
theorem handleTemperatures2_updates (p : Payload) (d : VData) :
    Updates inverterTable getInv 0x0A1 p d (handleTemperatures2 p d) := by
  intro fld
  cases fld
  case controlBoard => exact val_per (w16_0 p) r10 (by norm_num)
  all_goals rfl

open InvDrv in
theorem handleTemperatures3_updates (p : Payload) (d : VData) :
    Updates inverterTable getInv 0x0A2 p d (handleTemperatures3 p d) := by
  intro fld
  cases fld
  case mTemperature => exact val_per (w16_32 p) r10 (by norm_num)
  all_goals rfl

open InvDrv in
theorem handleMotorPosInfo_updates (p : Payload) (d : VData) :
    Updates inverterTable getInv 0x0A5 p d (handleMotorPosInfo p d) := by
  intro fld
  cases fld
  case mAngle => exact val_per (w16_0 p) r10 (by norm_num)
  case mSpeed => exact val_raw_s (w16_16 p)
  case outputFrequency => exact val_per (w16_32 p) r10 (by norm_num)
  all_goals rfl

open InvDrv in
theorem handleCurrentInfo_updates (p : Payload) (d : VData) :
    Updates inverterTable getInv 0x0A6 p d (handleCurrentInfo p d) := by
  intro fld
  cases fld
  case mPhaseA => exact val_per_s (w16_0 p) r10 (by norm_num)
  case mPhaseB => exact val_per_s (w16_16 p) r10 (by norm_num)
  case mPhaseC => exact val_per_s (w16_32 p) r10 (by norm_num)
  case dcBusCurrent => exact val_per_s (w16_48 p) r10 (by norm_num)
  all_goals rfl

open InvDrv in
theorem handleVoltageInfo_updates (p : Payload) (d : VData) :
    Updates inverterTable getInv 0x0A7 p d (handleVoltageInfo p d) := by
  intro fld
  cases fld
  case dcBusVoltage => exact val_per (w16_0 p) r10 (by norm_num)
  case outputVoltage => exact val_per (w16_16 p) r10 (by norm_num)
  case vd => exact val_per (w16_32 p) r10 (by norm_num)
  case vq => exact val_per (w16_48 p) r10 (by norm_num)
  all_goals rfl

open InvDrv in
theorem handleFluxInfo_updates (p : Payload) (d : VData) :
    Updates inverterTable getInv 0x0A8 p d (handleFluxInfo p d) := by
  intro fld
  cases fld
  case fluxCommand => exact val_per (w16_0 p) r1000 (by norm_num)
  case fluxFeedback => exact val_per (w16_16 p) r1000 (by norm_num)
  case idFeedback => exact val_per_s (w16_32 p) r10 (by norm_num)
  case iqFeedback => exact val_per_s (w16_48 p) r10 (by norm_num)
  all_goals rfl

open InvDrv in
theorem handleInternalStates_updates (p : Payload) (d : VData) :
    Updates inverterTable getInv 0x0AA p d (handleInternalStates p d) := by
  intro fld
  cases fld
  case vsmState => exact val_raw (w8_0 p)
  case inverterState => exact val_raw (w8_16 p)
  case dischargeState => exact val_raw (w3_37 p)
  case enabled => exact val_raw (w1_48 p)
  case direction => exact val_raw (w1_56 p)
  all_goals rfl

open InvDrv in
theorem handleFaultCodes_updates (p : Payload) (d : VData) :
    Updates inverterTable getInv 0x0AB p d (handleFaultCodes p d) := by
  intro fld
  cases fld
  case postFaults => exact val_raw (w32_0 p)
  case runFaults => exact val_raw (w32_32 p)
  all_goals rfl

open InvDrv in
theorem handleTorqueTimer_updates (p : Payload) (d : VData) :
    Updates inverterTable getInv 0x0AC p d (handleTorqueTimer p d) := by
  intro fld
  cases fld
  case commandedTorque => exact val_per (w16_0 p) r10 (by norm_num)
  case mTorque => exact val_per (w16_16 p) r10 (by norm_num)
  case timerCounts => exact val_raw (w32_32 p)
  all_goals rfl

open InvDrv in
theorem handleFluxWeakening_updates (p : Payload) (d : VData) :
    Updates inverterTable getInv 0x0AD p d (handleFluxWeakening p d) := by
  intro fld
  cases fld
  case modulationIndex => exact val_per (w16_0 p) r100 (by norm_num)
  case fluxWeakening => exact val_per_s (w16_16 p) r10 (by norm_num)
  case idCommand => exact val_per_s (w16_32 p) r10 (by norm_num)
  case iqCommand => exact val_per_s (w16_48 p) r10 (by norm_num)
  all_goals rfl

/-- The identifiers the inverter sends. -/
def inverterIds : List Nat :=
  [0x0A0, 0x0A1, 0x0A2, 0x0A5, 0x0A6, 0x0A7, 0x0A8, 0x0AA, 0x0AB, 0x0AC, 0x0AD]

/-- The listed identifiers are those of the table. -/
theorem inverterIds_table (n : Nat) : n ∈ inverterIds ↔ ∃ s ∈ inverterTable, s.msgId = n := by
  simp only [inverterIds, inverterTable, List.mem_cons, List.not_mem_nil, or_false,
    exists_eq_or_imp, exists_eq_left]
  omega

/-- The field list is complete: it determines the motor and inverter sections. -/
theorem getInv_complete {a b : VData} (h : ∀ f, getInv f a = getInv f b) :
    a.motor = b.motor ∧ a.inverter = b.inverter := by
  constructor
  · have h1 := h .mTemperature; have h2 := h .mAngle; have h3 := h .mSpeed
    have h4 := h .mPhaseA; have h5 := h .mPhaseB; have h6 := h .mPhaseC; have h7 := h .mTorque
    simp only [getInv, Val.flt.injEq, Val.int.injEq] at h1 h2 h3 h4 h5 h6 h7
    cases ha : a.motor; cases hb : b.motor
    simp only [ha, hb] at *
    simp only [*]
  · have h0 := h .moduleA
    have h1 := h .moduleB
    have h2 := h .moduleC
    have h3 := h .gateDriver
    have h4 := h .controlBoard
    have h5 := h .outputFrequency
    have h6 := h .dcBusCurrent
    have h7 := h .dcBusVoltage
    have h8 := h .outputVoltage
    have h9 := h .vd
    have h10 := h .vq
    have h11 := h .fluxCommand
    have h12 := h .fluxFeedback
    have h13 := h .idFeedback
    have h14 := h .iqFeedback
    have h15 := h .idCommand
    have h16 := h .iqCommand
    have h17 := h .commandedTorque
    have h18 := h .modulationIndex
    have h19 := h .fluxWeakening
    have h20 := h .vsmState
    have h21 := h .inverterState
    have h22 := h .dischargeState
    have h23 := h .enabled
    have h24 := h .direction
    have h25 := h .timerCounts
    have h26 := h .runFaults
    have h27 := h .postFaults
    simp only [getInv, Val.flt.injEq, Val.int.injEq, Int.natCast_inj, UInt8.toNat_inj,
      UInt32.toNat_inj] at h0 h1 h2 h3 h4 h5 h6 h7 h8 h9 h10 h11 h12 h13 h14 h15 h16 h17 h18 h19 h20 h21 h22 h23 h24 h25 h26 h27
    cases ha : a.inverter; cases hb : b.inverter
    simp only [ha, hb] at *
    simp only [*]

theorem inv_id_cases {id : UInt32} (h : id.toNat ∈ inverterIds) :
    id = 0x0A0 ∨ id = 0x0A1 ∨ id = 0x0A2 ∨ id = 0x0A5 ∨ id = 0x0A6 ∨ id = 0x0A7 ∨ id = 0x0A8 ∨
    id = 0x0AA ∨ id = 0x0AB ∨ id = 0x0AC ∨ id = 0x0AD := by
  simp only [inverterIds, List.mem_cons, List.not_mem_nil, or_false] at h
  simp only [← UInt32.toNat_inj]
  exact h

theorem inv_handler_none {id : UInt32} (h : id.toNat ∉ inverterIds) :
    InvDrv.handlerOf id = none := by
  have e : ∀ k : UInt32, k.toNat ∈ inverterIds → id ≠ k := fun k hk he => h (he ▸ hk)
  unfold InvDrv.handlerOf
  rw [if_neg (e _ (by decide)), if_neg (e _ (by decide)), if_neg (e _ (by decide)),
    if_neg (e _ (by decide)), if_neg (e _ (by decide)), if_neg (e _ (by decide)),
    if_neg (e _ (by decide)), if_neg (e _ (by decide)), if_neg (e _ (by decide)),
    if_neg (e _ (by decide)), if_neg (e _ (by decide))]

theorem inv_handler_some {id : UInt32} (hid : id.toNat ∈ inverterIds) :
    ∃ h, InvDrv.handlerOf id = some h ∧
      ∀ p d, Updates inverterTable getInv id.toNat p d (h p d) ∧ SameOutsideInverter d (h p d) := by
  rcases inv_id_cases hid with e | e | e | e | e | e | e | e | e | e | e <;> subst e
  · exact ⟨_, rfl, fun p d => ⟨handleTemperatures1_updates p d, ⟨rfl, rfl, rfl, rfl, rfl⟩⟩⟩
  · exact ⟨_, rfl, fun p d => ⟨handleTemperatures2_updates p d, ⟨rfl, rfl, rfl, rfl, rfl⟩⟩⟩
  · exact ⟨_, rfl, fun p d => ⟨handleTemperatures3_updates p d, ⟨rfl, rfl, rfl, rfl, rfl⟩⟩⟩
  · exact ⟨_, rfl, fun p d => ⟨handleMotorPosInfo_updates p d, ⟨rfl, rfl, rfl, rfl, rfl⟩⟩⟩
  · exact ⟨_, rfl, fun p d => ⟨handleCurrentInfo_updates p d, ⟨rfl, rfl, rfl, rfl, rfl⟩⟩⟩
  · exact ⟨_, rfl, fun p d => ⟨handleVoltageInfo_updates p d, ⟨rfl, rfl, rfl, rfl, rfl⟩⟩⟩
  · exact ⟨_, rfl, fun p d => ⟨handleFluxInfo_updates p d, ⟨rfl, rfl, rfl, rfl, rfl⟩⟩⟩
  · exact ⟨_, rfl, fun p d => ⟨handleInternalStates_updates p d, ⟨rfl, rfl, rfl, rfl, rfl⟩⟩⟩
  · exact ⟨_, rfl, fun p d => ⟨handleFaultCodes_updates p d, ⟨rfl, rfl, rfl, rfl, rfl⟩⟩⟩
  · exact ⟨_, rfl, fun p d => ⟨handleTorqueTimer_updates p d, ⟨rfl, rfl, rfl, rfl, rfl⟩⟩⟩
  · exact ⟨_, rfl, fun p d => ⟨handleFluxWeakening_updates p d, ⟨rfl, rfl, rfl, rfl, rfl⟩⟩⟩

/-- A frame the inverter driver accepts. -/
def invAccepted (bus : Nat) (access : Bool) (f : CanFrame) : Bool :=
  decide (f.busInstance = bus) && decide (f.dlc = 8) && access && decide (f.msgId.toNat ∈ inverterIds)

/-- **C22.** An eight-byte frame with a known identifier on the inverter's bus
gives every field listed for that identifier the documented value of the
payload, keeps every other motor and inverter field, and touches no other
section; any other frame (or a frame whose access to the vehicle state was
refused) changes nothing. -/
theorem C22_frame (bus : Nat) (access : Bool) (f : CanFrame) (d : VData) :
    (invAccepted bus access f = true →
      Updates inverterTable getInv f.msgId.toNat f.data d (InvDrv.handleFrame bus access f d) ∧
      SameOutsideInverter d (InvDrv.handleFrame bus access f d)) ∧
    (invAccepted bus access f = false → InvDrv.handleFrame bus access f d = d) := by
  unfold invAccepted InvDrv.handleFrame
  by_cases hb : f.busInstance = bus
  swap
  · simp [hb]
  by_cases hid : f.msgId.toNat ∈ inverterIds
  swap
  · simp [hb, hid, inv_handler_none hid]
  obtain ⟨h, hh, hu⟩ := inv_handler_some hid
  by_cases hd : f.dlc = 8
  swap
  · simp [hb, hd, hh]
  cases access
  · simp [hb, hd, hh]
  · simp only [hb, hd, hh, hid, decide_true, Bool.and_self, forall_const, ne_eq, not_true,
      if_false, if_true]
    exact ⟨hu _ _, by simp⟩

/-- The most recent value the accepted frames of a queue carry for a field. -/
def latest {F : Type} [DecidableEq F] (table : List (Signal F)) (fld : F) (frames : List CanFrame) :
    Option Val :=
  frames.reverse.findSome? fun f =>
    (table.find? (fun s => decide (s.msgId = f.msgId.toNat) && decide (s.field = fld))).map
      (·.value f.data)

/-- **C22, streams.** After any queue of frames every field holds the value of
the last accepted frame that carries it, or its old value if there was none. -/
theorem C22_stream (bus : Nat) (q : List (CanFrame × Bool)) (d : VData) (fld : InvField) :
    getInv fld (InvDrv.processing bus q d) =
      (latest inverterTable fld ((q.filter fun fa => invAccepted bus fa.2 fa.1).map (·.1))).getD
        (getInv fld d) := by
  induction q using List.reverseRecOn with
  | nil => rfl
  | append_singleton q fa ih =>
    have hs : InvDrv.processing bus (q ++ [fa]) d =
        InvDrv.handleFrame bus fa.2 fa.1 (InvDrv.processing bus q d) := by
      simp [InvDrv.processing]
    have := C22_frame bus fa.2 fa.1 (InvDrv.processing bus q d)
    rw [hs, List.filter_append, List.map_append]
    by_cases ha : invAccepted bus fa.2 fa.1 = true
    · have hu := (this.1 ha).1 fld
      rw [hu]
      simp only [ha, List.filter_cons_of_pos, List.filter_nil, List.map_cons, List.map_nil, latest,
        List.reverse_append, List.reverse_cons, List.reverse_nil, List.nil_append,
        List.singleton_append, List.findSome?_cons]
      cases inverterTable.find? (fun s => decide (s.msgId = fa.1.msgId.toNat) &&
        decide (s.field = fld)) with
      | none => simpa [latest] using ih
      | some s => simp
    · simp only [Bool.not_eq_true] at ha
      rw [this.2 ha, ih]
      simp [ha]


/-- A motor position frame: 12.3 degrees, -2 rpm, 50 Hz; only those fields move. -/
example :
    let f : CanFrame := ⟨0, 0x0A5, #v[0x7B, 0, 0xFE, 0xFF, 0xF4, 1, 0, 0], 8⟩
    let d := InvDrv.handleFrame 0 true f VData.zero
    d.motor.angle = F32.round (123/10) ∧ d.motor.speed = -2 ∧
    d.inverter.outputFrequency = fin 50 ∧ d.motor.temperature = fin 0 := by decide +kernel

/-! ## C23 -/

theorem val_times {F : Type} {id : Nat} {f : F} {st : Nat} {p : Payload} {n : Nat} {c : ℚ}
    {k : F32} (h : word p / 2^st % 2^16 = n) (hk : k = fin c) :
    Val.flt ((F32.ofInt (n : ℤ)).mul k) = (⟨id, f, st, 16, false, .times c⟩ : Signal F).value p := by
  have hn : n < 65536 := by rw [← h]; exact Nat.mod_lt _ (by norm_num)
  simp only [Signal.value]; rw [raw_u _ _ rfl h, F32.ofInt_eq (u_abs hn), hk, mul_fin]

theorem val_times_s {F : Type} {id : Nat} {f : F} {st : Nat} {p : Payload} {n : Nat} {c : ℚ}
    {k : F32} (h : word p / 2^st % 2^16 = n) (hk : k = fin c) :
    Val.flt ((F32.ofInt (sign16 n)).mul k) = (⟨id, f, st, 16, true, .times c⟩ : Signal F).value p := by
  have hn : n < 65536 := by rw [← h]; exact Nat.mod_lt _ (by norm_num)
  simp only [Signal.value]; rw [raw_s _ _ rfl rfl h, F32.ofInt_eq (sign16_abs hn), hk, mul_fin]

theorem val_one_s {F : Type} {id : Nat} {f : F} {st : Nat} {p : Payload} {n : Nat}
    (h : word p / 2^st % 2^16 = n) :
    Val.flt (F32.ofInt (sign16 n)) = (⟨id, f, st, 16, true, .times 1⟩ : Signal F).value p := by
  simp only [Signal.value]; rw [raw_s _ _ rfl rfl h, mul_one]; rfl

theorem k10 : F32.round (1/10) = fin (rnd (1/10)) := by decide +kernel
theorem k10000 : F32.round (1/10000) = fin (rnd (1/10000)) := by decide +kernel
theorem k2 : F32.round (1/2) = fin (1/2) := by decide +kernel

theorem failsafe_val (p : Payload) :
    word p / 2^16 % 2^16 = (UInt16.ofNat (le16 p 2)).toNat := by
  have := le16_lt p 2 (by decide)
  rw [w16_16, UInt16.toNat_ofNat', Nat.mod_eq_of_lt this]

open Bms in
theorem bms301 (p : Payload) (d : VData) :
    Updates (bmsTable codeScale) getBms 0x301 p d (handleMaxCellState p d) := by
  intro fld
  cases fld
  case maxT => exact val_one_s (w16_0 p)
  case maxTId => exact val_raw (w8_16 p)
  case maxV => exact val_times_s (w16_24 p) k10000
  case maxVId => exact val_raw (w8_40 p)
  all_goals rfl

open Bms in
theorem bms302 (p : Payload) (d : VData) :
    Updates (bmsTable codeScale) getBms 0x302 p d (handleMinCellState p d) := by
  intro fld
  cases fld
  case minT => exact val_one_s (w16_0 p)
  case minTId => exact val_raw (w8_16 p)
  case minV => exact val_times_s (w16_24 p) k10000
  case minVId => exact val_raw (w8_40 p)
  all_goals rfl

open Bms in
theorem bms303 (p : Payload) (d : VData) :
    Updates (bmsTable codeScale) getBms 0x303 p d (handlePackState p d) := by
  intro fld
  cases fld
  case current => exact val_times_s (w16_0 p) k10
  case voltage => exact val_times_s (w16_16 p) k10
  case soc => exact val_times (w16_32 p) k2
  all_goals rfl

open Bms in
theorem bms304 (p : Payload) (d : VData) :
    Updates (bmsTable codeScale) getBms 0x304 p d (handleStatus p d) := by
  intro fld
  cases fld
  case counter => exact val_raw (w8_0 p)
  case populated => exact val_raw (w8_8 p)
  case failsafe => exact val_raw (failsafe_val p)
  all_goals rfl

/-- The identifiers the BMS sends. -/
def bmsIds : List Nat := [0x301, 0x302, 0x303, 0x304]

theorem bmsIds_table (k : BmsScale) (n : Nat) : n ∈ bmsIds ↔ ∃ s ∈ bmsTable k, s.msgId = n := by
  simp only [bmsIds, bmsTable, List.mem_cons, List.not_mem_nil, or_false,
    exists_eq_or_imp, exists_eq_left]
  omega

/-- The field list determines the battery section. -/
theorem getBms_complete {a b : VData} (h : ∀ f, getBms f a = getBms f b) : a.battery = b.battery := by
  have h0 := h .maxV; have h1 := h .maxT; have h2 := h .minV; have h3 := h .minT
  have h4 := h .maxVId; have h5 := h .maxTId; have h6 := h .minVId; have h7 := h .minTId
  have h8 := h .current; have h9 := h .voltage; have h10 := h .soc
  have h11 := h .faultIndicator; have h12 := h .populated; have h13 := h .counter
  have h14 := h .failsafe
  have hb : ∀ x y : Bool, Val.int (if x then 1 else 0) = Val.int (if y then 1 else 0) → x = y := by
    decide
  replace h11 := hb _ _ h11
  simp only [getBms, Val.flt.injEq, Val.int.injEq, Int.natCast_inj, UInt8.toNat_inj,
    UInt16.toNat_inj] at h0 h1 h2 h3 h4 h5 h6 h7 h8 h9 h10 h12 h13 h14
  cases ha : a.battery; cases hb : b.battery
  simp only [ha, hb] at *
  simp only [*]

theorem bms_handler_none {id : UInt32} (h : id.toNat ∉ bmsIds) : Bms.handlerOf id = none := by
  have e : ∀ k : UInt32, k.toNat ∈ bmsIds → id ≠ k := fun k hk he => h (he ▸ hk)
  unfold Bms.handlerOf
  rw [if_neg (e _ (by decide)), if_neg (e _ (by decide)), if_neg (e _ (by decide)),
    if_neg (e _ (by decide))]

theorem bms_handler_some {id : UInt32} (hid : id.toNat ∈ bmsIds) :
    ∃ h, Bms.handlerOf id = some h ∧
      ∀ p d, Updates (bmsTable codeScale) getBms id.toNat p d (h p d) ∧
        SameOutsideBattery d (h p d) := by
  have hc : id = 0x301 ∨ id = 0x302 ∨ id = 0x303 ∨ id = 0x304 := by
    simp only [bmsIds, List.mem_cons, List.not_mem_nil, or_false] at hid
    simp only [← UInt32.toNat_inj]
    exact hid
  rcases hc with e | e | e | e <;> subst e
  · exact ⟨_, rfl, fun p d => ⟨bms301 p d, ⟨rfl, rfl, rfl, rfl, rfl, rfl⟩⟩⟩
  · exact ⟨_, rfl, fun p d => ⟨bms302 p d, ⟨rfl, rfl, rfl, rfl, rfl, rfl⟩⟩⟩
  · exact ⟨_, rfl, fun p d => ⟨bms303 p d, ⟨rfl, rfl, rfl, rfl, rfl, rfl⟩⟩⟩
  · exact ⟨_, rfl, fun p d => ⟨bms304 p d, ⟨rfl, rfl, rfl, rfl, rfl, rfl⟩⟩⟩

/-- A frame the BMS driver accepts. -/
def bmsAccepted (bus : Nat) (access : Bool) (f : CanFrame) : Bool :=
  decide (f.busInstance = bus) && decide (f.dlc = 8) && access && decide (f.msgId.toNat ∈ bmsIds)

/-- C23 for a given scaling: accepted frames update exactly the listed fields,
all other frames change nothing. -/
def BmsConforms (k : BmsScale) : Prop :=
  ∀ (bus : Nat) (access : Bool) (f : CanFrame) (d : VData),
    (bmsAccepted bus access f = true →
      Updates (bmsTable k) getBms f.msgId.toNat f.data d (Bms.handleFrame bus access f d) ∧
      SameOutsideBattery d (Bms.handleFrame bus access f d)) ∧
    (bmsAccepted bus access f = false → Bms.handleFrame bus access f d = d)

/-- **C23, what holds.** With the scale factors of the conversion functions the
driver conforms to the documented message layout: right bytes to the right
fields, everything else unchanged, other frames ignored.  Missing: the
documented scale of temperature, cell voltage and state of charge. -/
theorem C23_layout_partial : BmsConforms codeScale := by
  intro bus access f d
  unfold bmsAccepted Bms.handleFrame
  by_cases hb : f.busInstance = bus
  swap
  · simp [hb]
  by_cases hid : f.msgId.toNat ∈ bmsIds
  swap
  · simp [hb, hid, bms_handler_none hid]
  obtain ⟨h, hh, hu⟩ := bms_handler_some hid
  by_cases hd : f.dlc = 8
  swap
  · simp [hb, hd, hh]
  cases access
  · simp [hb, hd, hh]
  · simp only [hb, hd, hh, hid, decide_true, Bool.and_self, forall_const, ne_eq, not_true,
      if_false, if_true]
    exact ⟨hu _ _, by simp⟩

/-- A maximum-cell frame reporting 25.0 degC and 4.10 V in the README's encoding. -/
def exampleCellFrame : CanFrame := ⟨1, 0x301, #v[0xFA, 0, 3, 0x9A, 0x01, 7, 0, 0], 8⟩

/-- **C23 is false as documented.** A frame that reports 25.0 degC and 4.10 V is
stored as 250 degC and about 0.041 V. -/
theorem C23_documented_scale_violated : ¬ BmsConforms readmeScale := by
  intro h
  have h1 := ((h 1 true exampleCellFrame VData.zero).1 (by decide +kernel)).1 .maxT
  revert h1
  decide +kernel

example : (Bms.handleFrame 1 true exampleCellFrame VData.zero).battery.maxCellTemperature = fin 250 ∧
    (Bms.handleFrame 1 true exampleCellFrame VData.zero).battery.maxCellVoltage =
      F32.round (410 * rnd (1/10000)) ∧
    (Bms.handleFrame 1 true exampleCellFrame VData.zero).battery.maxCellTemperatureCellID = 3 ∧
    (Bms.handleFrame 1 true exampleCellFrame VData.zero).battery.maxCellVoltageCellID = 7 := by
  decide +kernel

/-- How far each conversion is from the documented physical value, for every raw
number: temperatures ten times too large, cell voltages a hundredth, state of
charge fifty times too large; pack current and voltage are right up to 0.0005. -/
theorem C23_scale_partial (n : ℤ) (h1 : -32768 ≤ n) (h2 : n ≤ 65535) :
    Bms.msgToTemperature n = fin (10 * (n / 10)) ∧
    (∃ v, Bms.msgToCurrent n = fin v ∧ |v - n / 10| ≤ 1/2000) ∧
    (∃ v, Bms.msgToVoltageHigh n = fin v ∧ |v - n / 10| ≤ 1/2000) ∧
    (∃ v, Bms.msgToVoltageLow n = fin v ∧ |v - (n / 100) / 100| ≤ 1/2000000) ∧
    (0 ≤ n → Bms.msgToStateOfChargePct n.toNat = fin (50 * (n / 100))) := by
  have hn : |n| ≤ 2^24 := by rw [abs_le]; omega
  have q1 : (-32768:ℚ) ≤ n := by exact_mod_cast h1
  have q2 : (n:ℚ) ≤ 65535 := by exact_mod_cast h2
  have c1 : rnd (1/10) = 13421773/134217728 := by decide +kernel
  have c2 : rnd (1/10000) = 13743895/137438953472 := by decide +kernel
  have cur : ∃ v, (F32.ofInt n).mul (F32.round (1/10)) = fin v ∧ |v - n / 10| ≤ 1/2000 := by
    refine ⟨rnd (n * rnd (1/10)), ?_, ?_⟩
    · rw [F32.ofInt_eq hn, k10, mul_fin, round_eq]
      rw [c1, abs_le]; constructor <;> norm_num <;> linarith
    · have e := abs_le.mp (rnd_err_le (x := n * rnd (1/10)) (k := 13)
        (by rw [c1, abs_le]; constructor <;> norm_num <;> linarith) (by norm_num))
      rw [c1] at e ⊢
      norm_num at e
      rw [abs_le]; constructor <;> linarith [e.1, e.2]
  refine ⟨?_, cur, cur, ?_, ?_⟩
  · unfold Bms.msgToTemperature
    rw [F32.ofInt_eq hn]; congr 1; ring
  · refine ⟨rnd (n * rnd (1/10000)), ?_, ?_⟩
    · unfold Bms.msgToVoltageLow
      rw [F32.ofInt_eq hn, k10000, mul_fin, round_eq]
      rw [c2, abs_le]; constructor <;> norm_num <;> linarith
    · have e := abs_le.mp (rnd_err_le (x := n * rnd (1/10000)) (k := 3)
        (by rw [c2, abs_le]; constructor <;> norm_num <;> linarith) (by norm_num))
      rw [c2] at e ⊢
      norm_num at e
      rw [abs_le]; constructor <;> linarith [e.1, e.2]
  · intro h0
    unfold Bms.msgToStateOfChargePct
    rw [Int.toNat_of_nonneg h0, F32.ofInt_eq hn, k2, mul_fin, round_eq]
    · congr 1
      have : (n:ℚ) * (1/2) = (n:ℚ) * (2:ℚ)^(-1:ℤ) := by norm_num
      rw [this, rnd_exact n (-1) hn (by norm_num)]; norm_num; ring
    · rw [abs_le]; constructor <;> norm_num <;> linarith

/-- **C23, streams.** After any queue every battery field holds the value of the
last accepted frame that carries it. -/
theorem C23_stream (bus : Nat) (q : List (CanFrame × Bool)) (d : VData) (fld : BmsField) :
    getBms fld (Bms.processing bus q d) =
      (latest (bmsTable codeScale) fld
        ((q.filter fun fa => bmsAccepted bus fa.2 fa.1).map (·.1))).getD (getBms fld d) := by
  induction q using List.reverseRecOn with
  | nil => rfl
  | append_singleton q fa ih =>
    have hs : Bms.processing bus (q ++ [fa]) d =
        Bms.handleFrame bus fa.2 fa.1 (Bms.processing bus q d) := by
      simp [Bms.processing]
    have := C23_layout_partial bus fa.2 fa.1 (Bms.processing bus q d)
    rw [hs, List.filter_append, List.map_append]
    by_cases ha : bmsAccepted bus fa.2 fa.1 = true
    · have hu := (this.1 ha).1 fld
      rw [hu]
      simp only [ha, List.filter_cons_of_pos, List.filter_nil, List.map_cons, List.map_nil, latest,
        List.reverse_append, List.reverse_cons, List.reverse_nil, List.nil_append,
        List.singleton_append, List.findSome?_cons]
      cases (bmsTable codeScale).find? (fun s => decide (s.msgId = fa.1.msgId.toNat) &&
        decide (s.field = fld)) with
      | none => simpa [latest] using ih
      | some s => simp
    · simp only [Bool.not_eq_true] at ha
      rw [this.2 ha, ih]
      simp [ha]

end Verif.Dbc
