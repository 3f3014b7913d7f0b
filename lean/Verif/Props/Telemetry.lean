import Verif.Model.Telemetry
import Verif.Spec.Telemetry
import Verif.Props.MsgFrame

set_option autoImplicit false

/-!
# C46: the state broadcast
-/

namespace Verif.Telemetry
open MsgFrame FrameSpec TelemetrySpec

/-- The frame of a field, whatever was in the buffer. -/
theorem send_frame (f : List UInt8 → UInt32) (buf : List UInt8) (hb : buf.length = 18) (id : UInt16) (size : Nat)
    (hs : size ≤ 4) (v : UInt32) :
    ∃ frame, sendStateField (fun m => some (f m)) buf id size v = some frame ∧ Valid f 18 frame ∧
      frame.take 12 = [0x3A, 0x00, 0x02, 0x00, 0x01] ++ payload id size v := by
  have hbl : bufLen = 1024 := rfl
  have hpl : (payload id size v).length = 7 := rfl
  obtain ⟨frame, _, _, _, e1, e2, _⟩ := C33_round_trip f 0x02 0x01 (payload id size v) buf (by rw [hb, hpl])
    (by rw [hpl]; omega) (fun _ => 0)
  have he := encode_eq (fun m => some (f m)) 0x02 0x01 (payload id size v) buf (by rw [hb, hpl])
  rw [e1] at he
  rw [hpl] at e2
  refine ⟨frame, ?_, e2, ?_⟩
  · unfold sendStateField
    rw [if_neg (by omega), ← e1]
    rfl
  · injection he with he
    rw [he]
    rfl

theorem getD_take {m : List UInt8} {l : List UInt8} (h : m.take 12 = l) (i : Nat) (hi : i < 12) : m.getD i 0 = l.getD i 0 := by
  rw [← h]
  simp [List.getD, hi]

theorem id_bytes (id : UInt16) : (id >>> 8).toUInt8.toNat * 256 + id.toUInt8.toNat = id.toNat := by
  have h1 : (id >>> 8).toUInt8.toNat = id.toNat / 256 % 256 := by
    simp [UInt16.toNat_toUInt8, UInt16.toNat_shiftRight, Nat.shiftRight_eq_div_pow]
  have h2 : id.toUInt8.toNat = id.toNat % 256 := by simp
  have := id.toNat_lt
  rw [h1, h2]
  omega

theorem value_bytes (v : UInt32) :
    v.toUInt8.toNat + (v >>> 8).toUInt8.toNat * 256 + (v >>> 16).toUInt8.toNat * 65536 +
      (v >>> 24).toUInt8.toNat * 16777216 = v.toNat := by
  have h : ∀ k : Nat, k < 32 → (v >>> UInt32.ofNat k).toUInt8.toNat = v.toNat / 2 ^ k % 256 := by
    intro k hk
    have hk' : k % 4294967296 = k := Nat.mod_eq_of_lt (by omega)
    simp [UInt32.toNat_toUInt8, UInt32.toNat_shiftRight, Nat.shiftRight_eq_div_pow, hk', Nat.mod_eq_of_lt hk]
  have h8 := h 8 (by omega)
  have h16 := h 16 (by omega)
  have h24 := h 24 (by omega)
  have h0 : v.toUInt8.toNat = v.toNat % 256 := by simp
  have := v.toNat_lt
  change (v >>> 8).toUInt8.toNat = _ at h8
  change (v >>> 16).toUInt8.toNat = _ at h16
  change (v >>> 24).toUInt8.toNat = _ at h24
  rw [h0, h8, h16, h24]
  omega

theorem sum_range_four (g : Nat → Nat) : ((List.range 4).map g).sum = g 0 + g 1 + g 2 + g 3 := by
  have hr : List.range 4 = [0, 1, 2, 3] := rfl
  rw [hr]
  simp only [List.map_cons, List.map_nil, List.sum_cons, List.sum_nil]
  omega

/-- What the receiver reads from the frame of a field. -/
theorem reads_frame {frame : List UInt8} {id : UInt16} {size : Nat} {v : UInt32}
    (h : frame.take 12 = [0x3A, 0x00, 0x02, 0x00, 0x01] ++ payload id size v) (hs : size = 1 ∨ size = 4) :
    fieldId frame = id.toNat ∧ fieldSize frame = size ∧
      fieldValue frame = if size = 1 then v.toNat % 256 else v.toNat := by
  have hsz : fieldSize frame = size := by
    unfold fieldSize
    rw [getD_take h 7 (by omega)]
    rcases hs with rfl | rfl <;> rfl
  refine ⟨?_, hsz, ?_⟩
  · unfold fieldId
    rw [getD_take h 5 (by omega), getD_take h 6 (by omega)]
    exact id_bytes id
  · unfold fieldValue
    rw [hsz]
    rcases hs with rfl | rfl
    · simp only [List.range_one, List.map_cons, List.map_nil, List.sum_cons, List.sum_nil]
      rw [getD_take h _ (by omega)]
      simp [payload]
    · have h8 : frame.getD 8 0 = (v >>> 24).toUInt8 := getD_take h 8 (by omega)
      have h9 : frame.getD 9 0 = (v >>> 16).toUInt8 := getD_take h 9 (by omega)
      have h10 : frame.getD 10 0 = (v >>> 8).toUInt8 := getD_take h 10 (by omega)
      have h11 : frame.getD 11 0 = v.toUInt8 := getD_take h 11 (by omega)
      have hv := value_bytes v
      rw [← h8, ← h9, ← h10, ← h11] at hv
      rw [if_neg (by omega), ← hv]
      rw [sum_range_four]
      simp only [Nat.reduceSub, Nat.reduceAdd, Nat.reducePow, Nat.sub_zero, pow_zero, pow_one, Nat.mul_one]

/-- The reading of a call. -/
def wanted : Field → Nat × Nat × Reading
  | .int id size v => (id.toNat, size, .nat v.toNat)
  | .flt id v => (id.toNat, 4, .flt v)

/-- A call with an 8-bit value or a float. -/
def Sized : Field → Prop
  | .int _ size v => size = 1 ∧ v.toNat < 256
  | .flt _ v => F32.IsFloat v

theorem sendAll_reads (f : List UInt8 → UInt32) (bits : F32 → UInt32) (hbits : ∀ x, F32.IsFloat x → F32.value (bits x) = x)
    (fs : List Field) (hf : ∀ x ∈ fs, Sized x) (buf : List UInt8) (hb : buf.length = 18) :
    List.Forall₂ (fun m x => Valid f 18 m ∧ m.take 5 = [0x3A, 0x00, 0x02, 0x00, 0x01] ∧ Reads m (wanted x))
      (sendAll (fun m => some (f m)) bits buf fs) fs := by
  induction fs generalizing buf with
  | nil => exact List.Forall₂.nil
  | cons x fs ih =>
    have hx := hf x (by simp)
    have hrest := fun buf hb => ih (fun y hy => hf y (List.mem_cons_of_mem _ hy)) buf hb
    cases x with
    | int id size v =>
      obtain ⟨h1, h2⟩ := hx
      subst h1
      obtain ⟨frame, g1, g2, g3⟩ := send_frame f buf hb id 1 (by omega) v
      obtain ⟨r1, r2, r3⟩ := reads_frame g3 (Or.inl rfl)
      have hsend : send (fun m => some (f m)) bits buf (.int id 1 v) = some frame := g1
      unfold sendAll
      rw [hsend]
      refine List.Forall₂.cons ⟨g2, ?_, r1, r2, ?_⟩ (hrest frame g2.len)
      · have := congrArg (List.take 5) g3
        rw [List.take_take] at this
        exact this
      · show fieldValue frame = v.toNat
        rw [r3, if_pos rfl, Nat.mod_eq_of_lt h2]
    | flt id v =>
      obtain ⟨frame, g1, g2, g3⟩ := send_frame f buf hb id 4 (by omega) (bits v)
      obtain ⟨r1, r2, r3⟩ := reads_frame g3 (Or.inr rfl)
      have hsend : send (fun m => some (f m)) bits buf (.flt id v) = some frame := g1
      unfold sendAll
      rw [hsend]
      refine List.Forall₂.cons ⟨g2, ?_, r1, r2, ?_⟩ (hrest frame g2.len)
      · have := congrArg (List.take 5) g3
        rw [List.take_take] at this
        exact this
      · show F32.value (UInt32.ofNat (fieldValue frame)) = v
        rw [r3, if_neg (by omega), UInt32.ofNat_toNat]
        exact hbits v hx

/-- Floats of the battery fields sent. -/
def FloatsOk (d : VData) : Prop :=
  F32.IsFloat d.battery.maxCellVoltage ∧ F32.IsFloat d.battery.maxCellTemperature ∧ F32.IsFloat d.battery.dcCurrent ∧
    F32.IsFloat d.battery.dcVoltage ∧ F32.IsFloat d.battery.stateOfCarge

theorem u8_lt (x : UInt8) : x.toUInt32.toNat < 256 := by
  have := x.toNat_lt
  simpa using this

theorem sdcByte_toNat (d : SdcState) :
    (sdcByte d).toNat = d.bms.toNat + 2 * d.bspd.toNat + 4 * d.imd.toNat + 8 * d.out.toNat := by
  obtain ⟨a, b, c, e⟩ := d
  cases a <;> cases b <;> cases c <;> cases e <;> rfl

theorem pdmByte_toNat (d : Glv) :
    (pdmByte d).toNat = ((List.range 6).map fun i => ((d.pdmChState[i]?).getD false).toNat * 2 ^ i).sum := by
  unfold pdmByte
  have hr : List.range 6 = [0, 1, 2, 3, 4, 5] := rfl
  rw [hr]
  simp only [List.foldl_cons, List.foldl_nil, List.map_cons, List.map_nil, List.sum_cons, List.sum_nil]
  generalize (d.pdmChState[0]?).getD false = a0
  generalize (d.pdmChState[1]?).getD false = a1
  generalize (d.pdmChState[2]?).getD false = a2
  generalize (d.pdmChState[3]?).getD false = a3
  generalize (d.pdmChState[4]?).getD false = a4
  generalize (d.pdmChState[5]?).getD false = a5
  revert a0 a1 a2 a3 a4 a5
  decide

/-- What the receiver reads: the table of fields, except that identifier 6 (maximum cell
temperature cell) carries the cell of the *minimum* temperature. -/
def actual (d : VData) : List (Nat × Nat × Reading) :=
  (table d).map fun e => if e.1 = 6 then (6, 1, .nat d.battery.minCellTemperatureCellID.toNat) else e

theorem wanted_calls (d : VData) : (calls d).map wanted = actual d := by
  unfold calls actual table
  simp only [List.map_cons, List.map_nil, wanted]
  simp [sdcByte_toNat, pdmByte_toNat]
  cases d.battery.bmsFaultIndicator <;> rfl

theorem forall₂_map_right {α β γ : Type} {R : α → γ → Prop} {g : β → γ} {a : List α} {b : List β}
    (h : List.Forall₂ (fun x y => R x (g y)) a b) : List.Forall₂ R a (b.map g) := by
  induction h with
  | nil => exact List.Forall₂.nil
  | cons h _ ih => exact List.Forall₂.cons h ih

/-- Missing from the property: the field with identifier 6, which carries another field
(`C46_max_temp_id_wrong`). For every vehicle state, each broadcast hands both ports
eleven valid frames for the PC, from which a receiver reads exactly the documented
identifiers, sizes and current values; floats are recovered exactly. -/
theorem C46_fields_partial (f : List UInt8 → UInt32) (bits : F32 → UInt32)
    (hbits : ∀ x, F32.IsFloat x → F32.value (bits x) = x) (d : VData) (hd : FloatsOk d) (counter : UInt32)
    (hc : counter % 100 = 0) (buf : List UInt8) (hb : buf.length = 18) :
    List.Forall₂ (fun m e => Valid f 18 m ∧ m.take 5 = [0x3A, 0x00, 0x02, 0x00, 0x01] ∧ Reads m e)
      (periodicStateUpdate (fun m => some (f m)) bits true counter (some d) buf) (actual d) := by
  unfold periodicStateUpdate
  rw [if_neg (by simp), if_neg (by simpa using hc)]
  rw [← wanted_calls]
  apply forall₂_map_right (R := fun m e => Valid f 18 m ∧ m.take 5 = [0x3A, 0x00, 0x02, 0x00, 0x01] ∧ Reads m e)
  apply sendAll_reads f bits hbits _ _ buf hb
  obtain ⟨h1, h2, h3, h4, h5⟩ := hd
  intro x hx
  unfold calls at hx
  simp only [List.mem_cons, List.not_mem_nil, or_false] at hx
  rcases hx with rfl | rfl | rfl | rfl | rfl | rfl | rfl | rfl | rfl | rfl | rfl
  · exact ⟨rfl, u8_lt _⟩
  · exact ⟨rfl, u8_lt _⟩
  · exact h1
  · exact ⟨rfl, u8_lt _⟩
  · exact h2
  · exact ⟨rfl, u8_lt _⟩
  · exact h3
  · exact h4
  · exact h5
  · exact ⟨rfl, u8_lt _⟩
  · refine ⟨rfl, ?_⟩
    cases d.battery.bmsFaultIndicator <;> decide

/-- The property is false exactly for identifier 6: whenever the cells of the maximum and
minimum temperature differ, the frame does not carry the named field. -/
theorem C46_max_temp_id_wrong (d : VData)
    (h : d.battery.maxCellTemperatureCellID ≠ d.battery.minCellTemperatureCellID) :
    actual d ≠ table d ∧
      (actual d)[5]? = some (6, 1, .nat d.battery.minCellTemperatureCellID.toNat) ∧
      ∀ i, i ≠ 5 → (actual d)[i]? = (table d)[i]? := by
  have h5 : (actual d)[5]? = some (6, 1, .nat d.battery.minCellTemperatureCellID.toNat) := rfl
  have t5 : (table d)[5]? = some (6, 1, .nat d.battery.maxCellTemperatureCellID.toNat) := rfl
  refine ⟨?_, h5, ?_⟩
  · intro hc
    rw [hc, t5] at h5
    injection h5 with h5
    injection h5 with _ h5
    injection h5 with _ h5
    injection h5 with h5
    exact h (UInt8.toNat_inj.mp h5)
  · intro i hi
    unfold actual
    rw [List.getElem?_map]
    by_cases h11 : i < 11
    · have : i = 0 ∨ i = 1 ∨ i = 2 ∨ i = 3 ∨ i = 4 ∨ i = 6 ∨ i = 7 ∨ i = 8 ∨ i = 9 ∨ i = 10 := by omega
      rcases this with rfl | rfl | rfl | rfl | rfl | rfl | rfl | rfl | rfl | rfl <;> rfl
    · have : (table d)[i]? = none := by
        apply List.getElem?_eq_none
        show 11 ≤ i
        omega
      rw [this]
      rfl

/-- Floats have bit patterns, so the hypothesis on `bits` can be met. -/
theorem bits_exist : ∃ bits : F32 → UInt32, ∀ x, F32.IsFloat x → F32.value (bits x) = x := by
  classical
  refine ⟨fun x => if h : F32.IsFloat x then (F32.exists_bits x h).choose else 0, ?_⟩
  intro x h
  dsimp only
  rw [dif_pos h]
  exact (F32.exists_bits x h).choose_spec

example : ∃ (d : VData) (ms : List (List UInt8)), d.battery.bmsCounter = 7 ∧
    List.Forall₂ (fun m e => Valid (fun _ => 0) 18 m ∧ m.take 5 = [0x3A, 0x00, 0x02, 0x00, 0x01] ∧ Reads m e) ms (actual d) := by
  obtain ⟨bits, hbits⟩ := bits_exist
  have hz : F32.IsFloat f0 := by
    refine ⟨rnd_zero, ?_⟩
    norm_num
  refine ⟨{ VData.zero with battery := { VData.zero.battery with bmsCounter := 7 } }, _, rfl,
    C46_fields_partial (fun _ => 0) bits hbits _ ⟨hz, hz, hz, hz, hz⟩ 0 rfl (List.replicate 18 0) rfl⟩

end Verif.Telemetry
