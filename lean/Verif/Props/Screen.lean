import Verif.Props.Car
import Verif.Props.PcTool
import Verif.Props.DiscreteSense
import Verif.Spec.Screen

set_option autoImplicit false

/-!
# C137: from the battery on the CAN bus to the PC's screen
-/

namespace Verif.Screen
open Verif.Can Verif.CanSpec Verif.CanFresh Verif.Dbc Verif.Car Verif.PcTool Verif.PcSpec Verif.Crc Verif.ScreenSpec

theorem isFloat_round (x : ℚ) : F32.IsFloat (F32.round x) := by
  unfold F32.round
  split_ifs with h1 h2
  · trivial
  · trivial
  · refine ⟨Verif.rnd_rnd x, ?_⟩
    rw [abs_lt]; constructor
    · exact not_le.mp h2
    · exact not_le.mp h1

/-- What the battery's frames say is a float where a float is expected. -/
theorem newest_float {fld : BmsField} {frames : List CanFrame} {x : F32} (h : newest fld frames = some (.flt x)) :
    F32.IsFloat x := by
  obtain ⟨f, -, hf⟩ := List.exists_of_findSome?_eq_some h
  unfold reading at hf
  split_ifs at hf
  simp only [Option.map_eq_some_iff] at hf
  obtain ⟨sg, -, hs⟩ := hf
  unfold Signal.value at hs
  split at hs
  · cases hs
  · injection hs with hs; rw [← hs]; exact isFloat_round _
  · injection hs with hs; rw [← hs]; exact isFloat_round _

theorem newest_latest (fld : BmsField) (frames : List CanFrame) :
    latest (bmsTable codeScale) fld (frames.filter isBmsStatus) = newest fld frames := by
  have h1 : latest (bmsTable codeScale) fld (frames.filter isBmsStatus) =
      (frames.filter isBmsStatus).reverse.findSome? (carry fld) := rfl
  rw [h1, newest, ← List.filter_reverse]
  induction frames.reverse with
  | nil => rfl
  | cons f l ih =>
    by_cases hs : isBmsStatus f = true
    · rw [List.filter_cons_of_pos hs, List.findSome?_cons, List.findSome?_cons, ih, status_reading hs]
    · rw [List.filter_cons_of_neg hs, List.findSome?_cons, ih]
      cases hr : reading fld f with
      | none => rfl
      | some v => exact absurd (reading_status hr).1 hs

variable (buses : Nat → RxBus) (dev : Nat)

/-- When the battery's task has emptied its queue, every field it publishes is the one of the newest frame. -/
theorem published (sm : StateMgr.StateManager) (dec : MsgFrame.Dec) (buf : Nat → UInt8) (ecu control : Bool)
    (rx0 : RxState) (hw : Wired buses dev rx0) (H : List (Nat × Ev)) (hf : Car.FloatWrites H)
    (hstd : AllStandard (rxs H)) (ts : Nat → Nat) (hs : Served buses rx0 dev bmsReg.queue (rxs H) ts 12000)
    (s : Car.St) (cmds : List (Nat × InvDrv.Sent))
    (hrun : Car.run buses dev bmsReg.queue ⟨rx0, Vehicle.start sm dec buf ecu control⟩ H = .ok (s, cmds))
    (hempty : (s.rx.qs bmsReg.queue).items = []) (fld : BmsField) (hfl : fromBus fld) :
    getBms fld s.v.vd = (newest fld (busFrames dev (rxs H))).getD (getBms fld VData.zero) := by
  have hi0 : Inv buses dev bmsReg.queue rx0 [] ⟨rx0, Vehicle.start sm dec buf ecu control⟩ := by
    refine ⟨rfl, ?_, ?_⟩
    · intro fld _
      dsimp only
      rw [hw.got]; rfl
    · show F32.IsFloat (.fin 0)
      exact ⟨by decide +kernel, by norm_num⟩
  have hI := inv_run buses dev bmsReg.queue H [] _ s cmds hi0 hf hrun
  rw [List.nil_append] at hI
  rw [hI.rx] at hempty
  rw [hI.bms fld hfl, hI.rx,
    C96_bms_fresh buses rx0 dev hw.inUse hw.reg hw.other hw.empty hw.got hw.cap _ hstd ts hs hempty, newest_latest]

theorem floats_ok {d : VData} {frames : List CanFrame}
    (h : ∀ fld, fromBus fld → getBms fld d = (newest fld frames).getD (getBms fld VData.zero)) :
    Telemetry.FloatsOk d := by
  have key : ∀ fld x, fromBus fld → getBms fld d = .flt x → getBms fld VData.zero = .flt (.fin 0) → F32.IsFloat x := by
    intro fld x hfl hx hz
    rw [h fld hfl] at hx
    cases hn : newest fld frames with
    | none =>
      rw [hn, hz] at hx
      simp only [Option.getD_none, Val.flt.injEq] at hx
      rw [← hx]; exact ⟨by decide +kernel, by norm_num⟩
    | some v =>
      rw [hn] at hx
      simp only [Option.getD_some] at hx
      rw [hx] at hn
      exact newest_float hn
  exact ⟨key .maxV _ (by simp [fromBus]) rfl rfl, key .maxT _ (by simp [fromBus]) rfl rfl,
    key .current _ (by simp [fromBus]) rfl rfl, key .voltage _ (by simp [fromBus]) rfl rfl,
    key .soc _ (by simp [fromBus]) rfl rfl⟩

/-- **C137.** A car with the battery management system on bus `dev`, after any history of interrupts, task
activations and writes that the control software survives.  The battery's receive queue is emptied often enough for
the bus speed, and it is empty when the vehicle data are copied for a broadcast.  The frames of the broadcast,
mixed with log frames in any way and read by the PC in pieces of any size, make the tool show each of the battery's
measurements once, and it is the one in the newest frame on the bus that carries it (zero before the first one).
The last four hypotheses are those of C86: the end mark of a frame occurs nowhere else in it, and no data
look like the beginning of a frame. -/
theorem C137_bus_to_screen (sm : StateMgr.StateManager) (dec : MsgFrame.Dec) (buf : Nat → UInt8) (ecu control : Bool)
    (rx0 : RxState) (hw : Wired buses dev rx0) (H : List (Nat × Ev)) (hf : Car.FloatWrites H)
    (hstd : AllStandard (rxs H)) (ts : Nat → Nat) (hs : Served buses rx0 dev bmsReg.queue (rxs H) ts 12000)
    (s : Car.St) (cmds : List (Nat × InvDrv.Sent))
    (hrun : Car.run buses dev bmsReg.queue ⟨rx0, Vehicle.start sm dec buf ecu control⟩ H = .ok (s, cmds))
    (hempty : (s.rx.qs bmsReg.queue).items = [])
    (bits : F32 → UInt32) (hbits : ∀ x, F32.IsFloat x → F32.value (bits x) = x)
    (counter : UInt32) (hc : counter % 100 = 0) (tbuf : List UInt8) (hb : tbuf.length = 18)
    (fs : List (List UInt8))
    (hfs : fs.filter (·.length = 18) =
      Telemetry.periodicStateUpdate (fun m => some (hal m)) bits true counter (some s.v.vd) tbuf)
    (hother : ∀ f ∈ fs, f.length ≠ 18 → LogFrame f ∧ (f.drop 25).take 5 ≠ [0x3A, 0x00, 0x02, 0x00, 0x01])
    (hcrc : ∀ f ∈ fs, f.length = 18 → (f.drop 11).take 5 ≠ [0x3A, 0x00, 0x02, 0x00, 0x02])
    (honly : ∀ f ∈ fs, OnlyAtEnd f) (chunks : List (List UInt8)) (hch : chunks.flatten = fs.flatten) :
    ∀ l ∈ lines, ∃ n, ((delivered stateCfg chunks).map showState).filter (named l.1) = [.update l.1 n] ∧
      Means n ((newest l.2.1 (busFrames dev (rxs H))).getD l.2.2) := by
  have hpub := published buses dev sm dec buf ecu control rx0 hw H hf hstd ts hs s cmds hrun hempty
  have h86 := C86_state_partial bits hbits s.v.vd (floats_ok hpub) counter hc tbuf hb fs hfs hother hcrc honly chunks hch
  generalize (delivered stateCfg chunks).map showState = screen at h86 ⊢
  unfold displayed TelemetrySpec.labelled at h86
  simp only [List.map_cons, List.map_nil, List.forall₂_cons_left_iff, List.forall₂_nil_left_iff] at h86
  obtain ⟨_, _, ⟨v1, rfl, -⟩, ⟨_, _, ⟨v2, rfl, -⟩, ⟨_, _, ⟨v3, rfl, m3⟩, ⟨_, _, ⟨v4, rfl, m4⟩, ⟨_, _, ⟨v5, rfl, m5⟩,
    ⟨_, _, ⟨v6, rfl, -⟩, ⟨_, _, ⟨v7, rfl, m7⟩, ⟨_, _, ⟨v8, rfl, m8⟩, ⟨_, _, ⟨v9, rfl, m9⟩, ⟨_, _, ⟨v10, rfl, m10⟩,
    ⟨_, _, ⟨v11, rfl, -⟩, rfl, rfl⟩, rfl⟩, rfl⟩, rfl⟩, rfl⟩, rfl⟩, rfl⟩, rfl⟩, rfl⟩, rfl⟩, rfl⟩ := h86
  have means : ∀ fld n z, fromBus fld → getBms fld VData.zero = z → Means n (getBms fld s.v.vd) →
      Means n ((newest fld (busFrames dev (rxs H))).getD z) := by
    intro fld n z hfl hz h
    rw [hpub fld hfl, hz] at h
    exact h
  intro l hl
  simp only [lines, List.mem_cons, List.not_mem_nil, or_false] at hl
  rcases hl with rfl | rfl | rfl | rfl | rfl | rfl | rfl
  · exact ⟨v3, by simp [named], means .maxV _ _ (by simp [fromBus]) rfl (by simpa [Means, getBms] using m3)⟩
  · exact ⟨v4, by simp [named], means .maxVId _ _ (by simp [fromBus]) rfl (by simpa [Means, getBms] using m4)⟩
  · exact ⟨v5, by simp [named], means .maxT _ _ (by simp [fromBus]) rfl (by simpa [Means, getBms] using m5)⟩
  · exact ⟨v7, by simp [named], means .current _ _ (by simp [fromBus]) rfl (by simpa [Means, getBms] using m7)⟩
  · exact ⟨v8, by simp [named], means .voltage _ _ (by simp [fromBus]) rfl (by simpa [Means, getBms] using m8)⟩
  · exact ⟨v9, by simp [named], means .soc _ _ (by simp [fromBus]) rfl (by simpa [Means, getBms] using m9)⟩
  · exact ⟨v10, by simp [named], means .counter _ _ (by simp [fromBus]) rfl (by simpa [Means, getBms] using m10)⟩

/-! ## A broadcast -/

/-- Two frames with cell data (the newer one: 42 degrees in cell 7), one with pack data (a charge of 2048 in the units
of the code), the counter at 9; the task takes all of them. -/
def history : List (Nat × Ev) :=
  [(0, .rx (.isr 1 0 [.frame ⟨false, 0x301, false, #v[41, 0, 7, 0, 0, 3, 0, 0], 8⟩, chargeFrame 16])),
   (1, .rx (.read 1)), (2, .rx (.read 1)),
   (300, .rx (.isr 1 0 [.frame ⟨false, 0x301, false, #v[42, 0, 7, 0, 0, 3, 0, 0], 8⟩])),
   (300, .rx (.isr 0 0 [.frame ⟨false, 0x301, false, #v[99, 0, 7, 0, 0, 9, 0, 0], 8⟩])),
   (400, .rx (.isr 1 0 [.frame ⟨false, 0x304, false, #v[9, 0, 0, 0, 0, 0, 0, 0], 8⟩])),
   (401, .rx (.read 1)), (402, .rx (.read 1))]

/-- Bit patterns of the floats that occur. -/
def someBits (x : F32) : UInt32 := if x = .fin 42 then 0x42280000 else if x = .fin 2048 then 0x45000000 else 0

example : F32.value 0x42280000 = .fin 42 ∧ F32.value 0x45000000 = .fin 2048 ∧ F32.value 0 = .fin 0 := by
  decide +kernel

/-- The queue is empty at the end, and the PC, which reads seven bytes at a time, shows the newest values. -/
example :
    (match Vehicle.demoStart with
    | .ok v =>
      match Car.run demoBuses 1 1 ⟨demoState, v⟩ history with
      | .ok (s, _) =>
        let bytes := (Telemetry.periodicStateUpdate (fun m => some (hal m)) someBits true 200 (some s.v.vd)
          (List.replicate 18 0)).flatten
        (s.rx.qs 1).items.isEmpty &&
        (delivered stateCfg ((List.range 29).map fun i => (bytes.drop (7 * i)).take 7)).map showState ==
          [.update "SDC" 0, .update "PDM" 0, .update "BMS Max cell voltage" 0, .update "BMS Max cell voltage ID" 3,
           .update "BMS Max cell temp" 0x42280000, .update "BMS Max cell temp ID" 0, .update "BMS DC current" 0,
           .update "BMS Pack voltage" 0, .update "BMS SOC" 0x45000000, .update "BMS Counter" 9, .update "BMS Fault" 0]
      | .error _ => false
    | .error _ => false) = true := by decide +kernel

end Verif.Screen
