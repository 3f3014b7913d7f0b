import Verif.Props.Operator
import Verif.Props.Screen
import Mathlib.Tactic.FinCases
import Mathlib.Data.Fin.VecNotation

set_option autoImplicit false

/-!
# From the operator to the outputs and back to the screen (C142)
-/

namespace Verif.Loop
open Verif.Vehicle Verif.PcTool Verif.PcSpec Verif.Crc Verif.ScreenSpec InvDrv OperatorSpec TermSpec FrameSpec

/-- The battery data other tasks write are numbers a float can hold. -/
def BatteryFloats (es : List Ev) : Prop := ∀ d, Ev.write d ∈ es → Telemetry.FloatsOk d

theorem floats_step {s s' : St} {fs : List InvDrv.Sent} {e : Ev} (h : step s e = .ok (s', fs))
    (hw : ∀ d, e = .write d → Telemetry.FloatsOk d) (hs : Telemetry.FloatsOk s.vd) : Telemetry.FloatsOk s'.vd := by
  by_cases he : ∃ d, e = .write d
  · obtain ⟨d, rfl⟩ := he
    simp only [step, Except.ok.injEq, Prod.mk.injEq] at h
    rw [← h.1]
    exact hw d rfl
  · have := (step_vd h (fun d hd => he ⟨d, hd⟩)).1
    unfold Telemetry.FloatsOk
    rw [this]
    exact hs

theorem floats_run : ∀ (es : List Ev) {s s' : St} {fs : List InvDrv.Sent}, run s es = .ok (s', fs) →
    BatteryFloats es → Telemetry.FloatsOk s.vd → Telemetry.FloatsOk s'.vd
  | [], s, s', fs, h, _, hs => by
    simp only [run, Except.ok.injEq, Prod.mk.injEq] at h
    rw [← h.1]; exact hs
  | e :: es, s, s', fs, h, hw, hs => by
    simp only [run] at h
    split at h
    · cases h
    rename_i s1 f1 h1
    split at h
    · cases h
    rename_i s2 f2 h2
    simp only [Except.ok.injEq, Prod.mk.injEq] at h
    rw [← h.1]
    exact floats_run es h2 (fun d hd => hw d (List.mem_cons_of_mem _ hd))
      (floats_step h1 (fun d hd => hw d (by rw [hd]; exact List.mem_cons_self)) hs)

theorem bits_of (a : Fin 6 → Bool) (i : Fin 6) :
    (((List.range 6).map fun j => (if h : j < 6 then a ⟨j, h⟩ else false).toNat * 2 ^ j).sum).testBit i = a i := by
  have h : ∀ (b0 b1 b2 b3 b4 b5 : Bool) (i : Fin 6),
      (b0.toNat * 2 ^ 0 + (b1.toNat * 2 ^ 1 + (b2.toNat * 2 ^ 2 + (b3.toNat * 2 ^ 3 + (b4.toNat * 2 ^ 4 +
        (b5.toNat * 2 ^ 5 + 0)))))).testBit i = ![b0, b1, b2, b3, b4, b5] i := by decide +kernel
  have := h (a 0) (a 1) (a 2) (a 3) (a 4) (a 5) i
  rw [show (![a 0, a 1, a 2, a 3, a 4, a 5] : Fin 6 → Bool) i = a i by fin_cases i <;> rfl] at this
  exact this

/-- **C142.** As C140, followed by a broadcast of the vehicle state: the frames of the broadcast, mixed with log
frames in any way and read by the PC in pieces of any size, make the tool show the line of the power outputs once,
and in the number shown the bit of each output is the state last asked for by the frames the PC interface has taken;
the pin is at that level too.  The last four hypotheses are those of C86. -/
theorem C142_asked_is_shown (f : List UInt8 → UInt32) (mgr : StateMgr.StateManager) (d buf : Nat → UInt8)
    (ecu : Bool) (dec : MsgFrame.Dec) (hd : MsgFrame.init 19 d = some dec) (es : List Ev)
    (hb : ∀ b crc, Ev.pcBatch b crc ∈ es → b.length ≤ 8 ∧ crc = MsgFrame.unit f)
    (hl : ∀ lock, Ev.pcAct lock ∈ es → lock = true) (hfl : BatteryFloats es) (s : St) (cmds : List InvDrv.Sent)
    (hr : run (start mgr dec buf ecu true) es = .ok (s, cmds)) :
    ∃ ms rest, Parse (Valid f 19) 19 (taken (start mgr dec buf ecu true) es) ms rest ∧
      (Ordinary ms → s.todo = [] → ∀ (bits : F32 → UInt32), (∀ x, F32.IsFloat x → F32.value (bits x) = x) →
        ∀ (counter : UInt32), counter % 100 = 0 → ∀ (tbuf : List UInt8), tbuf.length = 18 →
        ∀ (fs : List (List UInt8)), fs.filter (·.length = 18) =
          Telemetry.periodicStateUpdate (fun m => some (hal m)) bits true counter (some s.vd) tbuf →
        (∀ g ∈ fs, g.length ≠ 18 → LogFrame g ∧ (g.drop 25).take 5 ≠ [0x3A, 0x00, 0x02, 0x00, 0x01]) →
        (∀ g ∈ fs, g.length = 18 → (g.drop 11).take 5 ≠ [0x3A, 0x00, 0x02, 0x00, 0x02]) →
        (∀ g ∈ fs, OnlyAtEnd g) → ∀ (chunks : List (List UInt8)), chunks.flatten = fs.flatten →
        ∃ n, ((delivered stateCfg chunks).map showState).filter (named "PDM") = [.update "PDM" n] ∧
          ∀ i (h : i < 6), n.testBit i = lastAsked i false (orders [] ms) ∧
            s.level (Pdm.shippedPins[i]'h) = lastAsked i false (orders [] ms)) := by
  obtain ⟨ms, rest, hp, hout⟩ := C140_outputs_as_asked f mgr d buf ecu dec hd es hb hl s cmds hr
  refine ⟨ms, rest, hp, fun ho ht bits hbits counter hc tbuf htb fs hfs hother hcrc honly chunks hch => ?_⟩
  have hfin : Telemetry.FloatsOk s.vd := floats_run es hr hfl (by
    have h0 : F32.IsFloat (.fin 0) := ⟨by decide +kernel, by norm_num⟩
    exact ⟨h0, h0, h0, h0, h0⟩)
  have h86 := C86_state_partial bits hbits s.vd hfin counter hc tbuf htb fs hfs hother hcrc honly chunks hch
  generalize (delivered stateCfg chunks).map showState = screen at h86 ⊢
  unfold displayed TelemetrySpec.labelled at h86
  simp only [List.map_cons, List.map_nil, List.forall₂_cons_left_iff, List.forall₂_nil_left_iff] at h86
  obtain ⟨_, _, ⟨v1, rfl, -⟩, ⟨_, _, ⟨v2, rfl, m2⟩, ⟨_, _, ⟨v3, rfl, -⟩, ⟨_, _, ⟨v4, rfl, -⟩, ⟨_, _, ⟨v5, rfl, -⟩,
    ⟨_, _, ⟨v6, rfl, -⟩, ⟨_, _, ⟨v7, rfl, -⟩, ⟨_, _, ⟨v8, rfl, -⟩, ⟨_, _, ⟨v9, rfl, -⟩, ⟨_, _, ⟨v10, rfl, -⟩,
    ⟨_, _, ⟨v11, rfl, -⟩, rfl, rfl⟩, rfl⟩, rfl⟩, rfl⟩, rfl⟩, rfl⟩, rfl⟩, rfl⟩, rfl⟩, rfl⟩, rfl⟩ := h86
  refine ⟨v2, by simp [named], fun i hi => ⟨?_, (hout ho ht i hi).1⟩⟩
  have hv : v2 = ((List.range 6).map fun i => ((s.vd.glv.pdmChState[i]?).getD false).toNat * 2 ^ i).sum := by
    simpa using m2
  rw [hv]
  have hb' := bits_of (fun j => s.vd.glv.pdmChState[j.1]'(by omega)) ⟨i, hi⟩
  rw [← (hout ho ht i hi).2]
  rw [← hb']
  congr 2

/-! ## A session -/

/-- The session of C140 and what the PC shows of it: outputs 1, 2 and 5. -/
example :
    (match run (start (StateMgr.shipped Config.default) (PcReq.initRun fun _ => 0).dec (fun _ => 0) false true)
        (sessionRun 5) with
    | .ok (s, _) =>
      let bytes := (Telemetry.periodicStateUpdate (fun m => some (hal m)) (fun _ => 0) true 200 (some s.vd)
        (List.replicate 18 0)).flatten
      ((delivered stateCfg ((List.range 29).map fun i => (bytes.drop (7 * i)).take 7)).map showState).filter
        (named "PDM") == [.update "PDM" 0b100110]
    | .error _ => false) = true := by decide +kernel

end Verif.Loop
