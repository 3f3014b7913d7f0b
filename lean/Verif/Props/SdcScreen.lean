import Verif.Spec.SdcScreen
import Verif.Props.Sdc
import Verif.Props.Screen

set_option autoImplicit false

/-!
# From the pins of the shutdown circuit to the PC's screen (C148)
-/

namespace Verif.SdcScreen
open Verif.Sdc Verif.SdcSpec Verif.SdcScreenSpec Verif.PcTool Verif.PcSpec Verif.Crc Verif.ScreenSpec FrameSpec

/-- The vehicle data hold what the shutdown-circuit task has published. -/
def Holds (d : VData) (p : Levels) : Prop :=
  d.vehicle.sdc.bms = p .bms ∧ d.vehicle.sdc.bspd = p .bspd ∧ d.vehicle.sdc.imd = p .imd ∧ d.vehicle.sdc.out = p .out

/-- A broadcast of the vehicle data `d`, mixed with log frames and read by the PC in the pieces `chunks`; the
hypotheses of C86. -/
def Broadcast (d : VData) (chunks : List (List UInt8)) : Prop :=
  Telemetry.FloatsOk d ∧ ∃ (bits : F32 → UInt32) (counter : UInt32) (tbuf : List UInt8) (fs : List (List UInt8)),
    (∀ x, F32.IsFloat x → F32.value (bits x) = x) ∧ counter % 100 = 0 ∧ tbuf.length = 18 ∧
    fs.filter (·.length = 18) = Telemetry.periodicStateUpdate (fun m => some (hal m)) bits true counter (some d) tbuf ∧
    (∀ g ∈ fs, g.length ≠ 18 → LogFrame g ∧ (g.drop 25).take 5 ≠ [0x3A, 0x00, 0x02, 0x00, 0x01]) ∧
    (∀ g ∈ fs, g.length = 18 → (g.drop 11).take 5 ≠ [0x3A, 0x00, 0x02, 0x00, 0x02]) ∧
    (∀ g ∈ fs, OnlyAtEnd g) ∧ chunks.flatten = fs.flatten

theorem bits4 : ∀ (a b c d : Bool),
    (a.toNat + 2 * b.toNat + 4 * c.toNat + 8 * d.toNat).testBit 0 = a ∧
    (a.toNat + 2 * b.toNat + 4 * c.toNat + 8 * d.toNat).testBit 1 = b ∧
    (a.toNat + 2 * b.toNat + 4 * c.toNat + 8 * d.toNat).testBit 2 = c ∧
    (a.toNat + 2 * b.toNat + 4 * c.toNat + 8 * d.toNat).testBit 3 = d ∧
    a.toNat + 2 * b.toNat + 4 * c.toNat + 8 * d.toNat < 16 := by decide

theorem shown {d : VData} {p : Levels} (hp : Holds d p) {chunks : List (List UInt8)} (hb : Broadcast d chunks) :
    ∃ n, n < 16 ∧ ((delivered stateCfg chunks).map showState).filter (named "SDC") = [.update "SDC" n] ∧
      ∀ f, n.testBit (bitOf f) = p f := by
  obtain ⟨hfl, bits, counter, tbuf, fs, hbits, hc, htb, hfs, hother, hcrc, honly, hch⟩ := hb
  have h86 := C86_state_partial bits hbits d hfl counter hc tbuf htb fs hfs hother hcrc honly chunks hch
  generalize (delivered stateCfg chunks).map showState = screen at h86 ⊢
  unfold displayed TelemetrySpec.labelled at h86
  simp only [List.map_cons, List.map_nil, List.forall₂_cons_left_iff, List.forall₂_nil_left_iff] at h86
  obtain ⟨_, _, ⟨v1, rfl, m1⟩, ⟨_, _, ⟨v2, rfl, -⟩, ⟨_, _, ⟨v3, rfl, -⟩, ⟨_, _, ⟨v4, rfl, -⟩, ⟨_, _, ⟨v5, rfl, -⟩,
    ⟨_, _, ⟨v6, rfl, -⟩, ⟨_, _, ⟨v7, rfl, -⟩, ⟨_, _, ⟨v8, rfl, -⟩, ⟨_, _, ⟨v9, rfl, -⟩, ⟨_, _, ⟨v10, rfl, -⟩,
    ⟨_, _, ⟨v11, rfl, -⟩, rfl, rfl⟩, rfl⟩, rfl⟩, rfl⟩, rfl⟩, rfl⟩, rfl⟩, rfl⟩, rfl⟩, rfl⟩, rfl⟩ := h86
  have hv : v1 = d.vehicle.sdc.bms.toNat + 2 * d.vehicle.sdc.bspd.toNat + 4 * d.vehicle.sdc.imd.toNat +
      8 * d.vehicle.sdc.out.toNat := by simpa using m1
  obtain ⟨b0, b1, b2, b3, lt⟩ := bits4 d.vehicle.sdc.bms d.vehicle.sdc.bspd d.vehicle.sdc.imd d.vehicle.sdc.out
  obtain ⟨p0, p1, p2, p3⟩ := hp
  refine ⟨v1, hv ▸ lt, by simp [named], fun f => ?_⟩
  rw [hv]
  cases f
  · exact b0.trans p0
  · exact b1.trans p1
  · exact b2.trans p2
  · exact b3.trans p3

/-- **C148, the part that holds.** Take any history of the pins and any interleaving of interrupts and publishing task
that comes to rest and in which the last change of a shutdown-circuit pin was a rise. A broadcast of the vehicle data
made then, mixed with log frames and read by the PC in pieces of any size, makes the tool show the line of the
shutdown circuit exactly once, and the bit of each of the four inputs in the number shown is the present level of its
pin. Missing: histories ending in a fall, and levels present at start-up. -/
theorem C148_rise_on_screen_partial {order : List Field} (ho : ∀ f, f ∈ order) (lvl : Levels)
    (imu : Bool) (es : List Ev) (s : St) (h : run order (start lvl imu) es = some s)
    (hlock : Ev.acquire false ∉ es)
    (hwrap : ∀ pre m, pre <+: es → run order (start lvl imu) pre = some m → m.pending < 2 ^ 32)
    (hrose : LastRose lvl false es = true) (hq : Quiet s)
    (d : VData) (hd : Holds d s.published) (chunks : List (List UInt8)) (hb : Broadcast d chunks) :
    ∃ n, n < 16 ∧ ((delivered stateCfg chunks).map showState).filter (named "SDC") = [.update "SDC" n] ∧
      ∀ f, n.testBit (bitOf f) = level f (lvl f) es := by
  obtain ⟨n, h1, h2, h3⟩ := shown hd hb
  exact ⟨n, h1, h2, fun f => (h3 f).trans (C69_after_rise_partial ho lvl imu es s h hlock hwrap hrose hq f)⟩

/-- **C148 is false: a line that falls stays on the screen.** From every state at rest in which an input is published
as raised, after its pin goes low every later broadcast still shows it raised, as long as no line rises. -/
theorem C148_fall_not_shown {order : List Field} (s : St) (hq : Quiet s) (f : Field)
    (hf : s.published f = true) (es : List Ev)
    (hr : NoRise (fun g => if g = f then false else s.lvl g) s.imu es) (s' : St)
    (h : run order s (.pin f false :: es) = some s') (hlow : level f false es = false)
    (d : VData) (hd : Holds d s'.published) (chunks : List (List UInt8)) (hb : Broadcast d chunks) :
    s'.lvl f = false ∧
    ∃ n, ((delivered stateCfg chunks).map showState).filter (named "SDC") = [.update "SDC" n] ∧
      n.testBit (bitOf f) = true := by
  obtain ⟨h1, h2⟩ := C69_fall_unnoticed s hq f hf es hr s' h hlow
  obtain ⟨n, -, h4, h5⟩ := shown hd hb
  exact ⟨h1, n, h4, (h5 f).trans h2⟩

/-! ## A case -/

/-- The BMS line rises and is published: the tool shows `SDC` with bit 0. -/
example :
    (match run readOrder (start (fun _ => false) false) raiseBms with
    | some s =>
      let d : VData := { VData.zero with vehicle := { VData.zero.vehicle with
        sdc := ⟨s.published .bms, s.published .bspd, s.published .imd, s.published .out⟩ } }
      let bytes := (Telemetry.periodicStateUpdate (fun m => some (hal m)) (fun _ => 0) true 200 (some d)
        (List.replicate 18 0)).flatten
      ((delivered stateCfg ((List.range 29).map fun i => (bytes.drop (7 * i)).take 7)).map showState).filter
        (named "SDC") == [.update "SDC" 1]
    | none => false) = true := by decide +kernel

end Verif.SdcScreen
