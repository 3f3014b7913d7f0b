import Verif.Model.StateManager
import Verif.Props.CanStatus
import Verif.Props.FaultManager

set_option autoImplicit false

/-!
# What the drive decision depends on (C95)

Two histories of the vehicle data that agree on a short list of measurements
produce the same states and the same outputs.  Everything else the firmware
collects — GPS, wheel speeds, shutdown circuit, power channels, motor and inverter
temperatures and inverter fault words, the remaining battery values — has no
influence on whether torque is allowed, in which direction, on the error line and
on the lights.
-/

namespace Verif.Noninterf
open Verif.StateMgr Verif.FaultMgr Verif.Vsm

/-- Two samples agree on the measurements the supervision uses. -/
structure SameSensors (a b : VData) : Prop where
  accelRawA : a.inputs.accelRawA = b.inputs.accelRawA
  accelRawB : a.inputs.accelRawB = b.inputs.accelRawB
  accelA : a.inputs.accelA = b.inputs.accelA
  accelB : a.inputs.accelB = b.inputs.accelB
  accel : a.inputs.accel = b.inputs.accel
  brakeRawFront : a.inputs.brakeRawFront = b.inputs.brakeRawFront
  brakeRawRear : a.inputs.brakeRawRear = b.inputs.brakeRawRear
  brakePresFront : a.inputs.brakePresFront = b.inputs.brakePresFront
  temperature : a.battery.maxCellTemperature = b.battery.maxCellTemperature
  current : a.battery.dcCurrent = b.battery.dcCurrent
  voltage : a.battery.maxCellVoltage = b.battery.maxCellVoltage
  charge : a.battery.stateOfCarge = b.battery.stateOfCarge
  faultLine : a.battery.bmsFaultIndicator = b.battery.bmsFaultIndicator

/-- Two samples agree on the start button and the inverter's reported state. -/
structure SameCommand (a b : VData) : Prop where
  button : a.dash.buttonPressed = b.dash.buttonPressed
  inverterState : a.inverter.vsmState = b.inverter.vsmState

/-- Lifted to samples that may have failed. -/
def Agree (R : VData → VData → Prop) : Option VData → Option VData → Prop
  | none, none => True
  | some a, some b => R a b
  | _, _ => False

/-- Two wake-ups that agree on what matters. -/
structure SameWake (e f : Env) : Prop where
  notified : e.notified = f.notified
  copy : Agree SameSensors e.copy f.copy
  access : Agree SameCommand e.access f.access

theorem fmStep_same (cfg : Config) (m : Internal) {a b : VData} (h : SameSensors a b) :
    FaultMgr.step cfg m (some a) = FaultMgr.step cfg m (some b) := by
  have h1 : ∀ m, isFaultAccelPedal cfg m a = isFaultAccelPedal cfg m b := fun m => by
    unfold isFaultAccelPedal
    rw [h.accelRawA, h.accelRawB, h.accelA, h.accelB]
  have h2 : ∀ m, isFaultBrakePedal cfg m a = isFaultBrakePedal cfg m b := fun m => by
    unfold isFaultBrakePedal
    rw [h.brakeRawFront, h.brakeRawRear, h.accel, h.brakePresFront]
  have h3 : ∀ m, isFaultBMS cfg m a = isFaultBMS cfg m b := fun m => by
    unfold isFaultBMS
    rw [h.temperature, h.current, h.voltage, h.charge, h.faultLine]
  unfold FaultMgr.step
  dsimp only
  rw [h1, h2, h3]
  rfl

theorem fmStepObj_same (fm : FaultManagerObj) {x y : Option VData} (h : Agree SameSensors x y) :
    fmStepObj fm x = fmStepObj fm y := by
  cases x with
  | none => cases y with
    | none => rfl
    | some b => exact h.elim
  | some a => cases y with
    | none => exact h.elim
    | some b => simp only [fmStepObj, fmStep_same _ _ h]

theorem handlerInput_same (f : FaultStatus) {x y : Option VData} (h : Agree SameCommand x y) :
    handlerInput f x = handlerInput f y := by
  cases x with
  | none => cases y with
    | none => rfl
    | some b => exact h.elim
  | some a => cases y with
    | none => exact h.elim
    | some b => simp only [handlerInput, h.button, h.inverterState]

/-- **C95.** From any state of the state manager, two histories of wake-ups that
agree on the thirteen supervised measurements at each copy and on the button and
the inverter state at each access lead to the same state and the same outputs
(or to the same undefined behaviour), whatever the rest of the vehicle data is. -/
theorem C95_only_these_matter (s : Sys) (es fs : List Env) (h : List.Forall₂ SameWake es fs) :
    smRun s es = smRun s fs := by
  induction h generalizing s with
  | nil => rfl
  | @cons e f es fs hef _ ih =>
    have hp : smProcess s e = smProcess s f := by
      simp only [smProcess, vsmStepObj, hef.notified, fmStepObj_same _ hef.copy,
        handlerInput_same _ hef.access]
    simp only [smRun, hp]
    cases smProcess s f with
    | error u => rfl
    | ok s' => exact ih s'

/-- Every measurement taken from the inverter except its state, and everything
about the motor, can be replaced without effect. -/
theorem C95_inverter_reports_ignored (s : Sys) (es fs : List Env)
    (h : List.Forall₂ (fun e f => e.notified = f.notified ∧
      Agree (fun a b => a.inputs = b.inputs ∧ a.battery = b.battery) e.copy f.copy ∧
      Agree (fun a b => a.dash = b.dash ∧ a.inverter.vsmState = b.inverter.vsmState)
        e.access f.access) es fs) :
    smRun s es = smRun s fs := by
  refine C95_only_these_matter s es fs (h.imp ?_)
  rintro e f ⟨hn, hc, ha⟩
  refine ⟨hn, ?_, ?_⟩
  · revert hc
    cases e.copy <;> cases f.copy <;> simp only [Agree, imp_self]
    rintro ⟨hi, hb⟩
    constructor <;> (first | rw [hi] | rw [hb])
  · revert ha
    cases e.access <;> cases f.access <;> simp only [Agree, imp_self]
    rintro ⟨hd, hv⟩
    exact ⟨by rw [hd], hv⟩

/-! Each of the fifteen values does matter: changing it alone changes the fault
word or the handler's input. -/

/-- Limits and timers such that a single bad sample counts. -/
def tightCfg : Config :=
  { Config.default with
    inputs := { Config.default.inputs with
      accelPedal := { Config.default.inputs.accelPedal with
        calibrationA := { Config.default.inputs.accelPedal.calibrationA with rawLower := 0, rawUpper := 10 }
        calibrationB := { Config.default.inputs.accelPedal.calibrationB with rawLower := 0, rawUpper := 10 }
        consistencyLimit := .fin 1 }
      brakePressureFront := { Config.default.inputs.brakePressureFront with rawLower := 0, rawUpper := 10 }
      brakePressureRear := { Config.default.inputs.brakePressureRear with rawLower := 0, rawUpper := 10 }
      pedalAbuseCheckEnabled := 1
      pedalAbuseAccelThreshold := .fin 1, pedalAbuseBrakeThreshold := .fin 1 }
    bms := { Config.default.bms with
      maxCellTemp := 5, maxCurrent := 5, maxCellVoltage := 5, minStateOfCharge := 5 } }

def calm : VData :=
  { VData.zero with
    inputs := { VData.zero.inputs with accel := .fin 1, brakePresFront := .fin 2 }
    battery := { VData.zero.battery with stateOfCarge := .fin 50 } }

/-- The same with the accelerator pressed and the brake released. -/
def pressed : VData :=
  { calm with inputs := { calm.inputs with accel := .fin 2, brakePresFront := .fin 1 } }

def faultsOf (d : VData) : BitVec 32 := (FaultMgr.step tightCfg zeroInternal (some d)).2.faults

example : faultsOf calm = 0 ∧ faultsOf pressed = 0 ∧
    faultsOf { calm with inputs := { calm.inputs with accelRawA := 11 } } = ACCELPDL_RANGE ∧
    faultsOf { calm with inputs := { calm.inputs with accelRawB := 11 } } = ACCELPDL_RANGE ∧
    faultsOf { calm with inputs := { calm.inputs with accelA := .fin 3 } } = ACCELPDL_SENSE ∧
    faultsOf { calm with inputs := { calm.inputs with accelB := .fin 3 } } = ACCELPDL_SENSE ∧
    faultsOf { calm with inputs := { calm.inputs with accel := .fin 3 } } = BRAKEPDL_ABUSE ∧
    faultsOf { calm with inputs := { calm.inputs with brakeRawFront := 11 } } = BRAKEPDL_RANGE ∧
    faultsOf { calm with inputs := { calm.inputs with brakeRawRear := 11 } } = BRAKEPDL_RANGE ∧
    faultsOf { pressed with inputs := { pressed.inputs with brakePresFront := .fin 3 } }
      = BRAKEPDL_ABUSE ∧
    faultsOf { calm with battery := { calm.battery with maxCellTemperature := .fin 6 } }
      = BMS_CELLTEMP ∧
    faultsOf { calm with battery := { calm.battery with dcCurrent := .fin 6 } } = BMS_CURRENT ∧
    faultsOf { calm with battery := { calm.battery with maxCellVoltage := .fin 6 } }
      = BMS_CELLVOLT ∧
    faultsOf { calm with battery := { calm.battery with stateOfCarge := .fin 4 } } = BMS_LOWSOC ∧
    faultsOf { calm with battery := { calm.battery with bmsFaultIndicator := true } }
      = BMS_FAULTIND := by
  decide +kernel

example : handlerInput .noFault (some calm) ≠
      handlerInput .noFault (some { calm with dash := { calm.dash with buttonPressed := true } }) ∧
    handlerInput .noFault (some calm) ≠
      handlerInput .noFault (some { calm with inverter := { calm.inverter with vsmState := 6 } }) := by
  decide +kernel

/-- Two different samples that agree: other wheel speeds, shutdown circuit, cell
data and inverter faults. -/
example :
    let other : VData := { calm with
      vehicle := { calm.vehicle with
        sdc := ⟨true, false, true, false⟩, wheelspeed := ⟨100, 200, 3, 4⟩ }
      battery := { calm.battery with minCellVoltage := .fin (-3), bmsFailsafeStatus := 0xFFFF }
      inverter := { calm.inverter with runFaults := 0xFFFFFFFF, moduleATemperature := .fin 900 } }
    other ≠ calm ∧ SameSensors calm other ∧ SameCommand calm other := by
  intro other
  refine ⟨by decide +kernel, ?_, ?_⟩ <;> constructor <;> rfl

end Verif.Noninterf
