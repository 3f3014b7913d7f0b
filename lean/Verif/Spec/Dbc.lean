import Verif.Model.CanTypes
import Verif.Model.VehicleState

set_option autoImplicit false

/-!
# CAN signal tables

A message layout is a list of signals, as in a CAN database file: message
identifier, start bit and length in the 64-bit little-endian payload word,
signedness, conversion, and the vehicle-state field it feeds.  The tables below
are written from the message structures of cInverterCAN.h and the README's BMS
message table, not from the handlers.
-/

namespace Verif.Dbc

/-- A decoded quantity: a physical value (float) or a plain number. -/
inductive Val where
  | flt (x : F32)
  | int (n : Int)
deriving DecidableEq

/-- The payload as one 64-bit little-endian number. -/
def word (p : Payload) : Nat :=
  p[0].toNat + 2^8 * p[1].toNat + 2^16 * p[2].toNat + 2^24 * p[3].toNat +
  2^32 * p[4].toNat + 2^40 * p[5].toNat + 2^48 * p[6].toNat + 2^56 * p[7].toNat

/-- How a raw number becomes a value. -/
inductive Conv where
  /-- plain number -/
  | raw
  /-- physical value `raw / k`, rounded once to binary32 -/
  | per (k : ℚ)
  /-- physical value `raw * c` with `c` a binary32 constant, rounded once -/
  | times (c : ℚ)

structure Signal (F : Type) where
  msgId : Nat
  field : F
  start : Nat
  len : Nat
  signed : Bool := false
  conv : Conv

variable {F : Type}

/-- Raw number in the payload. -/
def Signal.rawValue (s : Signal F) (p : Payload) : Int :=
  let u := word p / 2^s.start % 2^s.len
  if s.signed && decide (2^(s.len - 1) ≤ u) then (u : Int) - 2^s.len else u

/-- Value the field must take. -/
def Signal.value (s : Signal F) (p : Payload) : Val :=
  match s.conv with
  | .raw => .int (s.rawValue p)
  | .per k => .flt (F32.round (s.rawValue p / k))
  | .times c => .flt (F32.round (s.rawValue p * c))

/-- Every field listed for the message takes its signal's value, every other
field keeps its old value. -/
def Updates [DecidableEq F] (table : List (Signal F)) (get : F → VData → Val) (msgId : Nat)
    (p : Payload) (before after : VData) : Prop :=
  ∀ fld : F, get fld after =
    match table.find? (fun s => decide (s.msgId = msgId) && decide (s.field = fld)) with
    | some s => s.value p
    | none => get fld before

/-! ## Inverter -/

/-- All fields of the motor and inverter sections. -/
inductive InvField where
  | mTemperature | mAngle | mSpeed | mPhaseA | mPhaseB | mPhaseC | mTorque
  | moduleA | moduleB | moduleC | gateDriver | controlBoard | outputFrequency
  | dcBusCurrent | dcBusVoltage | outputVoltage | vd | vq
  | fluxCommand | fluxFeedback | idFeedback | iqFeedback | idCommand | iqCommand
  | commandedTorque | modulationIndex | fluxWeakening
  | vsmState | inverterState | dischargeState | enabled | direction
  | timerCounts | runFaults | postFaults
deriving DecidableEq

def getInv : InvField → VData → Val
  | .mTemperature, d => .flt d.motor.temperature
  | .mAngle, d => .flt d.motor.angle
  | .mSpeed, d => .int d.motor.speed
  | .mPhaseA, d => .flt d.motor.phaseACurrent
  | .mPhaseB, d => .flt d.motor.phaseBCurrent
  | .mPhaseC, d => .flt d.motor.phaseCCurrent
  | .mTorque, d => .flt d.motor.calculatedTorque
  | .moduleA, d => .flt d.inverter.moduleATemperature
  | .moduleB, d => .flt d.inverter.moduleBTemperature
  | .moduleC, d => .flt d.inverter.moduleCTemperature
  | .gateDriver, d => .flt d.inverter.gateDriverTemp
  | .controlBoard, d => .flt d.inverter.controlBoardTemp
  | .outputFrequency, d => .flt d.inverter.outputFrequency
  | .dcBusCurrent, d => .flt d.inverter.dcBusCurrent
  | .dcBusVoltage, d => .flt d.inverter.dcBusVoltage
  | .outputVoltage, d => .flt d.inverter.outputVoltage
  | .vd, d => .flt d.inverter.vd
  | .vq, d => .flt d.inverter.vq
  | .fluxCommand, d => .flt d.inverter.fluxCommand
  | .fluxFeedback, d => .flt d.inverter.fluxFeedback
  | .idFeedback, d => .flt d.inverter.idFeedback
  | .iqFeedback, d => .flt d.inverter.iqFeedback
  | .idCommand, d => .flt d.inverter.idCommand
  | .iqCommand, d => .flt d.inverter.iqCommand
  | .commandedTorque, d => .flt d.inverter.commandedTorque
  | .modulationIndex, d => .flt d.inverter.modulationIndex
  | .fluxWeakening, d => .flt d.inverter.fluxWeakeningOutput
  | .vsmState, d => .int d.inverter.vsmState.toNat
  | .inverterState, d => .int d.inverter.inverterState.toNat
  | .dischargeState, d => .int d.inverter.dischargeState.toNat
  | .enabled, d => .int d.inverter.enabled.toNat
  | .direction, d => .int d.inverter.direction.toNat
  | .timerCounts, d => .int d.inverter.timerCounts.toNat
  | .runFaults, d => .int d.inverter.runFaults.toNat
  | .postFaults, d => .int d.inverter.postFaults.toNat

/-- Messages broadcast by the inverter, as documented in cInverterCAN.h.
Temperatures and torques are unsigned there. -/
def inverterTable : List (Signal InvField) := [
  ⟨0x0A0, .moduleA, 0, 16, false, .per 10⟩,
  ⟨0x0A0, .moduleB, 16, 16, false, .per 10⟩,
  ⟨0x0A0, .moduleC, 32, 16, false, .per 10⟩,
  ⟨0x0A0, .gateDriver, 48, 16, false, .per 10⟩,
  ⟨0x0A1, .controlBoard, 0, 16, false, .per 10⟩,
  ⟨0x0A2, .mTemperature, 32, 16, false, .per 10⟩,
  ⟨0x0A5, .mAngle, 0, 16, false, .per 10⟩,
  ⟨0x0A5, .mSpeed, 16, 16, true, .raw⟩,
  ⟨0x0A5, .outputFrequency, 32, 16, false, .per 10⟩,
  ⟨0x0A6, .mPhaseA, 0, 16, true, .per 10⟩,
  ⟨0x0A6, .mPhaseB, 16, 16, true, .per 10⟩,
  ⟨0x0A6, .mPhaseC, 32, 16, true, .per 10⟩,
  ⟨0x0A6, .dcBusCurrent, 48, 16, true, .per 10⟩,
  ⟨0x0A7, .dcBusVoltage, 0, 16, false, .per 10⟩,
  ⟨0x0A7, .outputVoltage, 16, 16, false, .per 10⟩,
  ⟨0x0A7, .vd, 32, 16, false, .per 10⟩,
  ⟨0x0A7, .vq, 48, 16, false, .per 10⟩,
  ⟨0x0A8, .fluxCommand, 0, 16, false, .per 1000⟩,
  ⟨0x0A8, .fluxFeedback, 16, 16, false, .per 1000⟩,
  ⟨0x0A8, .idFeedback, 32, 16, true, .per 10⟩,
  ⟨0x0A8, .iqFeedback, 48, 16, true, .per 10⟩,
  ⟨0x0AA, .vsmState, 0, 8, false, .raw⟩,
  ⟨0x0AA, .inverterState, 16, 8, false, .raw⟩,
  ⟨0x0AA, .dischargeState, 37, 3, false, .raw⟩,
  ⟨0x0AA, .enabled, 48, 1, false, .raw⟩,
  ⟨0x0AA, .direction, 56, 1, false, .raw⟩,
  ⟨0x0AB, .postFaults, 0, 32, false, .raw⟩,
  ⟨0x0AB, .runFaults, 32, 32, false, .raw⟩,
  ⟨0x0AC, .commandedTorque, 0, 16, false, .per 10⟩,
  ⟨0x0AC, .mTorque, 16, 16, false, .per 10⟩,
  ⟨0x0AC, .timerCounts, 32, 32, false, .raw⟩,
  ⟨0x0AD, .modulationIndex, 0, 16, false, .per 100⟩,
  ⟨0x0AD, .fluxWeakening, 16, 16, true, .per 10⟩,
  ⟨0x0AD, .idCommand, 32, 16, true, .per 10⟩,
  ⟨0x0AD, .iqCommand, 48, 16, true, .per 10⟩]

/-- Everything the inverter driver must never touch. -/
def SameOutsideInverter (a b : VData) : Prop :=
  a.inputs = b.inputs ∧ a.dash = b.dash ∧ a.vehicle = b.vehicle ∧ a.glv = b.glv ∧
  a.battery = b.battery

/-! ## Battery management system -/

/-- All fields of the battery section. -/
inductive BmsField where
  | maxV | maxT | minV | minT | maxVId | maxTId | minVId | minTId
  | current | voltage | soc | faultIndicator | populated | counter | failsafe
deriving DecidableEq

def getBms : BmsField → VData → Val
  | .maxV, d => .flt d.battery.maxCellVoltage
  | .maxT, d => .flt d.battery.maxCellTemperature
  | .minV, d => .flt d.battery.minCellVoltage
  | .minT, d => .flt d.battery.minCellTemperature
  | .maxVId, d => .int d.battery.maxCellVoltageCellID.toNat
  | .maxTId, d => .int d.battery.maxCellTemperatureCellID.toNat
  | .minVId, d => .int d.battery.minCellVoltageCellID.toNat
  | .minTId, d => .int d.battery.minCellTemperatureCellID.toNat
  | .current, d => .flt d.battery.dcCurrent
  | .voltage, d => .flt d.battery.dcVoltage
  | .soc, d => .flt d.battery.stateOfCarge
  | .faultIndicator, d => .int (if d.battery.bmsFaultIndicator then 1 else 0)
  | .populated, d => .int d.battery.bmsPopulatedCells.toNat
  | .counter, d => .int d.battery.bmsCounter.toNat
  | .failsafe, d => .int d.battery.bmsFailsafeStatus.toNat

/-- Conversions of the five scaled BMS quantities. -/
structure BmsScale where
  temperature : Conv
  cellVoltage : Conv
  current : Conv
  voltage : Conv
  soc : Conv

/-- BMS messages (README, "BMS", CAN message configuration) for a given scaling. -/
def bmsTable (k : BmsScale) : List (Signal BmsField) := [
  ⟨0x301, .maxT, 0, 16, true, k.temperature⟩,
  ⟨0x301, .maxTId, 16, 8, false, .raw⟩,
  ⟨0x301, .maxV, 24, 16, true, k.cellVoltage⟩,
  ⟨0x301, .maxVId, 40, 8, false, .raw⟩,
  ⟨0x302, .minT, 0, 16, true, k.temperature⟩,
  ⟨0x302, .minTId, 16, 8, false, .raw⟩,
  ⟨0x302, .minV, 24, 16, true, k.cellVoltage⟩,
  ⟨0x302, .minVId, 40, 8, false, .raw⟩,
  ⟨0x303, .current, 0, 16, true, k.current⟩,
  ⟨0x303, .voltage, 16, 16, true, k.voltage⟩,
  ⟨0x303, .soc, 32, 16, false, k.soc⟩,
  ⟨0x304, .counter, 0, 8, false, .raw⟩,
  ⟨0x304, .populated, 8, 8, false, .raw⟩,
  ⟨0x304, .failsafe, 16, 16, false, .raw⟩]

/-- Scaling documented in the README ("Data Formats"). -/
def readmeScale : BmsScale := ⟨.per 10, .per 100, .per 10, .per 10, .per 100⟩

/-- Scaling the conversion functions implement (orionBmsDataConversions.h). -/
def codeScale : BmsScale :=
  ⟨.times 1, .times (rnd (1/10000)), .times (rnd (1/10)), .times (rnd (1/10)), .times (1/2)⟩

def SameOutsideBattery (a b : VData) : Prop :=
  a.inputs = b.inputs ∧ a.dash = b.dash ∧ a.vehicle = b.vehicle ∧ a.glv = b.glv ∧
  a.motor = b.motor ∧ a.inverter = b.inverter

end Verif.Dbc
