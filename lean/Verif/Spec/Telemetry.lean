import Verif.C.FloatBits
import Verif.Model.VehicleState

set_option autoImplicit false

/-!
# What a receiver of state frames reads

From README.md 815-828 and tools/ecu-config/log_view.py 59-75.
-/

namespace Verif.TelemetrySpec

/-- Field identifier of a frame: payload bytes 0 and 1, most significant first. -/
def fieldId (m : List UInt8) : Nat := (m.getD 5 0).toNat * 256 + (m.getD 6 0).toNat

/-- Field size of a frame. -/
def fieldSize (m : List UInt8) : Nat := (m.getD 7 0).toNat

/-- Field value of a frame: the last `fieldSize` of the four data bytes, most
significant first. -/
def fieldValue (m : List UInt8) : Nat :=
  ((List.range (fieldSize m)).map fun i => (m.getD (5 + (6 - i)) 0).toNat * 256 ^ i).sum

/-- A reading. -/
inductive Reading where
  | nat (n : Nat)
  | flt (x : F32)
  deriving DecidableEq

/-- The fields: identifier, size, what the state says. -/
def table (d : VData) : List (Nat × Nat × Reading) :=
  [(1, 1, .nat (d.vehicle.sdc.bms.toNat + 2 * d.vehicle.sdc.bspd.toNat + 4 * d.vehicle.sdc.imd.toNat +
      8 * d.vehicle.sdc.out.toNat)),
   (2, 1, .nat (((List.range 6).map fun i => ((d.glv.pdmChState[i]?).getD false).toNat * 2 ^ i).sum)),
   (3, 4, .flt d.battery.maxCellVoltage),
   (4, 1, .nat d.battery.maxCellVoltageCellID.toNat),
   (5, 4, .flt d.battery.maxCellTemperature),
   (6, 1, .nat d.battery.maxCellTemperatureCellID.toNat),
   (7, 4, .flt d.battery.dcCurrent),
   (8, 4, .flt d.battery.dcVoltage),
   (9, 4, .flt d.battery.stateOfCarge),
   (10, 1, .nat d.battery.bmsCounter.toNat),
   (11, 1, .nat d.battery.bmsFaultIndicator.toNat)]

/-- What a user expects to see on the PC: the names and the quantities they stand for. -/
def labelled (d : VData) : List (String × Reading) :=
  [("SDC", .nat (d.vehicle.sdc.bms.toNat + 2 * d.vehicle.sdc.bspd.toNat + 4 * d.vehicle.sdc.imd.toNat +
      8 * d.vehicle.sdc.out.toNat)),
   ("PDM", .nat (((List.range 6).map fun i => ((d.glv.pdmChState[i]?).getD false).toNat * 2 ^ i).sum)),
   ("BMS Max cell voltage", .flt d.battery.maxCellVoltage),
   ("BMS Max cell voltage ID", .nat d.battery.maxCellVoltageCellID.toNat),
   ("BMS Max cell temp", .flt d.battery.maxCellTemperature),
   ("BMS Max cell temp ID", .nat d.battery.maxCellTemperatureCellID.toNat),
   ("BMS DC current", .flt d.battery.dcCurrent),
   ("BMS Pack voltage", .flt d.battery.dcVoltage),
   ("BMS SOC", .flt d.battery.stateOfCarge),
   ("BMS Counter", .nat d.battery.bmsCounter.toNat),
   ("BMS Fault", .nat d.battery.bmsFaultIndicator.toNat)]

/-- The receiver reads a field from a frame. -/
def Reads (m : List UInt8) (e : Nat × Nat × Reading) : Prop :=
  fieldId m = e.1 ∧ fieldSize m = e.2.1 ∧
    match e.2.2 with
    | .nat n => fieldValue m = n
    | .flt x => F32.value (UInt32.ofNat (fieldValue m)) = x

end Verif.TelemetrySpec
