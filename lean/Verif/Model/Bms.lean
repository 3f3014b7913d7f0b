import Verif.Model.CanTypes
import Verif.Model.VehicleState

set_option autoImplicit false

/-!
# Battery management system driver

`vcu/device/bms/orionBms.c`, `orionBmsCAN.h`, `orionBmsDataConversions.h`
(paths relative to `/repo/firmware/src`).
-/

namespace Verif.Bms
open F32

/-- `msgToTemperature`, orionBmsDataConversions.h 16-20. -/
def msgToTemperature (n : Int) : F32 := F32.ofInt n
/-- `msgToCurrent`, orionBmsDataConversions.h 25-29. -/
def msgToCurrent (n : Int) : F32 := (F32.ofInt n).mul (F32.round (1/10))
/-- `msgToVoltageHigh`, orionBmsDataConversions.h 34-38. -/
def msgToVoltageHigh (n : Int) : F32 := (F32.ofInt n).mul (F32.round (1/10))
/-- `msgToVoltageLow`, orionBmsDataConversions.h 43-47. -/
def msgToVoltageLow (n : Int) : F32 := (F32.ofInt n).mul (F32.round (1/10000))
/-- `msgToStateOfChargePct`, orionBmsDataConversions.h 52-56. -/
def msgToStateOfChargePct (n : Nat) : F32 := (F32.ofInt n).mul (F32.round (1/2))

/-- `HandleMsg_MaxCellState`, orionBms.c 34-56. -/
def handleMaxCellState (p : Payload) (d : VData) : VData :=
  { d with battery := { d.battery with
      maxCellTemperature := msgToTemperature (sle16 p 0)
      maxCellTemperatureCellID := p[2]
      maxCellVoltage := msgToVoltageLow (sle16 p 3)
      maxCellVoltageCellID := p[5] } }

/-- `HandleMsg_MinCellState`, orionBms.c 65-87. -/
def handleMinCellState (p : Payload) (d : VData) : VData :=
  { d with battery := { d.battery with
      minCellTemperature := msgToTemperature (sle16 p 0)
      minCellTemperatureCellID := p[2]
      minCellVoltage := msgToVoltageLow (sle16 p 3)
      minCellVoltageCellID := p[5] } }

/-- `HandleMsg_PackState`, orionBms.c 96-119. -/
def handlePackState (p : Payload) (d : VData) : VData :=
  { d with battery := { d.battery with
      dcCurrent := msgToCurrent (sle16 p 0)
      dcVoltage := msgToVoltageHigh (sle16 p 2)
      stateOfCarge := msgToStateOfChargePct (le16 p 4) } }

/-- `HandleMsg_Status`, orionBms.c 128-141. -/
def handleStatus (p : Payload) (d : VData) : VData :=
  { d with battery := { d.battery with
      bmsPopulatedCells := p[1]
      bmsCounter := p[0]
      bmsFailsafeStatus := UInt16.ofNat (le16 p 2) } }

/-- The identifier switch, orionBms.c 157-173 with orionBmsCAN.h 16-19. -/
def handlerOf (msgId : UInt32) : Option (Payload → VData → VData) :=
  if msgId = 0x301 then some handleMaxCellState
  else if msgId = 0x302 then some handleMinCellState
  else if msgId = 0x303 then some handlePackState
  else if msgId = 0x304 then some handleStatus
  else none

/-- One iteration of the receive loop, orionBms.c 151-174 (each handler tests the
DLC first and writes only when vehicle-state access was granted). -/
def handleFrame (bus : Nat) (access : Bool) (f : CanFrame) (d : VData) : VData :=
  if f.busInstance ≠ bus then d else
  match handlerOf f.msgId with
  | none => d
  | some h => if f.dlc ≠ 8 then d else if access then h f.data d else d

/-- `BMSProcessing`, orionBms.c 145-177, on a wake-up with the given queue
contents (oldest first). -/
def processing (bus : Nat) (queue : List (CanFrame × Bool)) (d : VData) : VData :=
  queue.foldl (fun d fa => handleFrame bus fa.2 fa.1 d) d

end Verif.Bms
