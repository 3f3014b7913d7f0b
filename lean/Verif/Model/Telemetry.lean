import Verif.Model.MsgFrame
import Verif.Model.VehicleState

set_option autoImplicit false

/-!
# State broadcast: vcu/device/pcinterface/periodicupdates.c

`bits` gives the bit pattern of a float object, which `memcpy` copies (line 70). The
checksum result is an input. A frame is what is handed to `UART_SendMessage`, once for
each port (52-59).
-/

namespace Verif.Telemetry
open MsgFrame

/-- Payload of a state frame (periodicupdates.c 41-47). -/
def payload (id : UInt16) (size : Nat) (field : UInt32) : List UInt8 :=
  [(id >>> 8).toUInt8, id.toUInt8, UInt8.ofNat (size % 256),
    (field >>> 24).toUInt8, (field >>> 16).toUInt8, (field >>> 8).toUInt8, field.toUInt8]

/-- `sendStateField` (28-60) with the encoder set up by `PCInterface_Init` (pcinterface.c
119-124: address 2, function 1, 7 data bytes, 18 bytes); `none`: nothing is sent. `buf`
is the previous content of the 18-byte buffer. -/
def sendStateField (crc : List UInt8 → Option UInt32) (buf : List UInt8) (id : UInt16) (size : Nat) (field : UInt32) :
    Option (List UInt8) :=
  if 4 < size then none
  else (initFrame 0x02 0x01 7 buf).map fun b => updateCrc crc (putPayload b (payload id size field))

/-- `sendStateFieldf` (periodicupdates.c 62-73). -/
def sendStateFieldf (crc : List UInt8 → Option UInt32) (bits : F32 → UInt32) (buf : List UInt8) (id : UInt16) (field : F32) :
    Option (List UInt8) := sendStateField crc buf id 4 (bits field)

/-- `sendStateSdc` (periodicupdates.c 86-90): the byte sent. `bool & 1` is the bool. -/
def sdcByte (d : SdcState) : UInt8 :=
  d.bms.toUInt8 <<< 0 ||| d.bspd.toUInt8 <<< 1 ||| d.imd.toUInt8 <<< 2 ||| d.out.toUInt8 <<< 3

/-- `sendStatePdm` (periodicupdates.c 110-113). -/
def pdmByte (d : Glv) : UInt8 :=
  (List.range 6).foldl (fun t i => t ||| ((d.pdmChState[i]?).getD false).toUInt8 <<< UInt8.ofNat i) 0

/-- One call of a send function. periodicupdates.c 28-73. -/
inductive Field where
  | int (id : UInt16) (size : Nat) (v : UInt32)
  | flt (id : UInt16) (v : F32)

/-- The calls of `sendStateSdc`, `sendStatePdm`, `sendStateBattery` in order (91-94,
115-118, 134-160). Identifiers are those of fieldId.h 13-23. -/
def calls (d : VData) : List Field :=
  [.int 0x0001 1 (sdcByte d.vehicle.sdc).toUInt32,
   .int 0x0002 1 (pdmByte d.glv).toUInt32,
   .flt 0x0003 d.battery.maxCellVoltage,
   .int 0x0004 1 d.battery.maxCellVoltageCellID.toUInt32,
   .flt 0x0005 d.battery.maxCellTemperature,
   .int 0x0006 1 d.battery.minCellTemperatureCellID.toUInt32,
   .flt 0x0007 d.battery.dcCurrent,
   .flt 0x0008 d.battery.dcVoltage,
   .flt 0x0009 d.battery.stateOfCarge,
   .int 0x000A 1 d.battery.bmsCounter.toUInt32,
   .int 0x000B 1 (d.battery.bmsFaultIndicator).toUInt32]

/-- One call on the buffer. periodicupdates.c 28-73. -/
def send (crc : List UInt8 → Option UInt32) (bits : F32 → UInt32) (buf : List UInt8) : Field → Option (List UInt8)
  | .int id size v => sendStateField crc buf id size v
  | .flt id v => sendStateFieldf crc bits buf id v

/-- The frames of a sequence of calls; each leaves its frame in the buffer. periodicupdates.c 75-166. -/
def sendAll (crc : List UInt8 → Option UInt32) (bits : F32 → UInt32) : List UInt8 → List Field → List (List UInt8)
  | _, [] => []
  | buf, f :: fs =>
    match send crc bits buf f with
    | none => sendAll crc bits buf fs
    | some frame => frame :: sendAll crc bits frame fs

/-- `periodicStateUpdate` (periodicupdates.c 168-190): frames sent on each port. `copied` is the result of
`VehicleState_CopyState`. -/
def periodicStateUpdate (crc : List UInt8 → Option UInt32) (bits : F32 → UInt32) (enabled : Bool) (counter : UInt32)
    (copied : Option VData) (buf : List UInt8) : List (List UInt8) :=
  if !enabled then []
  else if counter % 100 ≠ 0 then []
  else
    match copied with
    | none => []
    | some d => sendAll crc bits buf (calls d)

end Verif.Telemetry
