import Verif.Model.PcTool

set_option autoImplicit false

/-!
# The simulation server: tools/ecu-config/sim-server.py

A Python string is the list of its characters' numbers.  The endless loop that makes up texts and sleeps
(sim-server.py 29-40) is left out.
-/

namespace Verif.SimServer

open Verif.PcTool

/-- `ADDR_PC` (sim-server.py 11). -/
def addrPc : Nat := 0x02
/-- `MSG_TYPE_LOG` (sim-server.py 12). -/
def typeLog : Nat := 0x02
/-- `LOG_PAYLOAD_LEN` (sim-server.py 18). -/
def payloadLen : Nat := 32

/-- `bytes(...)` of a list of numbers (encode_common.py 47): `none`, a `ValueError`, unless all are
bytes. -/
def toBytes (l : List Nat) : Option (List UInt8) :=
  if l.all (· < 256) then some (l.map UInt8.ofNat) else none

/-- The payload for the piece from `i` on: zeroes, overwritten with the characters
(sim-server.py 20-22). -/
def payloadAt (str : List Nat) (i : Nat) : List Nat :=
  let piece := (str.drop i).take payloadLen
  (List.range payloadLen).map fun j => piece.getD j 0

/-- `create_log_msgs` (sim-server.py 16-26); `none`: a character that is not a byte raises an exception
in `encode_message`.  The checksum is computed before the exception, without effect. -/
def createLogMsgs (str : List Nat) : Option (List (List UInt8)) :=
  (List.range ((str.length + payloadLen - 1) / payloadLen)).mapM fun k =>
    (toBytes (payloadAt str (k * payloadLen))).map (encodeMessage addrPc typeLog)

/-- `serial.write` of the messages one after the other (sim-server.py 38-39). -/
def sent (msgs : List (List UInt8)) : List UInt8 := msgs.flatten

end Verif.SimServer
