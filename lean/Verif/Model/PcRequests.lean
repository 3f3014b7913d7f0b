import Verif.Model.MsgFrame

set_option autoImplicit false

/-!
# Requests from the PC: vcu/device/pcinterface/requests.c

Log messages written by the handlers are not modelled.
-/

namespace Verif.PcReq
open MsgFrame

/-- What a request does outside the request handler. requests.c 32-72. -/
inductive Eff where
  /-- `VehicleControl_SetECUError` -/
  | ecuError (on : Bool)
  /-- `VehicleControl_SetPowerChannel` -/
  | power (channel : Nat) (on : Bool)
  /-- `PCInterface_DebugTermRecv` -/
  | terminal (bytes : List UInt8)
  deriving DecidableEq, Repr

/-- `PCINTERFACE_MSG_COMMON_MSGLEN` (messages.h). messages.h 37. -/
def reqLen : Nat := 19

/-- Two bytes of a message as a 16-bit number (requests.c 87-89, 94-96). The
message is given as the list of the `nBytes` bytes at the pointer; indices used
below are within 19 bytes, which is checked first (83-85). -/
def word (m : List UInt8) (i : Nat) : UInt16 :=
  ((0 : UInt16) ||| ((m.getD i 0).toUInt16 <<< 8)) ||| (m.getD (i + 1) 0).toUInt16

/-- `handleMsgTestSdc` (requests.c 32-48); payload given by the message. -/
def testSdc (m : List UInt8) : List Eff := [.ecuError (m.getD (5 + 7) 0 != 0)]

/-- `handleMsgTestPdm` (requests.c 50-72). -/
def testPdm (m : List UInt8) : List Eff :=
  (List.range 6).map fun i => .power i (m.getD (5 + (i + 2)) 0 != 0)

/-- `handleMessage` (requests.c 74-118). The payload length handed on is
`19 - 11 = 8`, which is the length both test handlers require. -/
def handleMessage (controlEnabled : Bool) (m : List UInt8) : List Eff :=
  if !controlEnabled then []
  else if m.length ≠ reqLen then []
  else if word m 1 ≠ 0x01 then []
  else if word m 3 = 0x9 then [.terminal ((m.drop 5).take (m.length - 11))]
  else if word m 3 = 0x101 then testSdc m
  else if word m 3 = 0x102 then testPdm m
  else []

/-- One iteration of the loop of `PCInterface_HandleRequests` (requests.c 124-147)
with the bytes the stream buffer delivered: the message passed to `handleMessage`,
whether the batch was accepted, and the decoder. -/
def batchStep (crc : CrcUnit) (s : Dec) (batch : List UInt8) : C (Bool × Option (List UInt8) × Dec) :=
  match recvBytes s batch with
  | .error e => .error e
  | .ok (false, s1) => .ok (false, none, s1)
  | .ok (true, s1) =>
    match recvMsg crc s1 with
    | .error e => .error e
    | .ok (none, s2) => .ok (true, none, s2)
    | .ok (some off, s2) => .ok (true, some (slice s2.data off s2.msgLen), s2)

/-- State of a run: decoder, number of refused batches, messages handled, effects. requests.c 120-149. -/
structure Run where
  dec : Dec
  refused : Nat
  handled : List (List UInt8)
  effects : List Eff

/-- A batch of at most 8 bytes with the behaviour of the CRC unit and the value of
`controlEnabled` at that moment (it changes when `PCInterface_SetVehicleControl`
is called). requests.c 79, pcinterface.c 211-218. -/
structure Batch where
  bytes : List UInt8
  crc : CrcUnit
  enabled : Bool

/-- One iteration with its effects (requests.c 123-148). -/
def step (r : Run) (b : Batch) : C Run :=
  match batchStep b.crc r.dec b.bytes with
  | .error e => .error e
  | .ok (acc, m, s) =>
    .ok { dec := s
          refused := if acc then r.refused else r.refused + 1
          handled := r.handled ++ m.toList
          effects := r.effects ++ (m.toList.flatMap (handleMessage b.enabled)) }

end Verif.PcReq
