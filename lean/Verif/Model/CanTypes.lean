import Verif.C.Basic

set_option autoImplicit false

/-!
# CAN frames as the drivers see them

`system-lib/can/can.h` (paths relative to `/repo/firmware/src`).
-/

namespace Verif

/-- Eight payload bytes, `uint8_t data[8]`. can.h 48. -/
abbrev Payload := Vector UInt8 8

/-- `CAN_DataFrame_T`, can.h 45-50.  `busInstance` is the numeric value of
`CAN_Device_T` (can.h 19-25: CAN_DEV1 = 0, CAN_DEV2 = 1, CAN_DEV3 = 2). -/
structure CanFrame where
  busInstance : Nat
  msgId : UInt32
  data : Payload
  dlc : UInt32
deriving DecidableEq

/-- Little-endian `uint16_t` read at byte `i` of a payload (union access or
shift-or on the little-endian target). cInverterCAN.h 26-164, orionBms.c 40-110. -/
def le16 (p : Payload) (i : Nat) (h : i + 1 < 8 := by decide) : Nat :=
  p[i].toNat + 256 * p[i+1].toNat

/-- Two's-complement reinterpretation of a 16-bit pattern as `int16_t`. cInverterCAN.h 70-79, dataConversions.h 32-36. -/
def sign16 (n : Nat) : Int := if n < 32768 then (n : Int) else (n : Int) - 65536

/-- Little-endian `int16_t` read. cInverterCAN.h 70-79. -/
def sle16 (p : Payload) (i : Nat) (h : i + 1 < 8 := by decide) : Int := sign16 (le16 p i h)

/-- Little-endian `uint32_t` read. cInverterCAN.h 122-139. -/
def le32 (p : Payload) (i : Nat) (h : i + 3 < 8 := by decide) : UInt32 :=
  UInt32.ofNat (p[i].toNat + 256 * p[i+1].toNat + 65536 * p[i+2].toNat + 16777216 * p[i+3].toNat)

end Verif
