import Verif.Model.CanTypes

set_option autoImplicit false

/-!
# What the inverter reads in a command frame

Receiver's view of the 8 bytes of command message 0x0C0, from the inverter's
CAN protocol: torque x10 as little-endian signed 16 bit, speed likewise,
direction in byte 4 bit 0, enable / discharge / speed mode in byte 5 bits 0-2,
torque limit in bytes 6-7.
-/

namespace Verif.InvSpec

def torqueField (p : Payload) : Int :=
  let u : Nat := p[0].toNat + 256 * p[1].toNat
  if u < 32768 then u else u - 65536
def speedField (p : Payload) : Nat := p[2].toNat + 256 * p[3].toNat
def limitField (p : Payload) : Nat := p[6].toNat + 256 * p[7].toNat
def directionBit (p : Payload) : Bool := p[4].toNat.testBit 0
def enableBit (p : Payload) : Bool := p[5].toNat.testBit 0
def dischargeBit (p : Payload) : Bool := p[5].toNat.testBit 1

/-- Everything outside torque, direction, enable and discharge is zero. -/
def RestZero (p : Payload) : Prop :=
  speedField p = 0 ∧ limitField p = 0 ∧ p[4].toNat < 2 ∧ p[5].toNat < 4

end Verif.InvSpec
