set_option autoImplicit false

/-!
# Bits of a message, bursts

Independent of any checksum.
-/

namespace Verif.CrcSpec

/-- Bits of a byte in transmission order of the checksum, most significant first. -/
def byteBits (b : UInt8) : List Bool := (List.range 8).map fun i => b.toNat.testBit (7 - i)

/-- Bits of a message. -/
def bits (m : List UInt8) : List Bool := m.flatMap byteBits

/-- The messages differ, and only within `n` consecutive bits. -/
def Burst (n : Nat) (m m' : List UInt8) : Prop :=
  ∃ p u v s, bits m = p ++ u ++ s ∧ bits m' = p ++ v ++ s ∧ u.length = v.length ∧ u.length ≤ n ∧ u ≠ v

/-- Number of bits in which two messages of equal length differ. -/
def distance (m m' : List UInt8) : Nat := (List.zipWith (· ^^ ·) (bits m) (bits m')).count true

end Verif.CrcSpec
