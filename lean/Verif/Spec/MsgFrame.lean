set_option autoImplicit false

/-!
# Framing protocol, independent of the decoder

A frame of length `L` is `':' ... CRC(4, big endian) CR LF`; the CRC is taken over
the whole frame with the CRC field zeroed.
-/

namespace Verif.FrameSpec

/-- Big-endian bytes of a 32-bit word. -/
def be (v : UInt32) : List UInt8 :=
  [UInt8.ofNat (v.toNat / 2 ^ 24), UInt8.ofNat (v.toNat / 2 ^ 16), UInt8.ofNat (v.toNat / 2 ^ 8),
    UInt8.ofNat v.toNat]

/-- The frame with four given bytes in its CRC field. -/
def withCrc (m c : List UInt8) : List UInt8 :=
  m.take (m.length - 6) ++ c ++ m.drop (m.length - 2)

/-- A valid frame of length `L` under checksum `crc`. -/
structure Valid (crc : List UInt8 → UInt32) (L : Nat) (m : List UInt8) : Prop where
  len : m.length = L
  colon : m[0]? = some 0x3A
  cr : m[L - 2]? = some 0x0D
  lf : m[L - 1]? = some 0x0A
  sum : m = withCrc m (be (crc (withCrc m [0, 0, 0, 0])))

/-- Greedy left-to-right parse of a byte string: messages found and the bytes left
over (fewer than a frame). -/
inductive Parse (V : List UInt8 → Prop) (L : Nat) : List UInt8 → List (List UInt8) → List UInt8 → Prop
  | done {l} : l.length < L → Parse V L l [] l
  | hit {l ms r} : L ≤ l.length → V (l.take L) → Parse V L (l.drop L) ms r →
      Parse V L l (l.take L :: ms) r
  | skip {b l ms r} : L ≤ (b :: l).length → ¬ V ((b :: l).take L) → Parse V L l ms r →
      Parse V L (b :: l) ms r

end Verif.FrameSpec
