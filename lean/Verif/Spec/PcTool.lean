import Verif.Spec.MsgFrame

set_option autoImplicit false

/-!
# Reading frames on the PC

Independent of the tool's decoder.
-/

namespace Verif.PcSpec

/-- A stretch of bytes that has the delimiters of a frame of length `L`; the checksum may
be anything. -/
structure Delim (L : Nat) (m : List UInt8) : Prop where
  len : m.length = L
  colon : m[0]? = some 0x3A
  cr : m[L - 2]? = some 0x0D
  lf : m[L - 1]? = some 0x0A

/-- Address of a frame. -/
def addr (m : List UInt8) : Nat := (m.getD 1 0).toNat * 256 + (m.getD 2 0).toNat

/-- Function of a frame. -/
def func (m : List UInt8) : Nat := (m.getD 3 0).toNat * 256 + (m.getD 4 0).toNat

/-- Payload of a frame. -/
def payload (m : List UInt8) : List UInt8 := (m.drop 5).take (m.length - 11)

/-- CR LF is found at the end of the frame and nowhere else in it. -/
def OnlyAtEnd (m : List UInt8) : Prop := ∀ i, m[i]? = some 0x0D → m[i + 1]? = some 0x0A → i + 2 = m.length

end Verif.PcSpec
