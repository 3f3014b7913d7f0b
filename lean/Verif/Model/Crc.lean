import Verif.C.Basic

set_option autoImplicit false

/-!
# Checksums: the CRC unit as the firmware uses it, and the PC tool's function

* `crc.c` with the HAL byte-wise feeding (stm32f7xx_hal_crc.c 339-379, 432-477) and
  the unit's configuration (cube-proj/Core/Src/main.c 506-511: default polynomial
  0x04C11DB7, default initial value 0xFFFFFFFF, no inversion, byte format).
* `crc32mpeg2` of tools/ecu-config/decode_common.py 15-23.

The unit itself is modelled from its documented function: a write of `n` bits of data
is combined with the top bits of the register, which is then shifted `n` times.
-/

namespace Verif.Crc

/-- One shift of the register (polynomial of main.c 507). -/
def shift (r : BitVec 32) : BitVec 32 := if r.msb then (r <<< 1) ^^^ 0x04C11DB7#32 else r <<< 1

/-- `n` shifts. Hardware (see the top); main.c 506-511. -/
def shifts : Nat → BitVec 32 → BitVec 32
  | 0, r => r
  | n + 1, r => shifts n (shift r)

/-- Write of a 32-bit word to the data register. Hardware, for the writes in stm32f7xx_hal_crc.c 443-459. -/
def writeWord (r w : BitVec 32) : BitVec 32 := shifts 32 (r ^^^ w)

/-- Write of a halfword. stm32f7xx_hal_crc.c 458-466. -/
def writeHalf (r : BitVec 32) (w : BitVec 16) : BitVec 32 := shifts 16 (r ^^^ (w.setWidth 32 <<< 16))

/-- Write of a byte. stm32f7xx_hal_crc.c 453, 464-468. -/
def writeByte (r : BitVec 32) (b : UInt8) : BitVec 32 := shifts 8 (r ^^^ (b.toBitVec.setWidth 32 <<< 24))

/-- The word built from four bytes (stm32f7xx_hal_crc.c 443-446). -/
def word (a b c d : UInt8) : BitVec 32 :=
  (a.toBitVec.setWidth 32 <<< 24) ||| (b.toBitVec.setWidth 32 <<< 16) ||| (c.toBitVec.setWidth 32 <<< 8) |||
    d.toBitVec.setWidth 32

/-- The halfword built from two bytes (stm32f7xx_hal_crc.c 457, 463). -/
def half (a b : UInt8) : BitVec 16 := (a.toBitVec.setWidth 16 <<< 8) ||| b.toBitVec.setWidth 16

/-- `CRC_Handle_8` (stm32f7xx_hal_crc.c 432-477): words first, then the rest. -/
def handle8 : List UInt8 → BitVec 32 → BitVec 32
  | a :: b :: c :: d :: l, r => handle8 l (writeWord r (word a b c d))
  | [a, b, c], r => writeByte (writeHalf r (half a b)) c
  | [a, b], r => writeHalf r (half a b)
  | [a], r => writeByte r a
  | [], r => r

/-- `HAL_CRC_Calculate` (stm32f7xx_hal_crc.c 339-379) with the byte format: reset to
the initial value, then feed. -/
def hal (m : List UInt8) : UInt32 := ⟨handle8 m 0xFFFFFFFF#32⟩

/-- `CRC_Calculate` (crc.c 27-44) with the outcome of taking the lock; `none`: failure,
`*crcOut` is 0. -/
def calculate (locked : Bool) (m : List UInt8) : Option UInt32 := if locked then some (hal m) else none

/-- One round of the inner loop of `crc32mpeg2` (decode_common.py 21-22) on Python
integers. -/
def pyShift (crc : Nat) : Nat := if crc &&& 0x80000000 = 0 then crc <<< 1 else (crc <<< 1) ^^^ 0x104c11db7

/-- The inner loop. decode_common.py 21-22. -/
def pyShifts : Nat → Nat → Nat
  | 0, c => c
  | n + 1, c => pyShifts n (pyShift c)

/-- `crc32mpeg2` (decode_common.py 18-23). -/
def crc32mpeg2 (m : List UInt8) : Nat := m.foldl (fun c v => pyShifts 8 (c ^^^ (v.toNat <<< 24))) 0xffffffff

end Verif.Crc
