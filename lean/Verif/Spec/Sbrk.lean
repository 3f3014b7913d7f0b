import Verif.Model.Sbrk

/-!
# What an allocator relies on

The memory it is given is one growing and shrinking stretch between the end of the program's data
and the part of the memory kept for the main stack.
-/

set_option autoImplicit false

namespace Verif.Sbrk

/-- Where the linker can have put the end of the program's data: in the memory, with the sizes it
checks for heap and stack still free (STM32F767ZITX_FLASH.ld 156–166). -/
def Linked (start : Nat) : Prop := 0x20000000 ≤ start ∧ start + 0x200 + 0x400 ≤ 0x20000000 + 524288

/-- The last address the heap may reach: 1 KiB below the end of the 512 KiB of memory. -/
def limit : Nat := 0x20000000 + 524288 - 1024

/-- A heap that begins at `start` and has `k` bytes in use, asked again and again for `i` more
(or, for a negative `i`, given some back): each request is met at the present end of the heap if
the end stays within the limit, and refused without effect otherwise. -/
def ideal (start : Nat) : Int → List Int → List (Option Nat)
  | _, [] => []
  | k, i :: is =>
      if start + k + i ≤ limit then some (start + k).toNat :: ideal start (k + i) is
      else none :: ideal start k is

/-- The requests are numbers a signed word can hold, and never is more given back than is in
use. -/
def Fair (start : Nat) : Int → List Int → Prop
  | _, [] => True
  | k, i :: is =>
      -2 ^ 31 ≤ i ∧ i < 2 ^ 31 ∧ 0 ≤ k + i ∧
        (if start + k + i ≤ limit then Fair start (k + i) is else Fair start k is)

end Verif.Sbrk
