/-!
# The C library's heap

`_sbrk` (`cube-proj/Core/Src/sysmem.c` 54–80), from which the C library's allocator takes memory,
with the linker script's symbols (`cube-proj/STM32F767ZITX_FLASH.ld` 31–40 and 156–166).

Addresses are numbers below 2³²; the addition of the signed increment to the pointer is the
processor's, which wraps.  (The C standard leaves a pointer that leaves its object undefined; the
symbol `_end` names a single byte, so the function relies on the compiler to add all the same.)
`errno` is not shown.
-/

set_option autoImplicit false

namespace Verif.Sbrk

/-- `_estack`: the end of the memory.  STM32F767ZITX_FLASH.ld 31 and 39. -/
def estack : Nat := 0x20000000 + 512 * 1024

/-- `_Min_Stack_Size`.  STM32F767ZITX_FLASH.ld 34. -/
def minStack : Nat := 0x400

/-- `max_heap`: the lower end of what is reserved for the main stack.  sysmem.c 59–60. -/
def maxHeap : Nat := estack - minStack

/-- `__sbrk_heap_end`; `none` is the null pointer it starts as.  sysmem.c 31. -/
abbrev Heap := Option Nat

/-- The processor's addition of a signed word to an address. sysmem.c 70 and 77. -/
def addWrap (a : Nat) (incr : Int) : Nat := ((a + incr) % 2 ^ 32).toNat

/-- `_sbrk`: the result is the former end of the heap, or nothing for `(void *)-1`.
`start` is the linker's `_end`.  sysmem.c 54–80. -/
def sbrk (start : Nat) (h : Heap) (incr : Int) : Option Nat × Heap :=
  let e := match h with
    | none => start
    | some e => e
  if addWrap e incr > maxHeap then (none, some e)
  else (some e, some (addWrap e incr))

/-- A program's calls, one after the other. sysmem.c 54–80. -/
def run (start : Nat) : Heap → List Int → List (Option Nat) × Heap
  | h, [] => ([], h)
  | h, i :: is =>
      let (r, h') := sbrk start h i
      let (rs, h'') := run start h' is
      (r :: rs, h'')

end Verif.Sbrk
