import Verif.C.Basic

set_option autoImplicit false

/-!
# From reset to main (Core/Startup/startup_stm32f767zitx.s 58-100, STM32F767ZITX_FLASH.ld 30-167)

The instructions of `Reset_Handler` up to the call of `SystemInit`, executed on registers, carry flag
and memory.  Memory is seen as words at addresses divisible by four; any other access is a fault.

Simplifications: only the carry flag is kept, the one `bcc` looks at; pseudo-instructions
`ldr rX, =symbol` load the symbol's value; memory-mapped peripherals are not touched here.
`SystemInit`, which writes processor and clock registers only, and `__libc_init_array`, which has no
constructors to run, are left out.
-/

namespace Verif.Reset

/-- The linker's symbols (STM32F767ZITX_FLASH.ld 31, 123-153). -/
structure Link where
  estack : Nat
  sdata : Nat
  edata : Nat
  sidata : Nat
  sbss : Nat
  ebss : Nat

/-- Instructions used (Thumb-2); registers by number, targets by position. Those of startup_stm32f767zitx.s 61-93. -/
inductive Instr where
  /-- `ldr rd, =v` -/
  | lit (rd v : Nat)
  /-- `movs rd, #v` -/
  | movs (rd v : Nat)
  /-- `b l` -/
  | b (l : Nat)
  /-- `ldr rd, [rn, rm]` -/
  | ldr (rd rn rm : Nat)
  /-- `str rd, [rn, rm]` -/
  | str (rd rn rm : Nat)
  /-- `str rd, [rn]` -/
  | str0 (rd rn : Nat)
  /-- `adds rd, rn, #v` -/
  | addsImm (rd rn v : Nat)
  /-- `adds rd, rn, rm` -/
  | adds (rd rn rm : Nat)
  /-- `cmp rn, rm` -/
  | cmp (rn rm : Nat)
  /-- `bcc l` -/
  | bcc (l : Nat)
deriving DecidableEq, Repr

/-- Processor and memory. For startup_stm32f767zitx.s 61-96. -/
structure St where
  r : Nat → Nat
  carry : Bool
  pc : Nat
  mem : Nat → Nat

/-- Writing a register. For startup_stm32f767zitx.s 61-96. -/
def setR (s : St) (d v : Nat) : St := { s with r := fun k => if k = d then v else s.r k }

/-- Next instruction. For startup_stm32f767zitx.s 61-96. -/
def next (s : St) : St := { s with pc := s.pc + 1 }

/-- The effect of one instruction (ARMv7-M Architecture Reference Manual, A7.7); `none`: a fault. For startup_stm32f767zitx.s 61-93. -/
def exec1 (s : St) : Instr → Option St
  | .lit d v => some (next (setR s d v))
  | .movs d v => some (next (setR s d v))
  | .b l => some { s with pc := l }
  | .ldr d n m =>
      let a := (s.r n + s.r m) % 2 ^ 32
      if a % 4 = 0 then some (next (setR s d (s.mem a))) else none
  | .str d n m =>
      let a := (s.r n + s.r m) % 2 ^ 32
      if a % 4 = 0 then some (next { s with mem := fun k => if k = a then s.r d else s.mem k })
      else none
  | .str0 d n =>
      let a := s.r n
      if a % 4 = 0 then some (next { s with mem := fun k => if k = a then s.r d else s.mem k })
      else none
  | .addsImm d n v =>
      some (next { setR s d ((s.r n + v) % 2 ^ 32) with carry := decide (2 ^ 32 ≤ s.r n + v) })
  | .adds d n m =>
      some (next { setR s d ((s.r n + s.r m) % 2 ^ 32) with
        carry := decide (2 ^ 32 ≤ s.r n + s.r m) })
  | .cmp n m => some (next { s with carry := decide (s.r m ≤ s.r n) })
  | .bcc l => some (if s.carry then next s else { s with pc := l })

/-- `Reset_Handler` (startup_stm32f767zitx.s 61-93).  Positions: 0 the entry, 6 `CopyDataInit`,
9 `LoopCopyDataInit`, 16 `FillZerobss`, 18 `LoopFillZerobss`, 20 `bl SystemInit`. -/
def program (L : Link) : List Instr :=
  [.lit 13 L.estack,      -- ldr sp, =_estack
   .lit 0 L.sdata,        -- ldr r0, =_sdata
   .lit 1 L.edata,        -- ldr r1, =_edata
   .lit 2 L.sidata,       -- ldr r2, =_sidata
   .movs 3 0,             -- movs r3, #0
   .b 9,                  -- b LoopCopyDataInit
   .ldr 4 2 3,            -- CopyDataInit: ldr r4, [r2, r3]
   .str 4 0 3,            -- str r4, [r0, r3]
   .addsImm 3 3 4,        -- adds r3, r3, #4
   .adds 4 0 3,           -- LoopCopyDataInit: adds r4, r0, r3
   .cmp 4 1,              -- cmp r4, r1
   .bcc 6,                -- bcc CopyDataInit
   .lit 2 L.sbss,         -- ldr r2, =_sbss
   .lit 4 L.ebss,         -- ldr r4, =_ebss
   .movs 3 0,             -- movs r3, #0
   .b 18,                 -- b LoopFillZerobss
   .str0 3 2,             -- FillZerobss: str r3, [r2]
   .addsImm 2 2 4,        -- adds r2, r2, #4
   .cmp 2 4,              -- LoopFillZerobss: cmp r2, r4
   .bcc 16]               -- bcc FillZerobss

/-- The call of `SystemInit` (startup_stm32f767zitx.s 96). -/
def done : Nat := 20

/-- One step of the processor in `Reset_Handler`; at `done` the handler has left this part. startup_stm32f767zitx.s
61-96. -/
def step (L : Link) (s : St) : Option St :=
  match (program L)[s.pc]? with
  | some i => exec1 s i
  | none => none

/-- `n` steps. startup_stm32f767zitx.s 61-96. -/
def steps (L : Link) : Nat → St → Option St
  | 0, s => some s
  | n + 1, s => match step L s with
    | some t => steps L n t
    | none => none

/-- Sizes of the sections in the image: `.data` and `.bss` before rounding, code and constants before
`.data` in the flash memory, and the gap the alignment of `.bss` needs. STM32F767ZITX_FLASH.ld 43-155. -/
structure Image where
  flash : Nat
  data : Nat
  gap : Nat
  bss : Nat

/-- Rounding up to words (`. = ALIGN(4)`, STM32F767ZITX_FLASH.ld 126-155). -/
def align4 (n : Nat) : Nat := (n + 3) / 4 * 4

/-- The linker's placement (STM32F767ZITX_FLASH.ld 31, 37-41, 123-155): `.data` at the beginning of
the RAM with its contents after the code in the flash memory, then `.bss`. -/
def link (i : Image) : Link where
  estack := 0x20000000 + 0x80000
  sdata := 0x20000000
  edata := 0x20000000 + align4 i.data
  sidata := 0x08000000 + align4 i.flash
  sbss := 0x20000000 + align4 i.data + align4 i.gap
  ebss := 0x20000000 + align4 i.data + align4 i.gap + align4 i.bss

/-- What the linker checks, or refuses to link: everything fits (`>RAM AT> FLASH`; the reserved heap
and stack, `_user_heap_stack`, STM32F767ZITX_FLASH.ld 158-166). -/
def Fits (i : Image) : Prop :=
  align4 i.flash + align4 i.data ≤ 0x200000 ∧
  align4 i.data + align4 i.gap + align4 i.bss + 0x200 + 0x400 ≤ 0x80000

end Verif.Reset
