/-!
# Switching the processor from one task to another

FreeRTOS's port for the Cortex-M7
(`cube-proj/Lib/FreeRTOS/Source/portable/GCC/ARM_CM7/r0p1/port.c`): the stack a new task is given
(`pxPortInitialiseStack`, 181–208), the supervisor call that starts the first task
(`vPortSVCHandler`, 236–252), and the handler that takes the processor from one task and gives it
to another (`xPortPendSVHandler`, 419–475).  The handlers are naked assembly, so they are modelled
instruction by instruction, together with what the processor does by itself on the way into an
exception and on the way out.

Simplifications.
* Words are natural numbers and addresses count words.  The code adds and subtracts small
  constants to addresses inside a task's stack, so nothing wraps.
* An interrupt that comes in the middle of one of these handlers is not shown.  It works on the
  main stack below the pointer and gives every register back.
* Back-to-back exceptions, which the processor runs without leaving handler mode in between, are
  shown as leaving and entering again.
-/

set_option autoImplicit false

namespace Verif.Context

/-- The processor's registers and the memory.  `r` is R0–R12, `s` is S0–S31; `fpca` is
`CONTROL.FPCA`, which says that the running code has touched the floating point registers;
`lspact` and `fpcar` are `FPCCR.LSPACT` and `FPCAR`, which say that room has been left for the
floating point registers without writing them yet, and where. What port.c 236-272, 419-475 works on. -/
structure Cpu where
  r : Nat → Nat
  lr : Nat
  pc : Nat
  psr : Nat
  psp : Nat
  msp : Nat
  s : Nat → Nat
  fpscr : Nat
  fpca : Bool
  lspact : Bool
  fpcar : Nat
  basepri : Nat
  mem : Nat → Nat

/-- Where things are: task `t`'s stack is the words from `lo t` up to `hi t`
(`xTaskCreateStatic`'s `puxStackBuffer` and `ulStackDepth`), its control block begins at `tcb t`
with the saved stack pointer (tasks.c 252–254), `cur` is the variable `pxCurrentTCB` (tasks.c 334),
and the main stack, which handlers use, is the words below `mspHi`. -/
structure Layout where
  lo : Nat → Nat
  hi : Nat → Nat
  tcb : Nat → Nat
  cur : Nat
  mspLo : Nat
  mspHi : Nat

/-- A register written. For the `ldmia`, `mov` of port.c 239-247, 425-469. -/
def setR (c : Cpu) (i v : Nat) : Cpu := { c with r := fun j => if j = i then v else c.r j }

/-- A word of memory written. For the `str`, `stmdb` of port.c 425-444. -/
def put (m : Nat → Nat) (a v : Nat) : Nat → Nat := fun x => if x = a then v else m x

/-- `n` words of memory written from `a` upwards (`stm`, `vstm`). port.c 431-435. -/
def puts (m : Nat → Nat) (a n : Nat) (v : Nat → Nat) : Nat → Nat :=
  fun x => if a ≤ x ∧ x < a + n then v (x - a) else m x

/-- The words the processor pushes on the way into an exception: 8, or 26 with room for S0–S15 and
FPSCR.  ARMv7-M Architecture Reference Manual, `PushStack`. For port.c 419-475. -/
def frameWords (fp : Bool) : Nat := if fp then 26 else 8

/-- The value put in LR on the way into an exception taken from a task: bit 4 is clear when the
frame has room for the floating point registers.  ARMv7-M ARM, `ExceptionEntry`. Tested in port.c 431, 455. -/
def excReturn (fp : Bool) : Nat := if fp then 0xFFFFFFED else 0xFFFFFFFD

/-- Bit 9 of the saved xPSR says that a word was skipped to align the stack.  ARMv7-M ARM,
`PushStack`. For port.c 419-475. -/
def psrWithPad (psr pad : Nat) : Nat := psr - 512 * (psr / 512 % 2) + 512 * pad

/-- The eight words of the basic frame: R0–R3, R12, LR, the return address and xPSR.  ARMv7-M ARM,
`PushStack`. As built in port.c 188-198. -/
def frame (c : Cpu) (pad : Nat) (i : Nat) : Nat :=
  match i with
  | 0 => c.r 0
  | 1 => c.r 1
  | 2 => c.r 2
  | 3 => c.r 3
  | 4 => c.r 12
  | 5 => c.lr
  | 6 => c.pc
  | _ => psrWithPad c.psr pad

/-- Into an exception from a task (`PushStack` and `ExceptionEntry` in the ARMv7-M ARM, with the
setting of `FPCCR` made at port.c 363–364, "Lazy save always"): the frame is pushed on the task's
stack, aligned to eight bytes; the floating point registers get room but are not written.  The
handler's own program counter and exception number are not shown. -/
def entry (c : Cpu) : Cpu :=
  let pad := c.psp % 2
  let sp := c.psp - frameWords c.fpca - pad
  { c with
    mem := puts c.mem sp 8 (frame c pad)
    psp := sp
    lr := excReturn c.fpca
    lspact := if c.fpca then true else c.lspact
    fpcar := if c.fpca then sp + 8 else c.fpcar
    fpca := false }

/-- What the processor does before a floating point instruction (`ExecuteFPCheck`,
`PreserveFPState` in the ARMv7-M ARM): if room was left for the registers they are written there
now; and if the code had not touched them yet it has now, with a fresh status register. With FPCCR as set in port.c 364; for the `vstm` of port.c 432. -/
def fpCheck (c : Cpu) : Cpu :=
  let c := if c.lspact then
      { c with
        mem := put (puts c.mem c.fpcar 16 c.s) (c.fpcar + 16) c.fpscr
        lspact := false }
    else c
  if c.fpca then c else { c with fpscr := 0, fpca := true }

/-- Out of an exception with `bx r14` (`ExceptionReturn` and `PopStack` in the ARMv7-M ARM).
Returns anywhere but to a task on its own stack are not modelled (`none`).  S0–S15 and FPSCR are
fetched from the frame unless they are still in their registers. port.c 247, 469. -/
def exit (c : Cpu) : Option Cpu :=
  if c.lr = excReturn false ∨ c.lr = excReturn true then
    let fp : Bool := c.lr = excReturn true
    let f := c.psp
    let psr := c.mem (f + 7)
    let pad := psr / 512 % 2
    some
      { c with
        r := fun i =>
          if i < 4 then c.mem (f + i) else if i = 12 then c.mem (f + 4) else c.r i
        lr := c.mem (f + 5)
        pc := c.mem (f + 6)
        psr := psr - 512 * pad
        psp := f + frameWords fp + pad
        s := fun i => if fp ∧ ¬c.lspact ∧ i < 16 then c.mem (f + 8 + i) else c.s i
        fpscr := if fp ∧ ¬c.lspact then c.mem (f + 24) else c.fpscr
        lspact := if fp then false else c.lspact
        fpca := fp }
  else none

/-- The condition `eq` after `tst r14, #0x10`.  port.c 431–432 and 455–456. -/
def usesFp (lr : Nat) : Bool := lr / 16 % 2 = 0

/-- `xPortPendSVHandler` up to the call of `vTaskSwitchContext`.  port.c 425–444. -/
def pendSave (L : Layout) (c : Cpu) : Cpu :=
  -- mrs r0, psp; ldr r3, pxCurrentTCBConst; ldr r2, [r3]
  let c := setR c 0 c.psp
  let c := setR c 3 L.cur
  let c := setR c 2 (c.mem (c.r 3))
  -- tst r14, #0x10; it eq; vstmdbeq r0!, {s16-s31}
  let c := if usesFp c.lr then
      let c := fpCheck c
      let c := { c with mem := puts c.mem (c.r 0 - 16) 16 (fun i => c.s (16 + i)) }
      setR c 0 (c.r 0 - 16)
    else c
  -- stmdb r0!, {r4-r11, r14}
  let c := { c with mem := puts c.mem (c.r 0 - 9) 9 (fun i => if i < 8 then c.r (4 + i) else c.lr) }
  let c := setR c 0 (c.r 0 - 9)
  -- str r0, [r2]
  let c := { c with mem := put c.mem (c.r 2) (c.r 0) }
  -- stmdb sp!, {r0, r3}
  let c := { c with mem := put (put c.mem (c.msp - 2) (c.r 0)) (c.msp - 1) (c.r 3)
                    msp := c.msp - 2 }
  -- mov r0, #80; msr basepri, r0
  let c := setR c 0 80
  { c with basepri := 80 }

/-- `xPortPendSVHandler` after the call of `vTaskSwitchContext`.  port.c 446–469. -/
def pendLoad (c : Cpu) : Option Cpu :=
  -- mov r0, #0; msr basepri, r0
  let c := setR c 0 0
  let c := { c with basepri := c.r 0 }
  -- ldmia sp!, {r0, r3}
  let c := setR (setR c 0 (c.mem c.msp)) 3 (c.mem (c.msp + 1))
  let c := { c with msp := c.msp + 2 }
  -- ldr r1, [r3]; ldr r0, [r1]
  let c := setR c 1 (c.mem (c.r 3))
  let c := setR c 0 (c.mem (c.r 1))
  -- ldmia r0!, {r4-r11, r14}
  let a := c.r 0
  let c := { c with r := fun i => if 4 ≤ i ∧ i < 12 then c.mem (a + (i - 4)) else c.r i
                    lr := c.mem (a + 8) }
  let c := setR c 0 (a + 9)
  -- tst r14, #0x10; it eq; vldmiaeq r0!, {s16-s31}
  let c := if usesFp c.lr then
      let c := fpCheck c
      let c := { c with s := fun i => if 16 ≤ i ∧ i < 32 then c.mem (c.r 0 + (i - 16)) else c.s i }
      setR c 0 (c.r 0 + 16)
    else c
  -- msr psp, r0; bx r14
  let c := { c with psp := c.r 0 }
  exit c

/-- `prvPortStartFirstTask` with the entry into the supervisor call: the main stack starts again
from its upper end, `CONTROL` is cleared, and the processor pushes a basic frame.
port.c 261–272. -/
def svcEntry (L : Layout) (c : Cpu) : Cpu :=
  { c with
    mem := puts c.mem (L.mspHi - 8) 8 (frame c 0)
    msp := L.mspHi - 8
    fpca := false }

/-- `vPortSVCHandler`: the first task is given the processor.  port.c 239–247. -/
def svcLoad (L : Layout) (c : Cpu) : Option Cpu :=
  -- ldr r3, pxCurrentTCBConst2; ldr r1, [r3]; ldr r0, [r1]
  let c := setR c 3 L.cur
  let c := setR c 1 (c.mem (c.r 3))
  let c := setR c 0 (c.mem (c.r 1))
  -- ldmia r0!, {r4-r11, r14}
  let a := c.r 0
  let c := { c with r := fun i => if 4 ≤ i ∧ i < 12 then c.mem (a + (i - 4)) else c.r i
                    lr := c.mem (a + 8) }
  let c := setR c 0 (a + 9)
  -- msr psp, r0; mov r0, #0; msr basepri, r0; bx r14
  let c := { c with psp := c.r 0 }
  let c := setR c 0 0
  exit { c with basepri := c.r 0 }

/-- The address `prvInitialiseNewTask` begins a new task's stack from: the last word of the array,
rounded down to eight bytes.  tasks.c 862–863. -/
def stackTop (L : Layout) (t : Nat) : Nat := (L.hi t - 1) - (L.hi t - 1) % 2

/-- `pxPortInitialiseStack` and the store of its result in the control block: the stack of a task
that has never run is made to look as if it had been switched away from at the first instruction
of its function.  port.c 181–208; tasks.c 1053 (the result is stored in `pxTopOfStack`).
`code` is the function's address with the Thumb bit, `arg` the parameter, `ret` the address of
`prvTaskExitError`. -/
def initStack (L : Layout) (m : Nat → Nat) (t code arg ret : Nat) : Nat → Nat :=
  let top := stackTop L t
  let m := put m (top - 1) 0x01000000
  let m := put m (top - 2) (code - code % 2)
  let m := put m (top - 3) ret
  let m := put m (top - 8) arg
  let m := put m (top - 9) 0xFFFFFFFD
  put m (L.tcb t) (top - 17)

/-- A word of task `t`'s: in its stack, or the saved stack pointer in its control block. tasks.c 252-258
(`pxTopOfStack` comes first), 578-628. -/
def Owned (L : Layout) (t a : Nat) : Prop := L.lo t ≤ a ∧ a < L.hi t ∨ a = L.tcb t

/-- What a call of `vTaskSwitchContext` (tasks.c 2947–3017) may do to the processor and the
memory, apart from choosing the next task: anything the procedure call standard lets a C function
do.  R4–R11, S16–S31 and both stack pointers come back as they were; the tasks' stacks and saved
stack pointers and the main stack above the pointer are not written; and if no floating point
registers are waiting to be written, none are afterwards.  Which task is chosen is the subject of
`Verif.Model.Ready`. -/
structure Chooses (L : Layout) (c : Cpu) (next : Nat) (c' : Cpu) : Prop where
  r : ∀ i, 4 ≤ i → i < 12 → c'.r i = c.r i
  s : ∀ i, 16 ≤ i → i < 32 → c'.s i = c.s i
  psp : c'.psp = c.psp
  msp : c'.msp = c.msp
  lazy : c.lspact = false → c'.lspact = false
  owned : ∀ t a, Owned L t a → c.lspact = false → c'.mem a = c.mem a
  stack : ∀ a, c.msp ≤ a → a < L.mspHi → c'.mem a = c.mem a
  next : c'.mem L.cur = L.tcb next

/-- What the running task `t` may do between switches, with the interrupts that come meanwhile:
change any register and any memory, its own stack included, but not the other tasks' stacks and
saved stack pointers nor the variable that says who is running.  The main stack pointer comes back
to where it was and no floating point registers are left waiting to be written, as is always so
outside of handlers. Code outside port.c 236-272, 419-475. -/
structure Works (L : Layout) (t : Nat) (c c' : Cpu) : Prop where
  owned : ∀ u a, u ≠ t → Owned L u a → c'.mem a = c.mem a
  cur : c'.mem L.cur = c.mem L.cur
  msp : c'.msp = c.msp
  lazy : c'.lspact = false

/-- Room below the stack pointer for everything a switch writes there. port.c 431-435 and the frame pushed by the
processor. -/
def Room (L : Layout) (t : Nat) (c : Cpu) : Prop :=
  L.lo t + frameWords c.fpca + c.psp % 2 + 9 + (if c.fpca then 16 else 0) ≤ c.psp ∧
    c.psp ≤ L.hi t

/-- The processor, who is running (nobody before the scheduler starts), and the tasks that have
been created. `pxCurrentTCB`, tasks.c 334. -/
structure St where
  cpu : Cpu
  cur : Option Nat
  live : List Nat

/-- One step of the system.

* `boot`: before the scheduler starts, code that leaves created tasks' stacks alone.
* `create`: `xTaskCreateStatic` for a task that does not exist yet, by `main` or by a task
  (tasks.c 578–628), with at least 18 words of stack.
* `start`: `prvPortStartFirstTask` (port.c 255–275): the main stack is emptied, `CONTROL` is
  cleared, and the supervisor call, which pushes a frame of eight words on the main stack, starts
  the task `pxCurrentTCB` points to.  That frame is never popped.
* `work`: the running task computes.
* `switch`: the handler that changes tasks runs.  It is not taken while the running task masks
  interrupts (`basepri`), and the task has room on its stack.  Bit 9 of a task's xPSR is
  reserved and reads as zero. -/
inductive Step (L : Layout) : St → St → Prop
  | boot (c c' : Cpu) (live : List Nat)
      (keeps : ∀ u a, u ∈ live → Owned L u a → c'.mem a = c.mem a)
      (lazy : c'.lspact = false) :
      Step L ⟨c, none, live⟩ ⟨c', none, live⟩
  | create (c : Cpu) (cur : Option Nat) (live : List Nat) (t code arg ret : Nat)
      (new : t ∉ live) (room : L.lo t + 18 < L.hi t) :
      Step L ⟨c, cur, live⟩
        ⟨{ c with mem := initStack L c.mem t code arg ret }, cur, t :: live⟩
  | start (c c' : Cpu) (live : List Nat) (t : Nat) (mem : t ∈ live)
      (points : c.mem L.cur = L.tcb t)
      (loads : svcLoad L (svcEntry L c) = some c') :
      Step L ⟨c, none, live⟩ ⟨c', some t, live⟩
  | work (c c' : Cpu) (t : Nat) (live : List Nat) (works : Works L t c c') :
      Step L ⟨c, some t, live⟩ ⟨c', some t, live⟩
  | switch (c c₁ c' : Cpu) (t u : Nat) (live : List Nat)
      (room : Room L t c) (psr : c.psr / 512 % 2 = 0) (open_ : c.basepri = 0)
      (mem : u ∈ live)
      (chooses : Chooses L (pendSave L (entry c)) u c₁) (loads : pendLoad c₁ = some c') :
      Step L ⟨c, some t, live⟩ ⟨c', some u, live⟩

end Verif.Context
