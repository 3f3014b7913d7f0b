import Verif.Model.TaskTimer

set_option autoImplicit false

/-!
# A hardware timer and its interrupt handler

`HAL_TIM_IRQHandler` (cube-proj/Drivers/STM32F7xx_HAL_Driver/Src/stm32f7xx_hal_tim.c 3834-4022), step by step, with the
timer setting flags between any two steps, and the two calls that prepare the timer (`HAL_TIM_Base_Init`, 269-322, and
`HAL_TIM_Base_Start_IT`, 462-497).  The firmware uses it for TIM1, TIM2 and TIM3 (stm32f7xx_it.c 314, 328, 342); each
has its own registers and its handler does not interrupt itself, so one timer is modelled.
-/

namespace Verif.TimIrq

/-- The callbacks. A capture/compare event has one of two pairs of callbacks, which are not told apart here.
stm32f7xx_hal_tim.c 3849-3863, 3968, 3981, 3994, 4007, 4019. -/
inductive Cb where
  | compare (n : Nat)
  | period
  | brk
  | brk2
  | trigger
  | commutation
deriving DecidableEq, Repr

/-- One block of the handler: the flag in `SR`, the enable bit in `DIER`, the flag that is cleared, the callback.
stm32f7xx_hal_tim.c 3836-4021. -/
structure Block where
  flag : BitVec 32
  source : BitVec 32
  clear : BitVec 32
  cb : Cb
deriving DecidableEq, Repr

/-- The blocks of the handler, in order. stm32f7xx_hal_tim.c 3836-4021; flags: stm32f767xx.h 14412-14449
(`TIM_SR_…`), 14365-14388 (`TIM_DIER_…`). -/
def blocks : List Block :=
  [⟨0x2#32, 0x2#32, 0x2#32, .compare 1⟩, ⟨0x4#32, 0x4#32, 0x4#32, .compare 2⟩,
   ⟨0x8#32, 0x8#32, 0x8#32, .compare 3⟩, ⟨0x10#32, 0x10#32, 0x10#32, .compare 4⟩,
   ⟨0x1#32, 0x1#32, 0x1#32, .period⟩, ⟨0x80#32, 0x80#32, 0x80#32, .brk⟩,
   ⟨0x100#32, 0x80#32, 0x100#32, .brk2⟩, ⟨0x40#32, 0x40#32, 0x40#32, .trigger⟩,
   ⟨0x20#32, 0x20#32, 0x20#32, .commutation⟩]

/-- A step of the handler: the test of `SR` (`__HAL_TIM_GET_FLAG`, stm32f7xx_hal_tim.h 1320), the test of `DIER`
(`__HAL_TIM_GET_IT_SOURCE`, 1361), the write to `SR` (`__HAL_TIM_CLEAR_IT`, 1378), the callback. -/
inductive Op where
  | flag (b : Block)
  | source (b : Block)
  | clear (b : Block)
  | call (b : Block)
deriving DecidableEq, Repr

/-- What was seen from outside: the update event of the timer (its counter ran over, or the timer was configured) and
callbacks. stm32f7xx_hal_tim.c 6975, 3968. -/
inductive Obs where
  | update
  | call (c : Cb)
deriving DecidableEq, Repr

/-- `SR`, `DIER`, the steps left of the running handler, what has happened, latest first. stm32f7xx_hal_tim.c 3834-4022.
-/
structure St where
  sr : BitVec 32
  dier : BitVec 32
  ops : List Op
  log : List Obs
deriving DecidableEq, Repr

/-- After reset: registers zero, before main.c 137. -/
def init : St := ⟨0#32, 0#32, [], []⟩

/-- The steps of a block. stm32f7xx_hal_tim.c 3959-3971. -/
def ofBlock (b : Block) : List Op := [.flag b, .source b, .clear b, .call b]

/-- The steps of the handler. stm32f7xx_hal_tim.c 3834-4022. -/
def program : List Op := blocks.flatMap ofBlock

/-- What can happen. stm32f7xx_hal_tim.c 269-322, 462-497, 3834-4022. -/
inductive Ev where
  /-- the counter runs over -/
  | overflow
  /-- the timer sets other flags (a compare register matches, whether used or not) -/
  | flags (f : BitVec 32)
  /-- `HAL_TIM_Base_Init` writes `TIM_EGR_UG` (6975), which is an update event -/
  | configure
  /-- `HAL_TIM_Base_Start_IT` sets `TIM_DIER_UIE` (479) -/
  | enable
  /-- the processor takes the interrupt -/
  | take
  /-- the running handler does a step -/
  | go
deriving DecidableEq, Repr

/-- One event.  The interrupt may be taken whenever the handler is not running, also without need.  `SR` keeps the bits
that are written as one. stm32f7xx_hal_tim.c 269-322, 462-497, 3834-4022. -/
def step (s : St) : Ev → St
  | .overflow => { s with sr := s.sr ||| 0x1#32, log := .update :: s.log }
  | .flags f => { s with sr := s.sr ||| (f &&& ~~~0x1#32) }
  | .configure => { s with sr := s.sr ||| 0x1#32, log := .update :: s.log }
  | .enable => { s with dier := s.dier ||| 0x1#32 }
  | .take =>
    match s.ops with
    | [] => { s with ops := program }
    | _ :: _ => s
  | .go =>
    match s.ops with
    | [] => s
    | .flag b :: l => if s.sr &&& b.flag = b.flag then { s with ops := l } else { s with ops := l.drop 3 }
    | .source b :: l => if s.dier &&& b.source = b.source then { s with ops := l } else { s with ops := l.drop 2 }
    | .clear b :: l => { s with sr := s.sr &&& ~~~b.clear, ops := l }
    | .call b :: l => { s with ops := l, log := .call b.cb :: s.log }

/-- A sequence of events. stm32f7xx_hal_tim.c 3834-4022. -/
def run (s : St) : List Ev → St
  | [] => s
  | e :: l => run (step s e) l

/-- Does the timer ask for its interrupt? A flag in `SR` with its enable bit in `DIER`; both break flags have the same.
stm32f7xx_hal_tim.c 3834-4022. -/
def asks (s : St) : Bool := blocks.any fun b => decide (s.sr &&& b.flag = b.flag) && decide (s.dier &&& b.source = b.source)

/-- What the processor does next when the timer does nothing: the running handler goes on, else a pending interrupt is
taken. stm32f7xx_it.c 314, 328, 342. -/
def next (s : St) : Option Ev :=
  match s.ops with
  | _ :: _ => some .go
  | [] => if asks s then some .take else none

/-- `k` such events. stm32f7xx_hal_tim.c 3834-4022. -/
def serve : Nat → St → St
  | 0, s => s
  | k + 1, s =>
    match next s with
    | some e => serve k (step s e)
    | none => s

/-- The tasks notified by the callbacks so far (latest first in the log, oldest first in the result):
`HAL_TIM_PeriodElapsedCallback` (main.c 1053-1067) passes the timer on to the task timer (interrupts.c 22-29).  The other
callbacks are the empty ones of the vendor library (stm32f7xx_hal_tim.c 5824-5906, stm32f7xx_hal_tim_ex.c 2322-2374).  The timer is `inst`. -/
def notified (t : TaskTimer.St) (inst : Nat) : List Obs → C (List Nat)
  | [] => .ok []
  | .call .period :: l => do
    let before ← notified t inst l
    let now ← TaskTimer.callback t inst
    .ok (before ++ now)
  | _ :: l => notified t inst l

end Verif.TimIrq
