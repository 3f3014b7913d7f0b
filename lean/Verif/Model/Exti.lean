import Verif.Model.Vectors

set_option autoImplicit false

/-!
# The external interrupt lines and their handlers

`HAL_GPIO_EXTI_IRQHandler` (stm32f7xx_hal_gpio.c 485-493) in the handlers of stm32f7xx_it.c, step by
step, with edges on the pins arriving between any two steps.
-/

namespace Verif.Exti

open Verif.Vectors

/-- The lines whose rising edge sets their bit in `EXTI->PR` (main.c 993, 1019, 1025; C124_lines). -/
def rising : List Nat := [4, 9, 10, 14, 15]

/-- A step of a handler: the test of `EXTI->PR` (stm32f7xx_hal_gpio.c 488), the write that clears the
bit (490), the call of `HAL_GPIO_EXTI_Callback` (491). -/
inductive Op where
  | test (p : Nat)
  | clear (p : Nat)
  | call (p : Nat)
deriving DecidableEq, Repr

/-- What was seen from outside. Edges (main.c 993, 1019, 1025) and callbacks (stm32f7xx_hal_gpio.c 491). -/
inductive Obs where
  | edge (p : Nat)
  | call (p : Nat)
deriving DecidableEq, Repr

/-- `EXTI->PR`; the steps left of the running handler (the three handlers have the same priority, so
that none interrupts another; C127); what has happened, latest first. stm32f7xx_it.c 188, 300, 384-386. -/
structure St where
  pr : BitVec 32
  ops : List Op
  log : List Obs
deriving DecidableEq, Repr

/-- After reset. `EXTI->PR` before main.c 137. -/
def init : St := ⟨0#32, [], []⟩

/-- The steps of a handler (stm32f7xx_it.c 188, 300, 384-386). -/
def program (i : Irq) : List Op :=
  match body i with
  | some calls => calls.flatMap (fun c => match c with
      | .gpio p => [.test p, .clear p, .call p]
      | _ => [])
  | none => []

/-- The mask of a pin (`GPIO_PIN_x`, stm32f7xx_hal_gpio.h 85-100). -/
def pinMask (p : Nat) : BitVec 32 := 1#32 <<< p

/-- What can happen: an edge on line `p`; the processor takes one of the three interrupts; the running
handler does a step. stm32f7xx_it.c 188, 300, 384-386. -/
inductive Ev where
  | edge (p : Nat)
  | take (i : Irq)
  | go
deriving DecidableEq, Repr

/-- One event. An interrupt may be taken whenever no handler runs, also without need: the controller
remembers a request that has gone. `EXTI->PR` clears the bits that are written as one. stm32f7xx_hal_gpio.c 485-493.
-/
def step (s : St) : Ev → St
  | .edge p => if p ∈ rising then { s with pr := s.pr ||| pinMask p, log := .edge p :: s.log } else s
  | .take i =>
      match s.ops with
      | [] => if i = .EXTI4 ∨ i = .EXTI9_5 ∨ i = .EXTI15_10 then { s with ops := program i } else s
      | _ :: _ => s
  | .go =>
      match s.ops with
      | [] => s
      | .test p :: l => if s.pr &&& pinMask p ≠ 0#32 then { s with ops := l } else { s with ops := l.drop 2 }
      | .clear p :: l => { s with pr := s.pr &&& ~~~pinMask p, ops := l }
      | .call p :: l => { s with ops := l, log := .call p :: s.log }

/-- A sequence of events. stm32f7xx_hal_gpio.c 485-493. -/
def run (s : St) : List Ev → St
  | [] => s
  | e :: l => run (step s e) l

/-- The lines of an interrupt that ask for it. stm32f7xx_it.c 188, 300, 384-386. -/
def asks (s : St) (lines : List Nat) : Bool := lines.any (fun p => s.pr.getLsbD p)

/-- What the processor does next when no edge arrives: the running handler goes on, else the pending
interrupt with the lowest number is taken (ARMv7-M: among equal priorities the lowest number). stm32f7xx_it.c 188, 300, 384-386. -/
def next (s : St) : Option Ev :=
  match s.ops with
  | _ :: _ => some .go
  | [] =>
    if asks s [4] then some (.take .EXTI4)
    else if asks s [5, 6, 7, 8, 9] then some (.take .EXTI9_5)
    else if asks s [10, 11, 12, 13, 14, 15] then some (.take .EXTI15_10)
    else none

/-- `k` such events. stm32f7xx_hal_gpio.c 485-493. -/
def serve : Nat → St → St
  | 0, s => s
  | k + 1, s => match next s with
    | some e => serve k (step s e)
    | none => s

end Verif.Exti
