import Verif.Model.Vectors

set_option autoImplicit false

/-!
# Which interrupt belongs to which device, and how urgent it is
-/

namespace Verif.Vectors.Spec

open Verif.Vectors

/-- The requests behind the positions of the vector table, for the kinds of devices the firmware uses
(reference manual, vector table of the STM32F76x). -/
def sources : Nat → List Dev
  | 6 => [.line 0]
  | 7 => [.line 1]
  | 8 => [.line 2]
  | 9 => [.line 3]
  | 10 => [.line 4]
  | 11 => [.stream ⟨false, 0⟩]
  | 12 => [.stream ⟨false, 1⟩]
  | 13 => [.stream ⟨false, 2⟩]
  | 14 => [.stream ⟨false, 3⟩]
  | 15 => [.stream ⟨false, 4⟩]
  | 16 => [.stream ⟨false, 5⟩]
  | 17 => [.stream ⟨false, 6⟩]
  | 19 => [.can 1 .tx]
  | 20 => [.can 1 .rx0]
  | 21 => [.can 1 .rx1]
  | 22 => [.can 1 .sce]
  | 23 => [.line 5, .line 6, .line 7, .line 8, .line 9]
  | 25 => [.tim 1, .tim 10]
  | 28 => [.tim 2]
  | 29 => [.tim 3]
  | 30 => [.tim 4]
  | 37 => [.usart 1]
  | 38 => [.usart 2]
  | 39 => [.usart 3]
  | 40 => [.line 10, .line 11, .line 12, .line 13, .line 14, .line 15]
  | 47 => [.stream ⟨false, 7⟩]
  | 50 => [.tim 5]
  | 52 => [.usart 4]
  | 53 => [.usart 5]
  | 56 => [.stream ⟨true, 0⟩]
  | 57 => [.stream ⟨true, 1⟩]
  | 58 => [.stream ⟨true, 2⟩]
  | 59 => [.stream ⟨true, 3⟩]
  | 60 => [.stream ⟨true, 4⟩]
  | 63 => [.can 2 .tx]
  | 64 => [.can 2 .rx0]
  | 65 => [.can 2 .rx1]
  | 66 => [.can 2 .sce]
  | 68 => [.stream ⟨true, 5⟩]
  | 69 => [.stream ⟨true, 6⟩]
  | 70 => [.stream ⟨true, 7⟩]
  | 71 => [.usart 6]
  | 104 => [.can 3 .tx]
  | 105 => [.can 3 .rx0]
  | 106 => [.can 3 .rx1]
  | 107 => [.can 3 .sce]
  | _ => []

/-- What the firmware wants to hear of: the shutdown circuit and the IMU, the nine DMA streams, the
traffic of three CANs, the three timers and the three serial ports. -/
def used : List Dev :=
  [.line 4, .line 9, .line 10, .line 14, .line 15,
   .stream ⟨false, 1⟩, .stream ⟨false, 2⟩, .stream ⟨false, 3⟩, .stream ⟨false, 4⟩,
   .stream ⟨true, 0⟩, .stream ⟨true, 1⟩, .stream ⟨true, 2⟩, .stream ⟨true, 6⟩, .stream ⟨true, 7⟩,
   .can 1 .tx, .can 1 .rx0, .can 1 .rx1, .can 2 .tx, .can 2 .rx0, .can 2 .rx1,
   .can 3 .tx, .can 3 .rx0, .can 3 .rx1,
   .tim 1, .tim 2, .tim 3, .usart 1, .usart 3, .usart 6]

/-- The part of the chip a request comes from: the requests of one CAN come from one part. -/
def part : Dev → Dev
  | .can n _ => .can n .tx
  | d => d

/-- Whether interrupt `n` is enabled. -/
def enabled (s : Nvic) (n : Nat) : Bool := (s.en (n / 32)).getLsbD (n % 32)

/-- The level at which interrupt `n` preempts: the bits of its priority above the binary point that
`PRIGROUP` sets (ARMv7-M, B1.5.4), as a number of four bits. -/
def level (s : Nvic) (n : Nat) : Nat := (s.ip n).toNat / 2 ^ ((prigroup s).toNat + 1)

/-- The levels C101 and the other models of interrupts assume, in the order of `Critical.irqs`. -/
def levels : List (Irq × Nat) :=
  [(.DMA1_Stream1, 6), (.DMA1_Stream2, 0), (.DMA1_Stream3, 6), (.DMA1_Stream4, 0), (.DMA2_Stream0, 6),
   (.DMA2_Stream1, 6), (.DMA2_Stream2, 6), (.DMA2_Stream6, 6), (.DMA2_Stream7, 6),
   (.EXTI4, 6), (.EXTI9_5, 6), (.EXTI15_10, 6),
   (.CAN1_TX, 6), (.CAN1_RX0, 6), (.CAN1_RX1, 6), (.CAN2_TX, 6), (.CAN2_RX0, 6), (.CAN2_RX1, 6),
   (.CAN3_TX, 6), (.CAN3_RX0, 6), (.CAN3_RX1, 6),
   (.TIM1_UP_TIM10, 0), (.TIM2, 5), (.TIM3, 5), (.USART1, 7), (.USART3, 7), (.USART6, 7)]

/-- The controller after reset: nothing enabled, all priorities zero. -/
def reset (aircr : BitVec 32) : Nvic := ⟨aircr, fun _ => 0#32, fun _ => 0#8⟩

end Verif.Vectors.Spec
