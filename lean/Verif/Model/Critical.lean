import Verif.C.Basic

set_option autoImplicit false

/-!
# Interrupt priorities and kernel critical sections

The Cortex-M7 port of the kernel (Lib/FreeRTOS/Source/portable/GCC/ARM_CM7/r0p1: port.c,
portmacro.h) and the interrupt priorities of the firmware (Core/Src/main.c,
stm32f7xx_hal_msp.c). Lower numbers are more urgent; all four priority bits are preemption
bits. Priorities are numbers 0 to 15 here; in the registers they are shifted by four bits
(FreeRTOSConfig.h 114-117), which changes no comparison. The workaround `cpsid i`/`cpsie i`
around writes to BASEPRI (portmacro.h 191-231) makes the write atomic. Tail-chaining and
pending order of interrupts are left open: any interrupt may come at any time the processor
would take it.
-/

namespace Verif.Critical

/-- An interrupt: its name, its priority, whether it is one of the kernel's own two, and whether
its handler calls the kernel. Filled in at `irqs` from main.c and stm32f7xx_hal_msp.c. -/
structure Irq where
  name : String
  prio : Nat
  own : Bool
  calls : Bool
deriving DecidableEq, Repr

/-- `configLIBRARY_MAX_SYSCALL_INTERRUPT_PRIORITY` (FreeRTOSConfig.h 110). -/
def maxSyscall : Nat := 5

/-- The enabled interrupts with their priorities, and whether their handlers lead to a kernel
call.

* Kernel: PendSV and SysTick, both at the lowest priority (port.c 350-351; FreeRTOSConfig.h 104).
* DMA1_Stream1, Stream3 (USART3), DMA2_Stream1, Stream6 (USART6), Stream2, Stream7 (USART1):
  main.c 860, 866, 875, 881, 878, 884. The receive streams lead to
  `HAL_UARTEx_RxEventCallback` (uart.c 72-94), the transmit streams only to the enabling of the
  USART interrupt, or to `HAL_UART_ErrorCallback` (uart.c 134), which calls nothing.
* DMA1_Stream2, Stream4 (I2C2): main.c 863, 869, priority 0. Their handlers end in the HAL
  (stm32f7xx_hal_i2c.c 6437-6558), which then waits for the I2C event interrupt; that one is
  not enabled.
* DMA2_Stream0 (ADC): main.c 872; the callbacks copy samples (adc.c 207-261).
* EXTI4, EXTI9_5, EXTI15_10: main.c 1030-1037; `SDC_IRQHandler` notifies a task (sdc.c 121).
* CAN1..3 TX, RX0, RX1: stm32f7xx_hal_msp.c 254-325; can.c 64-190.
* TIM2, TIM3: stm32f7xx_hal_msp.c 703, 717; tasktimer.c 119, wheelspeed.c 226.
* TIM1: the HAL's millisecond tick (stm32f7xx_hal_timebase_tim.c 86-91, `TICK_INT_PRIORITY` 0,
  stm32f7xx_hal_conf.h 149). Its callback is the same function as for TIM2 and TIM3 (main.c
  1053-1066), which compares the timer instance first (tasktimer.c 104, wheelspeed.c 211).
* USART1, USART3, USART6: stm32f7xx_hal_msp.c 843, 917, 999; uart.c 72-132. -/
def irqs : List Irq :=
  [⟨"PendSV", 15, true, true⟩, ⟨"SysTick", 15, true, true⟩,
   ⟨"DMA1_Stream1", 6, false, true⟩, ⟨"DMA1_Stream2", 0, false, false⟩, ⟨"DMA1_Stream3", 6, false, false⟩,
   ⟨"DMA1_Stream4", 0, false, false⟩, ⟨"DMA2_Stream0", 6, false, false⟩, ⟨"DMA2_Stream1", 6, false, true⟩,
   ⟨"DMA2_Stream2", 6, false, true⟩, ⟨"DMA2_Stream6", 6, false, false⟩, ⟨"DMA2_Stream7", 6, false, false⟩,
   ⟨"EXTI4", 6, false, true⟩, ⟨"EXTI9_5", 6, false, true⟩, ⟨"EXTI15_10", 6, false, true⟩,
   ⟨"CAN1_TX", 6, false, true⟩, ⟨"CAN1_RX0", 6, false, true⟩, ⟨"CAN1_RX1", 6, false, true⟩,
   ⟨"CAN2_TX", 6, false, true⟩, ⟨"CAN2_RX0", 6, false, true⟩, ⟨"CAN2_RX1", 6, false, true⟩,
   ⟨"CAN3_TX", 6, false, true⟩, ⟨"CAN3_RX0", 6, false, true⟩, ⟨"CAN3_RX1", 6, false, true⟩,
   ⟨"TIM1_UP_TIM10", 0, false, false⟩, ⟨"TIM2", 5, false, true⟩, ⟨"TIM3", 5, false, true⟩,
   ⟨"USART1", 7, false, true⟩, ⟨"USART3", 7, false, true⟩, ⟨"USART6", 7, false, true⟩]

/-- An active handler; `saved` are the masks it found when it entered its sections, innermost
first: kernel calls for handlers nest (stream_buffer.c 113-126 around `xTaskNotifyFromISR`). -/
structure Act where
  irq : Irq
  saved : List Nat
deriving DecidableEq, Repr

/-- The processor: BASEPRI (0: nothing masked), `uxCriticalNesting` (port.c 140), the active
handlers with the running one first. With none active a task is running. -/
structure St where
  basepri : Nat
  nesting : Nat
  active : List Act
deriving DecidableEq, Repr

/-- The first task has been started (`xPortStartScheduler`, port.c 358, sets the nesting to zero; `prvPortStartFirstTask` clears the mask). -/
def start : St := ⟨0, 0, []⟩

/-- The processor takes an interrupt when it is more urgent than the running handler and not
masked (ARMv7-M, execution priority). With BASEPRI as written in portmacro.h 191-231. -/
def takes (s : St) (i : Irq) : Bool :=
  (s.basepri == 0 || i.prio < s.basepri) && (match s.active with | [] => true | a :: _ => i.prio < a.irq.prio)

/-- What can happen.

* `irq i`: interrupt `i` becomes pending.
* `ret`: the running handler returns.
* `enter`, `exit`: the running context calls `vPortEnterCritical`, `vPortExitCritical`.
* `raise`, `restore`: the running handler calls `portASSERT_IF_INTERRUPT_PRIORITY_INVALID` and
`portSET_INTERRUPT_MASK_FROM_ISR`, and then `portCLEAR_INTERRUPT_MASK_FROM_ISR`. port.c 391-416, portmacro.h
191-231. -/
inductive Ev where
  | irq (i : Irq)
  | ret
  | enter
  | exit
  | raise
  | restore
deriving DecidableEq, Repr

/-- One event.

* `irq`: nothing happens yet when the interrupt is masked or not urgent enough.
* `enter` (port.c 391-405), `exit` (408-416).
* `raise`: `vPortValidateInterruptPriority` (707-760), then `ulPortRaiseBASEPRI` (portmacro.h
  209-228). The kernel's own handlers raise the mask without the check (port.c 441, 484). In
  a task the calls do not occur (queue.c, stream_buffer.c, tasks.c call them in functions ending
  in `FromISR` only); here they do nothing. The outer section of a stream buffer's notification
  is entered without the check (stream_buffer.c 115); here every entry checks.
* `restore`: `vPortSetBASEPRI` with the saved value (portmacro.h 231); the kernel's own handlers
  write 0 (port.c 446-447, 494). -/
def step (s : St) : Ev → C St
  | .irq i => if takes s i then .ok { s with active := ⟨i, []⟩ :: s.active } else .ok s
  | .ret =>
    match s.active with
    | [] => .ok s
    | _ :: as => .ok { s with active := as }
  | .enter =>
    if s.nesting + 1 = 1 ∧ s.active ≠ [] then .error .assertFail
    else .ok { s with basepri := maxSyscall, nesting := s.nesting + 1 }
  | .exit =>
    if s.nesting = 0 then .error .assertFail
    else .ok { s with basepri := if s.nesting - 1 = 0 then 0 else s.basepri, nesting := s.nesting - 1 }
  | .raise =>
    match s.active with
    | [] => .ok s
    | a :: as =>
      if a.irq.own = false ∧ a.irq.prio < maxSyscall then .error .assertFail
      else .ok { s with basepri := maxSyscall, active := ⟨a.irq, s.basepri :: a.saved⟩ :: as }
  | .restore =>
    match s.active with
    | [] => .ok s
    | a :: as =>
      match a.saved with
      | [] => .ok s
      | b :: bs => .ok { s with basepri := if a.irq.own then 0 else b, active := ⟨a.irq, bs⟩ :: as }

/-- A history. port.c 391-416, portmacro.h 191-231. -/
def run : St → List Ev → C St
  | s, [] => .ok s
  | s, e :: es =>
    match step s e with
    | .error u => .error u
    | .ok s' => run s' es

end Verif.Critical
