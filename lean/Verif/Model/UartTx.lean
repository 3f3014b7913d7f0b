import Verif.C.Basic

set_option autoImplicit false

/-!
# Sending on a serial port, instruction by instruction

`UART_SendMessage` (system-lib/uart/uart.c 227-264), `HAL_UART_TxCpltCallback` (101-132),
`HAL_UART_Transmit_DMA` (stm32f7xx_hal_uart.c 1344-1400), `HAL_DMA_Start_IT` (stm32f7xx_hal_dma.c
453-502), the handler of the sending DMA stream (751-962) with `UART_DMATransmitCplt`
(stm32f7xx_hal_uart.c 3381-3407), and the sending part of `HAL_UART_IRQHandler` (2126-2130, 2418-2423) with
`UART_EndTransmit_IT` (3819-3838).

The task is interrupted by the handler of the port (level 7), and both by the handler of the stream (level 6).
Therefore the steps of the task and of the port's handler are taken one by one, those of the stream's handler
at once.

Simplifications:
* the bytes are left out (C28 has them), of a message only its length matters here;
* whether the pending stream buffer is empty, and how many bytes are taken out of it, is a free input;
* the wait for room in that buffer (uart.c 245) is one step;
* whatever `HAL_UART_IRQHandler` does for reception is one step that leaves the sending side alone, except that
  `HAL_UART_ErrorCallback` clears `txInProgress` (uart.c 146), which may happen at any time;
* bus errors of the stream and its FIFO errors are left out, and the half-way interrupt, whose callback is empty;
* changing some bits of a register is one step (the port's registers: `ATOMIC_SET_BIT`, stm32f7xx.h 199-206);
* `isEnabled` is true.
-/

namespace Verif.UartTx

/-- Registers and variables. stm32f7xx_hal_uart.h 211-276, stm32f7xx_hal_dma.h 137-167. -/
structure Regs where
  /-- `NDTR` of the stream: bytes still to be moved. -/
  left : Nat
  /-- `EN` of the stream. -/
  en : Bool
  /-- `TCIE` of the stream. -/
  dtcie : Bool
  /-- The stream's flag `TCIF`. -/
  tcif : Bool
  /-- The stream's interrupt is disabled (uart.c 241, 261). -/
  masked : Bool
  /-- `DMAT` of the port: it asks the stream for bytes. -/
  dmat : Bool
  /-- `TCIE` of the port. -/
  tcie : Bool
  /-- The port's flag `TC`: nothing left to shift out. -/
  tc : Bool
  /-- `hdma->State` is `HAL_DMA_STATE_BUSY` rather than `HAL_DMA_STATE_READY`. -/
  dmaBusy : Bool
  /-- `hdma->Lock`. -/
  lock : Bool
  /-- `huart->gState` is `HAL_UART_STATE_BUSY_TX` rather than `HAL_UART_STATE_READY`. -/
  busy : Bool
  /-- `txInProgress` (uart.c 39). -/
  inProgress : Bool
deriving DecidableEq, Repr

/-- Inside `HAL_UART_Transmit_DMA`: the next statement. stm32f7xx_hal_uart.c 1344-1400. -/
inductive Tx where
  /-- `if (huart->gState == HAL_UART_STATE_READY)` (1347) and the length (1349) -/
  | test
  /-- `huart->gState = HAL_UART_STATE_BUSY_TX` (1359) -/
  | setBusy
  /-- `__HAL_LOCK(hdma)`, the test (stm32f7xx_hal_dma.c 464) -/
  | lockTest
  /-- `__HAL_LOCK(hdma)`, the assignment (464) -/
  | lock
  /-- `if(HAL_DMA_STATE_READY == hdma->State)` (466) -/
  | stateTest
  /-- `hdma->State = HAL_DMA_STATE_BUSY` (469) -/
  | setDma
  /-- `DMA_SetConfig` (475): `hdma->Instance->NDTR = DataLength` -/
  | config
  /-- `regs->IFCR = 0x3FU << hdma->StreamIndex` (478) -/
  | clearFlags
  /-- `hdma->Instance->CR |= DMA_IT_TC | ...` (481-487) -/
  | enableIrq
  /-- `__HAL_DMA_ENABLE(hdma)` (490) -/
  | enable
  /-- `__HAL_UART_CLEAR_FLAG(huart, UART_CLEAR_TCF)` (stm32f7xx_hal_uart.c 1388) -/
  | clearTc
  /-- `ATOMIC_SET_BIT(huart->Instance->CR3, USART_CR3_DMAT)` (1392) -/
  | request
  /-- `__HAL_UNLOCK(hdma)` when the stream is not ready (stm32f7xx_hal_dma.c 495) -/
  | unlock
  /-- `huart->gState = HAL_UART_STATE_READY` (stm32f7xx_hal_uart.c 1382) -/
  | failReady
deriving DecidableEq, Repr

/-- Where a step of `HAL_UART_Transmit_DMA` leads. stm32f7xx_hal_uart.c 1344-1400. -/
inductive Next where
  | go (p : Tx)
  /-- `HAL_OK` -/
  | ok
  /-- `HAL_BUSY` or `HAL_ERROR` -/
  | fail
deriving DecidableEq, Repr

/-- One step of `HAL_UART_Transmit_DMA` for `n` bytes. stm32f7xx_hal_uart.c 1344-1400, stm32f7xx_hal_dma.c 453-502. -/
def txStep (n : Nat) (r : Regs) : Tx → Regs × Next
  | .test => (r, if r.busy then .fail else if n = 0 then .fail else .go .setBusy)
  | .setBusy => ({ r with busy := true }, .go .lockTest)
  | .lockTest => (r, .go (if r.lock then .failReady else .lock))
  | .lock => ({ r with lock := true }, .go .stateTest)
  | .stateTest => (r, .go (if r.dmaBusy then .unlock else .setDma))
  | .setDma => ({ r with dmaBusy := true }, .go .config)
  | .config => ({ r with left := n }, .go .clearFlags)
  | .clearFlags => ({ r with tcif := false }, .go .enableIrq)
  | .enableIrq => ({ r with dtcie := true }, .go .enable)
  | .enable => ({ r with en := true }, .go .clearTc)
  | .clearTc => ({ r with tc := false }, .go .request)
  | .request => ({ r with dmat := true }, .ok)
  | .unlock => ({ r with lock := false }, .go .failReady)
  | .failReady => ({ r with busy := false }, .fail)

/-- The task: the next statement of `UART_SendMessage`. uart.c 227-262. -/
inductive Task where
  /-- outside -/
  | out
  /-- `if (uartInfo->txInProgress)` (243), after `HAL_NVIC_DisableIRQ` (241) -/
  | check (n : Nat)
  /-- `xStreamBufferSend` (245) -/
  | queue
  /-- `uartInfo->txInProgress = true` (248) and the copy (249) -/
  | mark (n : Nat)
  /-- in `HAL_UART_Transmit_DMA` (251) -/
  | tx (n : Nat) (p : Tx)
  /-- `uartInfo->txInProgress = false` (253) -/
  | undo
  /-- `HAL_NVIC_EnableIRQ` (261) -/
  | unmask
deriving DecidableEq, Repr

/-- The handler of the port: the next statement of `HAL_UART_IRQHandler`. stm32f7xx_hal_uart.c 2126-2130, 2418-2423.
-/
inductive Isr where
  /-- not running -/
  | out
  /-- `isrflags = READ_REG(huart->Instance->ISR)` (2128) -/
  | readIsr
  /-- `cr1its = READ_REG(huart->Instance->CR1)` (2129); `tc` as read -/
  | readCr1 (tc : Bool)
  /-- reception (2132-2407), then the test (2419); `tc` and `TCIE` as read -/
  | branch (tc tcie : Bool)
  /-- `ATOMIC_CLEAR_BIT(huart->Instance->CR1, USART_CR1_TCIE)` (3822) -/
  | clearTcie
  /-- `huart->gState = HAL_UART_STATE_READY` (3825) -/
  | ready
  /-- `HAL_UART_TxCpltCallback` (3835; uart.c 117) -/
  | callback
  /-- in `HAL_UART_Transmit_DMA` (uart.c 124) -/
  | tx (n : Nat) (p : Tx)
  /-- `uartInfo->txInProgress = false` (uart.c 118, 128) -/
  | clear
deriving DecidableEq, Repr

/-- State; `started` counts the calls of `HAL_UART_Transmit_DMA` that returned `HAL_OK`, `refused` the
others, `completed` the calls of `HAL_UART_TxCpltCallback`. stm32f7xx_hal_uart.c 1344-1400, uart.c 101-132. -/
structure St where
  r : Regs
  task : Task
  isr : Isr
  started : Nat
  refused : Nat
  completed : Nat
deriving DecidableEq, Repr

/-- What happens next. uart.c 227-262, stm32f7xx_hal_uart.c 2418-2423. -/
inductive Ev where
  /-- the next step of the task; `n` is the length when a call begins -/
  | task (n : Nat)
  /-- the next step of the port's handler, or its entry; `rx`: reception makes it return before the sending
  part; `n`: bytes taken out of the pending buffer by the callback, zero if it is empty -/
  | port (rx : Bool) (n : Nat)
  /-- the stream's handler, if its interrupt is pending and enabled -/
  | dma
  /-- the stream moves a byte to the port -/
  | byte
  /-- the port has shifted out everything it has -/
  | line
  /-- `HAL_UART_ErrorCallback` after an error in reception (uart.c 146) -/
  | noise
deriving DecidableEq, Repr

/-- One step of `UART_SendMessage`. uart.c 227-262. -/
def taskStep (s : St) (n : Nat) : St :=
  match s.task with
  | .out => { s with r := { s.r with masked := true }, task := .check n }
  | .check m => { s with task := if s.r.inProgress then .queue else .mark m }
  | .queue => { s with task := .unmask }
  | .mark m => { s with r := { s.r with inProgress := true }, task := .tx m .test }
  | .tx m p =>
    match txStep m s.r p with
    | (r, .go q) => { s with r := r, task := .tx m q }
    | (r, .ok) => { s with r := r, task := .unmask, started := s.started + 1 }
    | (r, .fail) => { s with r := r, task := .undo, refused := s.refused + 1 }
  | .undo => { s with r := { s.r with inProgress := false }, task := .unmask }
  | .unmask => { s with r := { s.r with masked := false }, task := .out }

/-- One step of the port's handler. stm32f7xx_hal_uart.c 2418-2423, 3819-3838. -/
def portStep (s : St) (rx : Bool) (n : Nat) : St :=
  match s.isr with
  | .out => { s with isr := .readIsr }
  | .readIsr => { s with isr := .readCr1 s.r.tc }
  | .readCr1 a => { s with isr := .branch a s.r.tcie }
  | .branch a b => { s with isr := if rx then .out else if a && b then .clearTcie else .out }
  | .clearTcie => { s with r := { s.r with tcie := false }, isr := .ready }
  | .ready => { s with r := { s.r with busy := false }, isr := .callback }
  | .callback => { s with isr := if n = 0 then .clear else .tx n .test, completed := s.completed + 1 }
  | .tx m p =>
    match txStep m s.r p with
    | (r, .go q) => { s with r := r, isr := .tx m q }
    | (r, .ok) => { s with r := r, isr := .out, started := s.started + 1 }
    | (r, .fail) => { s with r := r, isr := .clear, refused := s.refused + 1 }
  | .clear => { s with r := { s.r with inProgress := false }, isr := .out }

/-- The stream's interrupt is taken. stm32f7xx_hal_dma.c 849-852. -/
def dmaPending (r : Regs) : Bool := r.tcif && r.dtcie && !r.masked

/-- The stream's handler: `TCIF` and `TCIE` cleared, the stream ready and unlocked (stm32f7xx_hal_dma.c 855-929),
then `UART_DMATransmitCplt`: `DMAT` off, the port's `TCIE` on (stm32f7xx_hal_uart.c 3392, 3395). -/
def dmaIsr (r : Regs) : Regs :=
  { r with tcif := false, dtcie := false, dmaBusy := false, lock := false, dmat := false, tcie := true }

/-- The stream moves a byte when the port asks for one; writing it clears `TC`; after the last byte `EN` falls
and `TCIF` rises (reference manual RM0410, 8.3.17 and 34.5.2). Hardware, for stm32f7xx_hal_uart.c 1344-1400. -/
def moveByte (r : Regs) : Regs :=
  if r.en && r.dmat then
    match r.left with
    | 0 => r
    | n + 1 => { r with left := n, tc := false, en := decide (n ≠ 0), tcif := r.tcif || decide (n = 0) }
  else r

/-- One event.  The task only runs when the port's handler does not. uart.c 227-262, stm32f7xx_hal_uart.c 2418-2423.
-/
def step (s : St) : Ev → St
  | .task n => if s.isr = .out then taskStep s n else s
  | .port rx n => portStep s rx n
  | .dma => if dmaPending s.r then { s with r := dmaIsr s.r } else s
  | .byte => { s with r := moveByte s.r }
  | .line => { s with r := { s.r with tc := true } }
  | .noise => { s with r := { s.r with inProgress := false } }

/-- After `UART_Config` (uart.c 167-204) and the initialisation of port and stream. -/
def boot : St where
  r := { left := 0, en := false, dtcie := false, tcif := false, masked := false, dmat := false, tcie := false,
         tc := true, dmaBusy := false, lock := false, busy := false, inProgress := false }
  task := .out
  isr := .out
  started := 0
  refused := 0
  completed := 0

/-- A history. uart.c 227-262, stm32f7xx_hal_uart.c 2418-2423. -/
def run (s : St) (es : List Ev) : St := es.foldl step s

end Verif.UartTx
