import Verif.C.Basic

set_option autoImplicit false

/-!
# Reception on a serial port, instruction by instruction where it matters

`HAL_UARTEx_ReceiveToIdle_DMA` (stm32f7xx_hal_uart_ex.c 677-722), the receiving part of
`HAL_UART_IRQHandler` (stm32f7xx_hal_uart.c 2126-2425), the handler of the receiving DMA stream
(stm32f7xx_hal_dma.c 751-962) and the callbacks of system-lib/uart/uart.c 72-94 and 134-149.

The handler of the serial port runs at level 7, that of its stream at level 6: the stream interrupts the
port, the port interrupts the task that configures it, and not the other way round.  Therefore the
steps of the port's handler and of the task are taken one by one, those of the stream's handler at once.

Simplifications:
* the bytes are left out, and of the stream's counter only what the program asks: whether it is strictly
  between zero and the length asked for is a free input;
* an error or a silent line may be seen by any entry of the port's handler, so the flags themselves are
  left out: which of them the handler sees is a free input;
* bus errors of the stream, its FIFO errors, and the expiry of `HAL_TIMEOUT_DMA_ABORT` are left out;
* changing some bits of a register of the stream is one step;
* what happens in the hardware during the stream's handler is taken to happen after it;
* the parity interrupt is never used (`UART_PARITY_NONE`, main.c 762, 797, 832);
* the assignment of `ErrorCode` after a callback for an error that does not stop the reception
  (stm32f7xx_hal_uart.c 2281) is dropped, as every later look at it comes after a new assignment;
* `isEnabled` is true from before the first start (uart.c 197).
-/

namespace Verif.UartRx

/-- `hdma->State` (stm32f7xx_hal_dma.h 101-109); the others are not used here. -/
inductive Dma where
  | ready
  | busy
  | abort
deriving DecidableEq, Repr

/-- Registers and variables. stm32f7xx_hal_uart.h 211-276, stm32f7xx_hal_dma.h 137-167. -/
structure Regs where
  /-- `EN` of the stream. -/
  en : Bool
  /-- `TCIE` of the stream. -/
  tcie : Bool
  /-- The stream's flag `TCIF`. -/
  tcif : Bool
  /-- `DMAR` of the port: received bytes ask for the stream. -/
  dmar : Bool
  /-- `EIE` of the port: line errors interrupt. -/
  eie : Bool
  /-- `IDLEIE` of the port: a silent line interrupts. -/
  idleie : Bool
  /-- `hdma->State`. -/
  dst : Dma
  /-- `hdma->Lock`. -/
  lock : Bool
  /-- `huart->RxState` is `HAL_UART_STATE_BUSY_RX` rather than `HAL_UART_STATE_READY`. -/
  rxBusy : Bool
  /-- `huart->ReceptionType` is `HAL_UART_RECEPTION_TOIDLE` rather than `..._STANDARD`. -/
  toIdle : Bool
  /-- `hdma->XferAbortCallback` is `UART_DMAAbortOnError` rather than `NULL`. -/
  abortCb : Bool
  /-- `huart->ErrorCode` is not `HAL_UART_ERROR_NONE`. -/
  errCode : Bool
deriving DecidableEq, Repr

/-- The steps of `HAL_UARTEx_ReceiveToIdle_DMA` and of what it calls. stm32f7xx_hal_uart_ex.c 678-722. -/
inductive Start where
  /-- `if (huart->RxState == HAL_UART_STATE_READY)` (stm32f7xx_hal_uart_ex.c 683) -/
  | test
  /-- `huart->ReceptionType = HAL_UART_RECEPTION_TOIDLE` (691) -/
  | setType
  /-- `huart->ErrorCode = HAL_UART_ERROR_NONE` (stm32f7xx_hal_uart.c 3288) -/
  | clearCode
  /-- `huart->RxState = HAL_UART_STATE_BUSY_RX` (3289) -/
  | setBusy
  /-- `huart->hdmarx->XferAbortCallback = NULL` (3303) -/
  | dropAbort
  /-- `__HAL_LOCK(hdma)`, the test (stm32f7xx_hal_dma.c 464) -/
  | lockTest
  /-- `__HAL_LOCK(hdma)`, the assignment (464) -/
  | lock
  /-- `if(HAL_DMA_STATE_READY == hdma->State)` (466) -/
  | stateTest
  /-- `hdma->State = HAL_DMA_STATE_BUSY` (469) -/
  | setDma
  /-- `regs->IFCR = 0x3FU << hdma->StreamIndex` (478) -/
  | clearFlags
  /-- `hdma->Instance->CR |= DMA_IT_TC | ...` (481-487) -/
  | enableIrq
  /-- `__HAL_DMA_ENABLE(hdma)` (490) -/
  | enable
  /-- `ATOMIC_SET_BIT(..., USART_CR3_EIE)` (stm32f7xx_hal_uart.c 3325) -/
  | errIrq
  /-- `ATOMIC_SET_BIT(..., USART_CR3_DMAR)` (3329) -/
  | request
  /-- `if (huart->ReceptionType == HAL_UART_RECEPTION_TOIDLE)` (stm32f7xx_hal_uart_ex.c 699) -/
  | typeTest
  /-- `ATOMIC_SET_BIT(..., USART_CR1_IDLEIE)` (702) -/
  | idleIrq
  /-- `__HAL_UNLOCK(hdma)` when the stream is not ready (stm32f7xx_hal_dma.c 495) -/
  | unlock
  /-- `huart->ErrorCode = HAL_UART_ERROR_DMA` (stm32f7xx_hal_uart.c 3309) -/
  | failCode
  /-- `huart->RxState = HAL_UART_STATE_READY` (3312) -/
  | failReady
deriving DecidableEq, Repr

/-- One step of `HAL_UARTEx_ReceiveToIdle_DMA`; `none`: it has returned. stm32f7xx_hal_uart_ex.c 678-722. -/
def startStep (r : Regs) : Start → Regs × Option Start
  | .test => (r, if r.rxBusy then none else some .setType)
  | .setType => ({ r with toIdle := true }, some .clearCode)
  | .clearCode => ({ r with errCode := false }, some .setBusy)
  | .setBusy => ({ r with rxBusy := true }, some .dropAbort)
  | .dropAbort => ({ r with abortCb := false }, some .lockTest)
  | .lockTest => (r, some (if r.lock then .failCode else .lock))
  | .lock => ({ r with lock := true }, some .stateTest)
  | .stateTest => (r, some (if r.dst = .ready then .setDma else .unlock))
  | .setDma => ({ r with dst := .busy }, some .clearFlags)
  | .clearFlags => ({ r with tcif := false }, some .enableIrq)
  | .enableIrq => ({ r with tcie := true }, some .enable)
  | .enable => ({ r with en := true }, some .errIrq)
  | .errIrq => ({ r with eie := true }, some .request)
  | .request => ({ r with dmar := true }, some .typeTest)
  | .typeTest => (r, if r.toIdle then some .idleIrq else none)
  | .idleIrq => ({ r with idleie := true }, none)
  | .unlock => ({ r with lock := false }, some .failCode)
  | .failCode => ({ r with errCode := true }, some .failReady)
  | .failReady => ({ r with rxBusy := false }, none)

/-- `n` steps of it. stm32f7xx_hal_uart_ex.c 678-722. -/
def startSteps : Nat → Regs → Start → Regs
  | 0, r, _ => r
  | n + 1, r, p => match startStep r p with
    | (r', some p') => startSteps n r' p'
    | (r', none) => r'

/-- All of it without interruption: sixteen steps at most. stm32f7xx_hal_uart_ex.c 678-722. -/
def startAll (r : Regs) : Regs := startSteps 16 r .test

/-- The steps of `HAL_UART_IRQHandler` (stm32f7xx_hal_uart.c), after the flags have been read. -/
inductive Pc where
  /-- `huart->ErrorCode |= ...` and the flags cleared (2157-2196) -/
  | noteError
  /-- `if (huart->ErrorCode != HAL_UART_ERROR_NONE)` (2199) -/
  | codeTest
  /-- Whether the error stops the reception: `DMAR` set, or an overrun (2216-2218) -/
  | blockTest
  /-- `ATOMIC_CLEAR_BIT(..., USART_CR3_EIE)` in `UART_EndRxTransfer` (3359) -/
  | endErr
  /-- `if (... TOIDLE) ATOMIC_CLEAR_BIT(..., USART_CR1_IDLEIE)` (3362-3365) -/
  | endIdle
  /-- `huart->RxState = HAL_UART_STATE_READY` (3368) -/
  | endReady
  /-- `huart->ReceptionType = HAL_UART_RECEPTION_STANDARD` (3369) -/
  | endType
  /-- `if (HAL_IS_BIT_SET(huart->Instance->CR3, USART_CR3_DMAR))` (2226) -/
  | reqTest
  /-- `ATOMIC_CLEAR_BIT(huart->Instance->CR3, USART_CR3_DMAR)` (2229) -/
  | reqOff
  /-- `XferAbortCallback = UART_DMAAbortOnError` (2236) -/
  | setAbort
  /-- `HAL_DMA_Abort_IT`: `if(hdma->State != HAL_DMA_STATE_BUSY)` (stm32f7xx_hal_dma.c 586) -/
  | abortTest
  /-- `hdma->State = HAL_DMA_STATE_ABORT` (594) -/
  | abortState
  /-- `__HAL_DMA_DISABLE(hdma)` (597) -/
  | abortOff
  /-- `huart->hdmarx->XferAbortCallback(huart->hdmarx)` (stm32f7xx_hal_uart.c 2242) -/
  | direct
  /-- A silent line: `if (HAL_IS_BIT_SET(huart->Instance->CR3, USART_CR3_DMAR))` (2297) -/
  | idleReq
  /-- The counter of the stream is looked at (2303-2305) -/
  | idleCount
  /-- `ATOMIC_CLEAR_BIT(..., USART_CR3_EIE)` (2315) -/
  | idleErr
  /-- `ATOMIC_CLEAR_BIT(..., USART_CR3_DMAR)` (2319) -/
  | idleReqOff
  /-- `huart->RxState = HAL_UART_STATE_READY` (2322) -/
  | idleReady
  /-- `huart->ReceptionType = HAL_UART_RECEPTION_STANDARD` (2323) -/
  | idleType
  /-- `ATOMIC_CLEAR_BIT(..., USART_CR1_IDLEIE)` (2325) -/
  | idleOff
  /-- `HAL_DMA_Abort`: `if(hdma->State != HAL_DMA_STATE_BUSY)` (stm32f7xx_hal_dma.c 523) -/
  | stopTest
  /-- `hdma->Instance->CR &= ~(DMA_IT_TC | ...)` (535-541) -/
  | stopIrq
  /-- `__HAL_DMA_DISABLE(hdma)` and waiting for it (544-562) -/
  | stopOff
  /-- `regs->IFCR = 0x3FU << hdma->StreamIndex` (566) -/
  | stopFlags
  /-- `hdma->State = HAL_DMA_STATE_READY` (569) -/
  | stopState
  /-- `__HAL_UNLOCK(hdma)` (528, 572) -/
  | stopUnlock
  /-- Without DMA: `ATOMIC_CLEAR_BIT(..., USART_CR3_EIE)` (stm32f7xx_hal_uart.c 2358) -/
  | plainErr
  /-- `huart->RxState = HAL_UART_STATE_READY` (2361) -/
  | plainReady
  /-- `huart->ReceptionType = HAL_UART_RECEPTION_STANDARD` (2362) -/
  | plainType
  /-- `ATOMIC_CLEAR_BIT(..., USART_CR1_IDLEIE)` (2367) -/
  | plainOff
  /-- `HAL_UARTEx_RxEventCallback` or `HAL_UART_ErrorCallback` is called (uart.c 72-89, 134-146) -/
  | callback
  /-- Inside `HAL_UARTEx_ReceiveToIdle_DMA`, called by the callback (uart.c 91, 148) -/
  | start (p : Start)
deriving DecidableEq, Repr

/-- Processor and port. stm32f7xx_hal_uart.c 2126-2425, stm32f7xx_hal_uart_ex.c 678-722. -/
structure St where
  r : Regs
  /-- The port's handler, when it runs. -/
  isr : Option Pc
  /-- The task that configures the port, until `HAL_UARTEx_ReceiveToIdle_DMA` has returned. -/
  task : Option Start
  /-- A call through a null pointer. -/
  fault : Bool
deriving DecidableEq, Repr

/-- Clearing `EN`: a stream that was on stops and sets `TCIF` (reference manual, 8.3.13). Hardware, for the writes in stm32f7xx_hal_dma.c 523-624. -/
def disable (r : Regs) : Regs := if r.en then { r with en := false, tcif := true } else r

/-- One step of the port's handler.  `b` is what the program cannot know: at `blockTest` whether the
error is an overrun, at `idleCount` whether the counter is between zero and the length, at `idleReq`
without DMA whether bytes were counted. stm32f7xx_hal_uart.c 2126-2425; lines at `Pc`. -/
def isrStep (s : St) (b : Bool) : Pc → St
  | .noteError => { s with r := { s.r with errCode := true }, isr := some .codeTest }
  | .codeTest => { s with isr := if s.r.errCode then some .blockTest else none }
  | .blockTest => { s with isr := some (if s.r.dmar || b then .endErr else .callback) }
  | .endErr => { s with r := { s.r with eie := false }, isr := some .endIdle }
  | .endIdle => { s with
      r := if s.r.toIdle then { s.r with idleie := false } else s.r, isr := some .endReady }
  | .endReady => { s with r := { s.r with rxBusy := false }, isr := some .endType }
  | .endType => { s with r := { s.r with toIdle := false }, isr := some .reqTest }
  | .reqTest => { s with isr := some (if s.r.dmar then .reqOff else .callback) }
  | .reqOff => { s with r := { s.r with dmar := false }, isr := some .setAbort }
  | .setAbort => { s with r := { s.r with abortCb := true }, isr := some .abortTest }
  | .abortTest => { s with isr := some (if s.r.dst = .busy then .abortState else .direct) }
  | .abortState => { s with r := { s.r with dst := .abort }, isr := some .abortOff }
  | .abortOff => { s with r := disable s.r, isr := none }
  | .direct => if s.r.abortCb then { s with isr := some .callback }
      else { s with isr := none, fault := true }
  | .idleReq => { s with isr := if s.r.dmar then some .idleCount else if b then some .plainErr else none }
  | .idleCount => { s with isr := if b then some .idleErr else none }
  | .idleErr => { s with r := { s.r with eie := false }, isr := some .idleReqOff }
  | .idleReqOff => { s with r := { s.r with dmar := false }, isr := some .idleReady }
  | .idleReady => { s with r := { s.r with rxBusy := false }, isr := some .idleType }
  | .idleType => { s with r := { s.r with toIdle := false }, isr := some .idleOff }
  | .idleOff => { s with r := { s.r with idleie := false }, isr := some .stopTest }
  | .stopTest => { s with isr := some (if s.r.dst = .busy then .stopIrq else .stopUnlock) }
  | .stopIrq => { s with r := { s.r with tcie := false }, isr := some .stopOff }
  | .stopOff => { s with r := disable s.r, isr := some .stopFlags }
  | .stopFlags => { s with r := { s.r with tcif := false }, isr := some .stopState }
  | .stopState => { s with r := { s.r with dst := .ready }, isr := some .stopUnlock }
  | .stopUnlock => { s with r := { s.r with lock := false }, isr := some .callback }
  | .plainErr => { s with r := { s.r with eie := false }, isr := some .plainReady }
  | .plainReady => { s with r := { s.r with rxBusy := false }, isr := some .plainType }
  | .plainType => { s with r := { s.r with toIdle := false }, isr := some .plainOff }
  | .plainOff => { s with r := { s.r with idleie := false }, isr := some .callback }
  | .callback => { s with isr := some (.start .test) }
  | .start p => { s with r := (startStep s.r p).1, isr := (startStep s.r p).2.map .start }

/-- `UART_DMAReceiveCplt` (stm32f7xx_hal_uart.c 3433-3487): the whole length has been received.  Of the
two callbacks only `HAL_UARTEx_RxEventCallback` is the firmware's; the other one is empty. -/
def receiveCplt (r : Regs) : Regs :=
  let r := { r with eie := false, dmar := false, rxBusy := false }
  if r.toIdle then startAll { r with idleie := false } else r

/-- `HAL_DMA_IRQHandler` with `TCIF` and `TCIE` set (stm32f7xx_hal_dma.c 849-924): the end of an abort
(`UART_DMAAbortOnError`, stm32f7xx_hal_uart.c 3572-3585) or of a transfer. -/
def streamDone (r : Regs) : Regs :=
  let r := { r with tcif := false }
  if r.dst = .abort then
    let r := { r with tcie := false, dst := .ready, lock := false }
    if r.abortCb then startAll r else r
  else receiveCplt { r with tcie := false, dst := .ready, lock := false }

/-- `HAL_DMA_IRQHandler` at half of the length (stm32f7xx_hal_dma.c 802-847) with `UART_DMARxHalfCplt`
(stm32f7xx_hal_uart.c 3494-3525). -/
def streamHalf (r : Regs) : Regs := if r.toIdle then startAll r else r

/-- What happens next. stm32f7xx_hal_uart.c 2126-2425, stm32f7xx_hal_dma.c 751-962. -/
inductive Ev where
  /-- The stream stores the last byte. -/
  | last
  /-- The stream's interrupt at half of the length. -/
  | half
  /-- The stream's interrupt at the end. -/
  | done
  /-- The port's interrupt; its handler sees an error, and a silent line, or not. -/
  | port (err idle : Bool)
  /-- A step of the port's handler. -/
  | isr (b : Bool)
  /-- A step of the task that configures the port. -/
  | task
deriving DecidableEq, Repr

/-- The next step of the handler for the flags seen (stm32f7xx_hal_uart.c 2136-2293). -/
def enter (r : Regs) (err idle : Bool) : Option Pc :=
  if err && r.eie then some .noteError
  else if r.toIdle && idle && r.idleie then some .idleReq
  else none

/-- One step of the whole.  What cannot happen changes nothing. stm32f7xx_hal_uart.c 2126-2425, stm32f7xx_hal_dma.c
751-962. -/
def step (s : St) : Ev → St
  | .last => if s.r.en && s.r.dmar then { s with r := { s.r with en := false, tcif := true } } else s
  | .half => if s.r.dst ≠ .ready then { s with r := streamHalf s.r } else s
  | .done => if s.r.tcif && s.r.tcie then { s with r := streamDone s.r } else s
  | .port err idle => match s.isr with
      | none => { s with isr := enter s.r err idle }
      | some _ => s
  | .isr b => match s.isr with
      | none => s
      | some p => isrStep s b p
  | .task => match s.isr, s.task with
      | none, some p => { s with r := (startStep s.r p).1, task := (startStep s.r p).2 }
      | _, _ => s

/-- Before `UART_Config` calls `HAL_UARTEx_ReceiveToIdle_DMA` (uart.c 200): the state `HAL_UART_Init`
and `HAL_DMA_Init` leave. -/
def init : St where
  r := ⟨false, false, false, false, false, false, .ready, false, false, false, false, false⟩
  isr := none
  task := some .test
  fault := false

/-- A run. stm32f7xx_hal_uart.c 2126-2425, stm32f7xx_hal_dma.c 751-962. -/
def run (s : St) : List Ev → St
  | [] => s
  | e :: es => run (step s e) es

end Verif.UartRx
