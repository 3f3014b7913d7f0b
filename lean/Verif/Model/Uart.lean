import Verif.C.Basic

set_option autoImplicit false

/-!
# UART driver: system-lib/uart/uart.c

One device. The transmit side has one calling task (the PC interface task is the
only caller of `UART_SendMessage`, pcinterface.c 41-42, periodicupdates.c 52-58,
debugtermlib.h 57-58).
-/

namespace Verif.Uart

/-- `UART_MAX_DMA_LEN` (uart.h 34). -/
def maxDma : Nat := 512

/-- Free space of an empty pending stream: FreeRTOS keeps one byte of the storage
unused (stream_buffer.c, `xStreamBufferCreateStatic` at uart.c 192-196). -/
def pendingCap : Nat := 511

/-- `memcpy` of a list to the start of a buffer. uart.c 119-121, 249. -/
def copyTo (buf : Nat → UInt8) (d : List UInt8) : Nat → UInt8 :=
  fun i => (d[i]?).getD (buf i)

/-- `struct uartInfo` transmit fields (uart.c 27-43), the hardware transfer and
observation fields.

* `hw = some (pos, len)`: a DMA transfer of `len` bytes of the buffer is under way,
  `pos` of them are on the wire.
* `wire`: bytes on the wire so far.
* `accepted`: bytes of the messages for which `UART_SendMessage` returned OK, as
  far as they were copied (`xStreamBufferSend` may take only a part, uart.c 245).
* `call`: a call in progress with the value of `txInProgress` it read. -/
structure Tx where
  inProgress : Bool
  dma : Nat → UInt8
  hw : Option (Nat × Nat)
  pending : List UInt8
  wire : List UInt8
  accepted : List UInt8
  call : Option (List UInt8 × Bool)

/-- After `UART_Config` (uart.c 189-197). -/
def init : Tx := ⟨false, fun _ => 0, none, [], [], [], none⟩

/-- Events.

* `begin d`: the task enters `UART_SendMessage` and reads `txInProgress` (241-243).
* `finish ok`: the task completes the branch it chose (244-259); `ok` is the result
  of starting a transfer when the UART is free. `xStreamBufferSend` may wait before
  it copies, so any event can come between `begin` and `finish`.
* `byte`: the DMA puts one byte on the wire.
* `cplt ok`: `HAL_UART_TxCpltCallback` (101-132). It is called from the USART
  interrupt (stm32f7xx_hal_uart.c 3381-3394, 2419-2422, 3819-3837), not from the
  DMA interrupt that `UART_SendMessage` masks (deviceMapping.c 72, 77), so it can
  come between `begin` and `finish`.
* `error`: `HAL_UART_ErrorCallback` (134-149); raised for receive errors too
  (stm32f7xx_hal_uart.c 2152-2285), which do not stop the transmission. -/
inductive Ev where
  | begin (d : List UInt8)
  | finish (ok : Bool)
  | byte
  | cplt (ok : Bool)
  | error
deriving DecidableEq

/-- One event. Undefined behaviour: copying more than 512 bytes to the DMA buffer
(uart.c 249); an empty message while a transfer runs and the pending stream has room
fails the assertion in `prvWriteBytesToBuffer` (stream_buffer.c 1092). `HAL_UART_Transmit_DMA` returns busy while a transfer is under way
and refuses length 0 (stm32f7xx_hal_uart.c 1344-1400). -/
def step (s : Tx) : Ev → C Tx
  | .begin d =>
    match s.call with
    | some _ => .ok s
    | none => .ok { s with call := some (d, s.inProgress) }
  | .finish ok =>
    match s.call with
    | none => .ok s
    | some (d, true) =>
      if pendingCap - s.pending.length ≠ 0 && d.isEmpty then .error .assertFail
      else .ok { s with
        pending := s.pending ++ d.take (pendingCap - s.pending.length)
        accepted := s.accepted ++ d.take (pendingCap - s.pending.length)
        call := none }
    | some (d, false) =>
      if maxDma < d.length then .error .oobWrite
      else if s.hw.isNone && ok && decide (d ≠ []) then
        .ok { s with
          inProgress := true, dma := copyTo s.dma d, hw := some (0, d.length)
          accepted := s.accepted ++ d, call := none }
      else .ok { s with inProgress := false, dma := copyTo s.dma d, call := none }
  | .byte =>
    match s.hw with
    | some (pos, len) =>
      if pos < len then .ok { s with wire := s.wire ++ [s.dma pos], hw := some (pos + 1, len) }
      else .ok s
    | none => .ok s
  | .cplt ok =>
    match s.hw with
    | some (pos, len) =>
      if pos = len then
        if s.pending = [] then .ok { s with hw := none, inProgress := false }
        else
          let chunk := s.pending.take maxDma
          .ok { s with
            pending := s.pending.drop maxDma, dma := copyTo s.dma chunk
            hw := if ok then some (0, chunk.length) else none
            inProgress := s.inProgress && ok }
      else .ok s
    | none => .ok s
  | .error => .ok { s with inProgress := false }

/-- A history. uart.c 101-132, 227-262. -/
def run (s : Tx) (evs : List Ev) : C Tx := evs.foldlM step s

/-! ## Receive side -/

/-- Receive state: bytes of the DMA transfer under way and everything pushed to
the registered stream (`outputSb`). The stream is taken as large enough here; a
full stream drops the tail of a push (uart.c 86). -/
structure Rx where
  buf : List UInt8
  out : List UInt8

/-- Receive events: a byte, line idle, a receive error. uart.c 72-94, 134-149. -/
inductive RxEv where
  | byte (b : UInt8)
  | idle
  | error

/-- The HAL calls `HAL_UARTEx_RxEventCallback` at half transfer (size 256), at
transfer complete (size 512) and on idle (stm32f7xx_hal_uart.c 3433-3520,
2288-2344; the half-transfer interrupt is enabled by `HAL_DMA_Start_IT`,
stm32f7xx_hal_dma.c 484). The callback pushes the first `size` bytes of the DMA
buffer and restarts reception (uart.c 72-94); at half transfer the restart is
refused because the reception is still running
(stm32f7xx_hal_uart_ex.c 683, 718). An error aborts the reception and the error
callback restarts it (uart.c 148). -/
def rxStep (s : Rx) : RxEv → Rx
  | .byte b =>
    let buf := s.buf ++ [b]
    if buf.length = maxDma / 2 then ⟨buf, s.out ++ buf⟩
    else if buf.length = maxDma then ⟨[], s.out ++ buf⟩
    else ⟨buf, s.out⟩
  | .idle =>
    if s.buf = [] then s else ⟨[], s.out ++ s.buf⟩
  | .error => ⟨[], s.out⟩

/-- A receive history. uart.c 72-94, 134-149. -/
def rxRun (s : Rx) (evs : List RxEv) : Rx := evs.foldl rxStep s

end Verif.Uart
