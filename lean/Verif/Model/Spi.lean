import Verif.C.Basic

set_option autoImplicit false

/-!
# SPI driver: system-lib/spi/spi.c
-/

namespace Verif.Spi

/-- `SPI_Status_T` (spi.h 34-42) as its numeric value, because line 296 returns a HAL code. -/
abbrev Status := Nat

/-- spi.h 36. -/
def ok : Status := 0
/-- spi.h 37. -/
def errorTx : Status := 1
/-- spi.h 38. -/
def errorBusy : Status := 2
/-- spi.h 39. -/
def errorInvalidBus : Status := 3
/-- spi.h 40. -/
def errorSem : Status := 4
/-- spi.h 41. -/
def errorTooMuchData : Status := 5

/-- `HAL_StatusTypeDef` (stm32f7xx_hal_def.h): OK 0, ERROR 1, BUSY 2, TIMEOUT 3. -/
inductive Hal where
  | ok | error | busy | timeout
deriving DecidableEq, Repr

/-- `HAL_StatusTypeDef` (stm32f7xx_hal_def.h 38-44). -/
def Hal.code : Hal → Nat
  | .ok => 0 | .error => 1 | .busy => 2 | .timeout => 3

/-- The four busses (spi.c 26-36). -/
abbrev Bus := Fin 4

/-- `SPI_QUEUE_LENGTH` (spi.h 20). -/
def queueLen : Nat := 10

/-- Per-bus semaphore, hardware transfer under way, completion queue (spi.c 62-74), notification count
of the task, and the mutex of the blocking call. -/
structure St where
  sem : Bus → Bool
  active : Bus → Bool
  queue : List Bus
  notified : Nat
  mutex : Bool

/-- After `SPI_Init` (spi.c 180-226). -/
def start : St := ⟨fun _ => true, fun _ => false, [], 0, true⟩

/-- An assignment for one bus (spi.c 104-303). -/
def upd (g : Bus → Bool) (b : Bus) (v : Bool) : Bus → Bool := fun c => if c = b then v else g c

/-- `SPI_TransmitReceive` (spi.c 229-265) on a known bus; `hal` is the result of starting the transfer.
A caller that finds the semaphore taken gives up after 10 ticks (242); completions in between are
separate events, so it is enough to look at the semaphore once. -/
def transmitReceive (s : St) (b : Bus) (hal : Hal) : Status × St :=
  if !s.sem b then (errorBusy, s)
  else
    let s := { s with sem := upd s.sem b false }
    if hal ≠ .ok then (errorTx, s)
    else (ok, { s with active := upd s.active b true })

/-- `SPI_TransmitReceiveBlocking` (spi.c 268-303). -/
def transmitReceiveBlocking (s : St) (len : UInt16) (hal : Hal) : Status × St :=
  if 16 < len then (errorTooMuchData, s)
  else if !s.mutex then (errorSem, s)
  else
    let s := { s with mutex := false }
    if hal ≠ .ok then (hal.code, { s with mutex := true })
    else (ok, { s with mutex := true })

/-- `HAL_SPI_TxRxCpltCallback` (spi.c 154-175) for the transfer on bus `b`. -/
def complete (s : St) (b : Bus) : St :=
  if s.active b then
    let s := { s with active := upd s.active b false }
    if s.queue.length < queueLen then
      { s with queue := s.queue ++ [b], notified := s.notified + 1 }
    else s
  else s

/-- The inner loop of `SPI_RxTask` (spi.c 115-144) with `n` notifications to process. -/
def drain : Nat → St → St
  | 0, s => s
  | n + 1, s =>
    match s.queue with
    | [] => s
    | b :: rest => drain n { s with queue := rest, sem := upd s.sem b true }

/-- One pass of `SPI_RxTask` (spi.c 113-144): the take decrements the count by one and returns the value
before. -/
def rxTask (s : St) : St := drain s.notified { s with notified := s.notified - 1 }

/-- Events. spi.c 104-175, 229-303. -/
inductive Ev where
  | send (b : Bus) (hal : Hal)
  | blocking (len : UInt16) (hal : Hal)
  | complete (b : Bus)
  | rxTask
deriving DecidableEq, Repr

/-- One event (spi.c 104-175, 229-303). -/
def step (s : St) : Ev → St
  | .send b hal => (transmitReceive s b hal).2
  | .blocking len hal => (transmitReceiveBlocking s len hal).2
  | .complete b => complete s b
  | .rxTask => rxTask s

/-- A history (spi.c 104-175, 229-303). -/
def run (s : St) (es : List Ev) : St := es.foldl step s

end Verif.Spi
