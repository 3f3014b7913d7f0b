import Verif.Model.Queue
import Verif.Model.StreamBuffer

set_option autoImplicit false

/-!
# The kernel objects of the firmware in one memory

Every queue, stream buffer and task of the firmware is created with memory that the firmware
declares. Creation takes a length, an item size and the address of an array; the kernel does not
know how long the array is. Here the arrays lie somewhere in one memory, and each operation of
`Model/Queue` and `Model/StreamBuffer` is carried out at the address its object was given, with
all of the memory behind that address within its reach.

Simplifications. All objects exist from the start; in the code each is created before it is
used. The control blocks (`StaticQueue_t`, `StaticStreamBuffer_t`, `StaticTask_t`) are values and
not memory; FreeRTOS checks their sizes (queue.c 327-335, stream_buffer.c 319-328, tasks.c
592-600). Mutexes and semaphores have no storage (queue.c 262-268). Addresses are natural numbers.
-/

namespace Verif.Memory

/-- The `sizeof` of what the queues carry: `CAN_DataFrame_T` (can.h 45-50), `TxPendingItem_T` (can.c
30-33) and `SPI_Index_T` (spi.h). The compiler's choice. -/
structure Sizes where
  frame : Nat
  pending : Nat
  spi : Nat

/-- The queues: orionBms.c 199, cInverter.c 372, spi.c 208, and one for each of the three CAN buses
(can.c 202-209, can.h 20-24). -/
inductive Qi where
  | bms
  | inverter
  | spi
  | canTx (bus : Fin 3)
deriving DecidableEq, Repr

/-- The stream buffers: one for each of the six serial interfaces (uart.c 192, uart.h 23-29),
wheelspeed.c 170, gps.c 134, pcinterface.c 152 and 182. -/
inductive Si where
  | uartTx (dev : Fin 6)
  | wheelspeed
  | gps
  | pcLog
  | pcRecv
deriving DecidableEq, Repr

/-- The tasks: initialize.c 231, throttleController.c 96, watchdogTrigger.c 60,
vehicleStateManager.c 54, orionBms.c 206, sdc.c 89, wheelspeed.c 177, gps.c 124, pcinterface.c 159,
cInverter.c 383, discretesense.c 101, spi.c 215, and the idle task (freertos.c 63). -/
inductive Ti where
  | init
  | throttle
  | watchdog
  | vsm
  | bms
  | sdc
  | wheelspeed
  | gps
  | pcinterface
  | inverter
  | discretesense
  | spi
  | idle
deriving DecidableEq, Repr

/-- The length each queue is created with: bms.h 23, cInverter.h 25, spi.h 20, can.h 28. -/
def qLength : Qi → Nat
  | .bms => 256
  | .inverter => 256
  | .spi => 10
  | .canTx _ => 64

/-- The item size each queue is created with: bms.h 24, cInverter.h 26, spi.c 63, can.c 35. -/
def qSize (z : Sizes) : Qi → Nat
  | .bms => z.frame
  | .inverter => z.frame
  | .spi => z.spi
  | .canTx _ => z.pending

/-- The bytes declared for each queue: bms.h 41, cInverter.h 58, spi.c 73, can.c 36 and 52. -/
def qArray (z : Sizes) : Qi → Nat
  | .bms => 256 * z.frame
  | .inverter => 256 * z.frame
  | .spi => 10 * z.spi
  | .canTx _ => 64 * z.pending

/-- The length each stream buffer is created with: uart.c 193 (uart.h 34), wheelspeed.c 171 (47-48),
gps.c 135 (gps.h 35), pcinterface.c 153 and 183 (pcinterface.h 42, 44). -/
def sLength : Si → Nat
  | .uartTx _ => 512
  | .wheelspeed => 2 * 2000
  | .gps => 2048
  | .pcLog => 2048
  | .pcRecv => 2048

/-- The bytes declared for each stream buffer: uart.c 40, wheelspeed.c 54, gps.h 51, pcinterface.h
84 and 89. -/
def sArray : Si → Nat
  | .uartTx _ => 512
  | .wheelspeed => 2 * 2000
  | .gps => 2048
  | .pcLog => 2048
  | .pcRecv => 2048

/-- The stack depth each task is created with, in words: initialize.c 43 and 234,
throttleController.h 34, watchdogTrigger.h 28, vehicleStateManager.h 32, bms.h 21, sdc.h 43,
wheelspeed.h 37, gps.h 32, pcinterface.h 40, cInverter.h 23, discretesense.h 34, spi.h 32,
freertos.c 67 (FreeRTOSConfig.h 66). -/
def tDepth : Ti → Nat
  | .init => 1500
  | .throttle => 2000
  | .watchdog => 2000
  | .vsm => 2000
  | .bms => 2000
  | .sdc => 2000
  | .wheelspeed => 2000
  | .gps => 2000
  | .pcinterface => 2000
  | .inverter => 2000
  | .discretesense => 2000
  | .spi => 200
  | .idle => 128

/-- The words declared for each stack: initialize.c 48, throttleController.h 57, watchdogTrigger.h
45, vehicleStateManager.h 49, bms.h 36 (with vehicleState.h 45), sdc.c 24, wheelspeed.c 30, gps.h
48, pcinterface.h 81, cInverter.h 53 (with vehicleState.h 45), discretesense.h 59, spi.c 59,
freertos.c 61. -/
def tArray : Ti → Nat
  | .init => 1500
  | .throttle => 2000
  | .watchdog => 2000
  | .vsm => 2000
  | .bms => 2000
  | .sdc => 2000
  | .wheelspeed => 2000
  | .gps => 2000
  | .pcinterface => 2000
  | .inverter => 2000
  | .discretesense => 2000
  | .spi => 200
  | .idle => 128

/-- The objects with byte storage: queue.c 309, stream_buffer.c 283. -/
inductive Obj where
  | q (i : Qi)
  | s (i : Si)
deriving DecidableEq, Repr

/-- The bytes declared for an object (see `qArray`, `sArray`; bms.h 41 and the others). -/
def bytes (z : Sizes) : Obj → Nat
  | .q i => qArray z i
  | .s i => sArray i

/-- The memory and the objects' control blocks. The `mem` fields of the control blocks are not
used: the storage is in `ram` (queue.c 97-130 `pcHead`, stream_buffer.c 141-157 `pucBuffer`). -/
structure St where
  ram : Nat → UInt8
  q : Qi → Queue.Q
  s : Si → StreamBuf.Sb

/-- The storage of an object at address `b`: all of the memory from there on. `pcHead + n` in queue.c
2070-2165, `pucBuffer[n]` in stream_buffer.c 1099-1163. -/
def view (ram : Nat → UInt8) (b : Nat) : Nat → UInt8 := fun j => ram (b + j)

/-- The memory after an operation has left the storage at `b` as `m`. queue.c 2070-2146,
stream_buffer.c 1080-1130. -/
def back (ram : Nat → UInt8) (b : Nat) (m : Nat → UInt8) : Nat → UInt8 :=
  fun a => if b ≤ a then m (a - b) else ram a

/-- All objects created, in a memory of any content. queue.c 309-360, stream_buffer.c 283-353. -/
def start (z : Sizes) (P : Obj → Nat) (ram : Nat → UInt8) : St :=
  ⟨ram, fun i => Queue.create (qLength i) (qSize z i) (view ram (P (.q i))),
    fun i => StreamBuf.create (sLength i) (view ram (P (.s i)))⟩

/-- What happens: an operation on a queue (queue.c 747-1080, 1273-1850), an access of an operation on
a stream buffer (stream_buffer.c 506-967), or any other code writing a byte (all of /repo). -/
inductive Ev where
  | queue (i : Qi) (op : Queue.Op)
  | stream (i : Si) (e : StreamBuf.Ev)
  | other (a : Nat) (v : UInt8)
deriving DecidableEq, Repr

/-- One queue operation. queue.c 747-1080, 1273-1850. -/
def operate (q : Queue.Q) : Queue.Op → C (Queue.Res × Queue.Q)
  | .send x =>
    match Queue.send q x with
    | .error e => .error e
    | .ok (b, q') => .ok (.sent b, q')
  | .recv =>
    match Queue.recv q with
    | .error e => .error e
    | .ok (x, q') => .ok (.got x, q')

/-- One event at the address of its object, and what the caller of a queue operation sees. queue.c
747-1080, 1273-1850; stream_buffer.c 506-967. -/
def step (P : Obj → Nat) (s : St) : Ev → C (List (Qi × Queue.Res) × St)
  | .queue i op =>
    match operate { s.q i with mem := view s.ram (P (.q i)) } op with
    | .error e => .error e
    | .ok (r, q') =>
      .ok ([(i, r)], { s with
        ram := back s.ram (P (.q i)) q'.mem
        q := fun k => if k = i then q' else s.q k })
  | .stream i e =>
    match StreamBuf.step { s.s i with mem := view s.ram (P (.s i)) } e with
    | .error e => .error e
    | .ok b' =>
      .ok ([], { s with
        ram := back s.ram (P (.s i)) b'.mem
        s := fun k => if k = i then b' else s.s k })
  | .other a v => .ok ([], { s with ram := fun x => if x = a then v else s.ram x })

/-- A history. queue.c 747-1080, 1273-1850; stream_buffer.c 506-967. -/
def run (P : Obj → Nat) : St → List Ev → C (List (Qi × Queue.Res) × St)
  | s, [] => .ok ([], s)
  | s, e :: es =>
    match step P s e with
    | .error e => .error e
    | .ok (rs, s') =>
      match run P s' es with
      | .error e => .error e
      | .ok (rs', s'') => .ok (rs ++ rs', s'')

end Verif.Memory
