import Verif.C.Basic

set_option autoImplicit false

/-!
# FreeRTOS queues (Lib/FreeRTOS/Source/queue.c)

The circular storage with the pointers as byte offsets from `pcHead`. Every operation is
inside a critical section or with interrupts masked (768-900, 988-1080, 1300-1420,
1807-1850), so operations are atomic. Waiting with a timeout (can.c 335) repeats the attempt
and ends with one successful or one failed operation. Only sends to the back are used by the
firmware. Lists of waiting tasks and queue locks do not touch the storage and are not
modelled. Sizes are natural numbers.
-/

namespace Verif.Queue

/-- `Queue_t` (queue.c 97-130): `uxLength`, `uxItemSize`, storage, `pcWriteTo`, `pcReadFrom`,
`uxMessagesWaiting`; `pcTail` is `length * size` (263). -/
structure Q where
  length : Nat
  size : Nat
  mem : Nat → UInt8
  writeTo : Nat
  readFrom : Nat
  waiting : Nat

/-- `xQueueGenericCreateStatic` and `xQueueGenericReset` (queue.c 255-303): storage of any content. -/
def create (length size : Nat) (mem : Nat → UInt8) : Q := ⟨length, size, mem, 0, (length - 1) * size, 0⟩

/-- `prvCopyDataToQueue` to the back (queue.c 2070-2146). -/
def copyTo (q : Q) (item : List UInt8) : C Q :=
  if q.length * q.size < q.writeTo + q.size then .error .oobWrite
  else if item.length < q.size then .error .oobRead
  else .ok { q with
    mem := fun j => if q.writeTo ≤ j ∧ j < q.writeTo + q.size then (item[j - q.writeTo]?).getD 0 else q.mem j
    writeTo := if q.length * q.size ≤ q.writeTo + q.size then 0 else q.writeTo + q.size
    waiting := q.waiting + 1 }

/-- `xQueueGenericSend` (queue.c 747-900), `xQueueGenericSendFromISR` (988-1001) to the back: whether
the item was taken. -/
def send (q : Q) (item : List UInt8) : C (Bool × Q) :=
  if q.waiting < q.length then
    match copyTo q item with
    | .error e => .error e
    | .ok q' => .ok (true, q')
  else .ok (false, q)

/-- `prvCopyDataFromQueue` (queue.c 2149-2165): advance, then copy. -/
def copyFrom (q : Q) : C (List UInt8 × Q) :=
  let r := if q.length * q.size ≤ q.readFrom + q.size then 0 else q.readFrom + q.size
  if q.length * q.size < r + q.size then .error .oobRead
  else .ok ((List.range q.size).map (fun k => q.mem (r + k)), { q with readFrom := r })

/-- `xQueueReceive` (queue.c 1273-1310), `xQueueReceiveFromISR` (1807-1818). -/
def recv (q : Q) : C (Option (List UInt8) × Q) :=
  if 0 < q.waiting then
    match copyFrom q with
    | .error e => .error e
    | .ok (item, q') => .ok (some item, { q' with waiting := q.waiting - 1 })
  else .ok (none, q)

/-- `xQueueIsQueueEmptyFromISR` (queue.c 2308-2325). -/
def isEmpty (q : Q) : Bool := q.waiting == 0

/-- Operations, by any task or interrupt. queue.c 747-1080, 1273-1850. -/
inductive Op where
  | send (item : List UInt8)
  | recv
deriving DecidableEq, Repr

/-- What the caller sees. queue.c 747-1080, 1273-1850. -/
inductive Res where
  | sent (ok : Bool)
  | got (item : Option (List UInt8))
deriving DecidableEq, Repr

/-- A sequence of operations with the results. queue.c 747-1080, 1273-1850. -/
def run : Q → List Op → C (List Res × Q)
  | q, [] => .ok ([], q)
  | q, .send item :: ops =>
    match send q item with
    | .error e => .error e
    | .ok (b, q') =>
      match run q' ops with
      | .error e => .error e
      | .ok (rs, q'') => .ok (.sent b :: rs, q'')
  | q, .recv :: ops =>
    match recv q with
    | .error e => .error e
    | .ok (x, q') =>
      match run q' ops with
      | .error e => .error e
      | .ok (rs, q'') => .ok (.got x :: rs, q'')

end Verif.Queue
