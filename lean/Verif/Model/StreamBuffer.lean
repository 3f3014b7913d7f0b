import Verif.C.Basic

set_option autoImplicit false

/-!
# FreeRTOS stream buffers (Lib/FreeRTOS/Source/stream_buffer.c)

The circular buffer at the level of the accesses that another task or an interrupt can
come between: reading the other side's index, copying one byte, storing one's own index.
All buffers of the firmware are static stream buffers, not message buffers. Where a send
or receive may wait (uart.c 245, gps.c 41, pcinterface.c 37), it ends with the same copy on
a count read before (stream_buffer.c 531-569, 737-792), so waiting adds no behaviour to the
buffer. Notifications
(`sbSEND_COMPLETED`, `sbRECEIVE_COMPLETED`) touch no buffer contents; they are in `Model/SbWait`.

Sizes are `size_t`. They are natural numbers here: with both indices below `len` and `len`
below 2^31 no sum wraps and no difference is negative.
-/

namespace Verif.StreamBuf

/-- Where a sender is. `copy d n i h`: in `prvWriteBytesToBuffer` with data `d`, `xCount = n`,
`xNextHead = h` (stream_buffer.c 1094) and `i` bytes copied. -/
inductive WPc where
  | idle
  | copy (d : List UInt8) (n i h : Nat)
deriving DecidableEq, Repr

/-- Where the receiver is. `copy n t got`: in `prvReadBytesFromBuffer` with `xCount = n`,
`xNextTail = t` (stream_buffer.c 1143) and the bytes copied so far. -/
inductive RPc where
  | idle
  | copy (n t : Nat) (got : List UInt8)
deriving DecidableEq, Repr

/-- `StreamBuffer_t` (stream_buffer.c 141-157): storage, `xLength`, `xHead`, `xTail`. The
other fields record what happens: the senders' and the receiver's positions, the bytes of
completed sends in order, the bytes of completed receives in order. -/
structure Sb where
  len : Nat
  mem : Nat → UInt8
  head : Nat
  tail : Nat
  w : Nat → WPc
  r : RPc
  sent : List UInt8
  got : List UInt8

/-- `prvInitialiseNewStreamBuffer` (stream_buffer.c 1209-1243) through `xStreamBufferGenericCreateStatic`
(283-353), with a storage area of any content. -/
def create (len : Nat) (mem : Nat → UInt8) : Sb := ⟨len, mem, 0, 0, fun _ => .idle, .idle, [], []⟩

/-- `xStreamBufferSpacesAvailable` (stream_buffer.c 470-492). -/
def spaces (s : Sb) : Nat :=
  let x := s.len + s.tail - s.head - 1
  if s.len ≤ x then x - s.len else x

/-- `prvBytesInBuffer` (stream_buffer.c 1189-1206), which is `xStreamBufferBytesAvailable` (494-503). -/
def bytes (s : Sb) : Nat :=
  let x := s.len + s.head - s.tail
  if s.len ≤ x then x - s.len else x

/-- `xStreamBufferIsEmpty` (stream_buffer.c 970-990). -/
def isEmpty (s : Sb) : Bool := s.head == s.tail

/-- Index of byte `i` of a copy of `n` bytes starting at `p`: the first `memcpy` runs to the
end of the storage, the second from its start (stream_buffer.c 1099-1113, 1148-1163). -/
def slot (len p n i : Nat) : Nat :=
  let first := min (len - p) n
  if i < first then p + i else i - first

/-- The index after a copy of `n` bytes from `p` (stream_buffer.c 1119-1127, 1171-1178). -/
def advance (len p n : Nat) : Nat := if len ≤ p + n then p + n - len else p + n

/-- Events.

* `send t d`: task (or interrupt) `t` calls `xStreamBufferSend` or
  `xStreamBufferSendFromISR` and reads the space (stream_buffer.c 553-558, 645).
* `write t`: it copies one byte, or stores `xHead` when all are copied (1129).
* `recv max`: the receiver calls `xStreamBufferReceive` with a buffer of `max` bytes and
  reads how much there is (782).
* `read`: it copies one byte, or stores `xTail` (1180). -/
inductive Ev where
  | send (t : Nat) (d : List UInt8)
  | write (t : Nat)
  | recv (max : Nat)
  | read
deriving DecidableEq, Repr

/-- One event. An access outside the storage is undefined behaviour; `prvWriteBytesToBuffer`
asserts a positive count (stream_buffer.c 1092). The two `memcpy`s are taken byte by byte in ascending
order. An event that does not fit the task's position is no event. -/
def step (s : Sb) : Ev → C Sb
  | .send t d =>
    match s.w t with
    | .copy .. => .ok s
    | .idle =>
      if spaces s = 0 then .ok s
      else
        let n := min d.length (spaces s)
        if n = 0 then .error .assertFail
        else .ok { s with w := fun u => if u = t then .copy d n 0 s.head else s.w u }
  | .write t =>
    match s.w t with
    | .idle => .ok s
    | .copy d n i h =>
      if i < n then
        let k := slot s.len h n i
        if k < s.len then
          match d[i]? with
          | none => .error .oobRead
          | some b => .ok { s with
              mem := fun j => if j = k then b else s.mem j
              w := fun u => if u = t then .copy d n (i + 1) h else s.w u }
        else .error .oobWrite
      else .ok { s with
        head := advance s.len h n
        w := fun u => if u = t then .idle else s.w u
        sent := s.sent ++ d.take n }
  | .recv max =>
    match s.r with
    | .copy .. => .ok s
    | .idle =>
      let n := min (bytes s) max
      if n = 0 then .ok s else .ok { s with r := .copy n s.tail [] }
  | .read =>
    match s.r with
    | .idle => .ok s
    | .copy n t got =>
      if got.length < n then
        let k := slot s.len t n got.length
        if k < s.len then .ok { s with r := .copy n t (got ++ [s.mem k]) }
        else .error .oobRead
      else .ok { s with tail := advance s.len t n, r := .idle, got := s.got ++ got }

/-- A history. stream_buffer.c 506-967, 1080-1186. -/
def run (s : Sb) (evs : List Ev) : C Sb := evs.foldlM step s

end Verif.StreamBuf
