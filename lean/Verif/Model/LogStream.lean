import Verif.Model.MsgFrame

set_option autoImplicit false

/-!
# Logging: system-lib/logging/logging.c and `flushLogMessage` (pcinterface.c 30-44)

Mutex and checksum results are inputs. The stream is a FreeRTOS stream buffer of 2048
bytes storage (pcinterface.h 42), so 2047 usable; `xStreamBufferSend` on a stream
buffer writes as many bytes as fit (stream_buffer.c, `prvWriteMessageToBuffer`).
-/

namespace Verif.LogStream
open MsgFrame

/-- `LOGGING_MAX_MSG_LEN` (logging.h 19). -/
def maxMsg : Nat := 512

/-- Usable bytes of the log stream. pcinterface.h 42, stream_buffer.c 661-710. -/
def cap : Nat := 2047

/-- Loop of `strnlen` (logging.c 94-104) at offset `len` with `n` rounds left
(`maxBufferLen - len`); `mem` is the object `str` points to. -/
def strnlen (mem : List UInt8) : Nat → Nat → C Nat
  | 0, len => .ok len
  | n + 1, len =>
    match mem[len]? with
    | none => .error .oobRead
    | some c => if c = 0 then .ok len else strnlen mem n (len + 1)

/-- `Logging_T` (logging.h 32-44) with its stream; `swo` is what went to the SWO
console, `accepted` records what was put in the stream. -/
structure Log where
  enableSerial : Bool
  enableSWO : Bool
  stream : List UInt8
  swo : List (List UInt8)
  accepted : List UInt8

/-- `xStreamBufferSend` without waiting (stream_buffer.c 494-577, 661-710): with no space
it does nothing, otherwise it writes `min` of length and space, which
`prvWriteBytesToBuffer` asserts to be positive (1092). The circular buffer itself is
`Model/StreamBuffer.lean`. -/
def send (l : Log) (d : List UInt8) : C Log :=
  if cap - l.stream.length = 0 then .ok l
  else if min d.length (cap - l.stream.length) = 0 then .error .assertFail
  else .ok { l with stream := l.stream ++ d.take (cap - l.stream.length)
                    accepted := l.accepted ++ d.take (cap - l.stream.length) }

/-- "[Skipping truncated message on SWO]\n" is only a marker here. logging.c 80. -/
def skipped : List UInt8 := [0x5B, 0x5D]

/-- `Log_Print` (logging.c 70-91). `printf("%s")` prints the string (82). -/
def logPrint (mutexOk : Bool) (l : Log) (mem : List UInt8) : C Log :=
  if !mutexOk then .ok l
  else
    match strnlen mem maxMsg 0 with
    | .error e => .error e
    | .ok len =>
      let l := if l.enableSWO then { l with swo := l.swo ++ [if len = maxMsg then skipped else mem.takeWhile (· ≠ 0)] } else l
      if l.enableSerial then send l (mem.take len) else .ok l

/-- One round of the loop of `flushLogMessage` (pcinterface.c 33-43): the frame handed to
both ports and the bytes left. The encoder is set up at pcinterface.c 126-131. -/
def chunk (crc : List UInt8 → Option UInt32) (stream : List UInt8) : Option (List UInt8) × List UInt8 :=
  ((initFrame 0x02 0x02 32 (List.replicate 43 0)).map fun b => updateCrc crc (putPayload b (stream.take 32)),
    stream.drop 32)

/-- Logging and the frames sent. logging.c 70-91, pcinterface.c 30-44. -/
structure Sys where
  log : Log
  frames : List (Option (List UInt8))

/-- Events: any task prints, the PC interface task does one round of the loop. logging.c 70-91, pcinterface.c 30-44.
-/
inductive Ev where
  | print (mutexOk : Bool) (mem : List UInt8)
  | round

/-- One event; the loop condition (pcinterface.c 33) guards a round. -/
def Sys.step (crc : List UInt8 → Option UInt32) (s : Sys) : Ev → C Sys
  | .print ok mem =>
    match logPrint ok s.log mem with
    | .error e => .error e
    | .ok l => .ok { s with log := l }
  | .round =>
    if s.log.stream = [] then .ok s
    else .ok ⟨{ s.log with stream := (chunk crc s.log.stream).2 }, s.frames ++ [(chunk crc s.log.stream).1]⟩

/-- A sequence of events. logging.c 70-91, pcinterface.c 30-44. -/
def Sys.run (crc : List UInt8 → Option UInt32) (s : Sys) (evs : List Ev) : C Sys := evs.foldlM (Sys.step crc) s

/-- After `Log_Init` and `Log_SetSerialStream` (logging.c 30-53). -/
def Sys.start : Sys := ⟨⟨true, false, [], [], []⟩, []⟩

end Verif.LogStream
