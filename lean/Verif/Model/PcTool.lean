import Verif.Model.Crc

set_option autoImplicit false

/-!
# The PC tool: tools/ecu-config/decode_common.py, encode_common.py, log_view.py

Python integers are natural numbers, lists of byte values are lists of bytes. The
options that only print more (`-v`, `-b`, `-r`) are left out.
-/

namespace Verif.PcTool
open Crc

/-- The dictionary returned by `try_decode` (decode_common.py 180-187). -/
structure Msg where
  payload : List UInt8
  msgType : Nat
  addr : Nat
  crcCalc : Nat
  crcRecv : Nat
  crcCorrect : Bool
  deriving DecidableEq

/-- `MsgType` and the address (decode_common.py 26-40, 44-56), without the handler. -/
structure Cfg where
  selfAddr : Nat
  type : Nat
  len : Nat

/-- Byte at a Python index counted from the end, for lists long enough. decode_common.py 151-160. -/
def fromEnd (m : List UInt8) (k : Nat) : Nat := ((m[m.length - k]?).getD 0).toNat

/-- Byte at an index, for lists long enough. decode_common.py 143-188. -/
def at' (m : List UInt8) (k : Nat) : Nat := ((m[k]?).getD 0).toNat

/-- `try_decode` (decode_common.py 143-188). The model is meant for `expected ≥ 6`; shorter
windows would raise an exception or wrap around. -/
def tryDecode (msg : List UInt8) (expected : Nat) : Option Msg :=
  if msg.length ≠ expected then none
  else if ¬ (at' msg 0 = 0x3A ∧ fromEnd msg 2 = 0x0D ∧ fromEnd msg 1 = 0x0A) then none
  else
    let recv := (((0 ||| (fromEnd msg 6 <<< 24)) ||| (fromEnd msg 5 <<< 16)) ||| (fromEnd msg 4 <<< 8)) |||
      (fromEnd msg 3 <<< 0)
    let zeroed := msg.take (msg.length - 6) ++ [0, 0, 0, 0] ++ msg.drop (msg.length - 2)
    let calcCrc := crc32mpeg2 zeroed
    some {
      payload := (zeroed.take (zeroed.length - 6)).drop 5
      msgType := (at' zeroed 3 <<< 8) ||| at' zeroed 4
      addr := (at' zeroed 1 <<< 8) ||| at' zeroed 2
      crcCalc := calcCrc
      crcRecv := recv
      crcCorrect := calcCrc = recv }

/-- The loop of `decode_bytes_fixed_len` (decode_common.py 82-97) on the buffer: messages
found, buffer left. `n` bounds the iterations; every iteration removes a byte, so the
length of the buffer suffices (for positive lengths). -/
def decodeFixed (L : Nat) : Nat → List UInt8 → List Msg × List UInt8
  | 0, buf => ([], buf)
  | n + 1, buf =>
    if buf.length < L then ([], buf)
    else
      match tryDecode (buf.take L) L with
      | some msg =>
        let r := decodeFixed L n (buf.drop L)
        (msg :: r.1, r.2)
      | none => decodeFixed L n (buf.drop 1)

/-- `int.from_bytes(b, 'little')` (decode_common.py 61). -/
def fromLittle : List UInt8 → Nat
  | [] => 0
  | b :: l => b.toNat + 256 * fromLittle l

/-- The bytes appended by the loop of `recv_bytes` (decode_common.py 62-64). -/
def unpack (b : List UInt8) : List UInt8 :=
  (List.range b.length).map fun i => UInt8.ofNat ((fromLittle b >>> (i * 8)) &&& 0xFF)

/-- `recv_bytes` (decode_common.py 58-80) with a fixed length: messages found, buffer. -/
def recvBytes (L : Nat) (buf b : List UInt8) : List Msg × List UInt8 :=
  let buf := (buf ++ unpack b).dropWhile (· ≠ 0x3A)
  decodeFixed L buf.length buf

/-- The receive loop (serial_common.py 34-45) as one decoder sees it: `chunks` are the
results of the reads. -/
def receive (L : Nat) : List UInt8 → List (List UInt8) → List Msg × List UInt8
  | buf, [] => ([], buf)
  | buf, c :: chunks =>
    let r := recvBytes L buf c
    let q := receive L r.2 chunks
    (r.1 ++ q.1, q.2)

/-- Whether `handle_data` (decode_common.py 195-210) calls the handler. -/
def handled (c : Cfg) (m : Msg) : Bool := m.addr = c.selfAddr ∧ m.msgType = c.type

/-- Everything handed to the handler of a decoder, from its creation on. decode_common.py 58-79, 195-210. -/
def delivered (c : Cfg) (chunks : List (List UInt8)) : List Msg :=
  (receive c.len [] chunks).1.filter (handled c)

/-- log_view.py 18-22, 96-117. -/
def logCfg : Cfg := ⟨0x02, 0x02, 43⟩
/-- log_view.py 18-22, 107-117. -/
def stateCfg : Cfg := ⟨0x02, 0x01, 18⟩

/-- What `handle_log_data` (log_view.py 43-55) prints: the characters, and whether in the
colour of failures. -/
def showLog (m : Msg) : List UInt8 × Bool := (m.payload, !m.crcCorrect)

/-- `FIELD_ID_NAMES` (log_view.py 24-36). -/
def fieldName : Nat → Option String
  | 0x0001 => some "SDC"
  | 0x0002 => some "PDM"
  | 0x0003 => some "BMS Max cell voltage"
  | 0x0004 => some "BMS Max cell voltage ID"
  | 0x0005 => some "BMS Max cell temp"
  | 0x0006 => some "BMS Max cell temp ID"
  | 0x0007 => some "BMS DC current"
  | 0x0008 => some "BMS Pack voltage"
  | 0x0009 => some "BMS SOC"
  | 0x000A => some "BMS Counter"
  | 0x000B => some "BMS Fault"
  | _ => none

/-- Output of `handle_state_data`. log_view.py 61-76. -/
inductive Shown where
  /-- Nothing printed. -/
  | nothing
  /-- 'Unexpected field ID'. -/
  | unexpected (id : Nat)
  /-- 'State Update': name and value. -/
  | update (name : String) (value : Nat)
  /-- IndexError: the receive thread ends. -/
  | exception
  deriving DecidableEq

/-- Python index `6 - i` into the payload (log_view.py 69): negative indices count from
the end; `none`: out of range. -/
def payloadAt (p : List UInt8) (i : Nat) : Option UInt8 :=
  if i ≤ 6 then p[6 - i]? else if i - 6 ≤ p.length then p[p.length - (i - 6)]? else none

/-- The loop of log_view.py 67-70. -/
def valueLoop (p : List UInt8) : List Nat → Nat → Option Nat
  | [], v => some v
  | i :: l, v =>
    match payloadAt p i with
    | none => none
    | some b => valueLoop p l (v ||| (b.toNat <<< (i * 8)))

/-- `handle_state_data` (log_view.py 61-76). -/
def showState (m : Msg) : Shown :=
  if m.crcCorrect then
    let id := (at' m.payload 0 <<< 8) ||| at' m.payload 1
    match valueLoop m.payload (List.range (at' m.payload 2)) 0 with
    | none => .exception
    | some v =>
      match fieldName id with
      | none => .unexpected id
      | some name => .update name v
  else .nothing

/-- `encode_message` (encode_common.py 15-48). -/
def encodeMessage (addr func : Nat) (payload : List UInt8) : List UInt8 :=
  let header : List UInt8 := [0x3A, UInt8.ofNat ((addr >>> 8) &&& 0xFF), UInt8.ofNat (addr &&& 0xFF),
    UInt8.ofNat ((func >>> 8) &&& 0xFF), UInt8.ofNat (func &&& 0xFF)]
  let calcCrc := crc32mpeg2 (header ++ payload ++ [0, 0, 0, 0, 0x0D, 0x0A])
  header ++ payload ++ [UInt8.ofNat ((calcCrc >>> 24) &&& 0xFF), UInt8.ofNat ((calcCrc >>> 16) &&& 0xFF),
    UInt8.ofNat ((calcCrc >>> 8) &&& 0xFF), UInt8.ofNat ((calcCrc >>> 0) &&& 0xFF), 0x0D, 0x0A]

/-! ## The decoder for messages of any length -/

/-- `MIN_NUM_BYTES` (decode_common.py 10). -/
def minBytes : Nat := 10

/-- Inner loop of `decode_bytes_variable_len` (decode_common.py 111-133); the range is
computed once, the buffer changes. Result: windows found, buffer. -/
def varInner (off : Nat) : List Nat → List UInt8 → List (List UInt8) × List UInt8
  | [], buf => ([], buf)
  | n :: ns, buf =>
    let w := (buf.drop off).take n
    match tryDecode w n with
    | some msg =>
      if msg.crcCorrect then
        let r := varInner off ns (buf.drop (off + n))
        (w :: r.1, r.2)
      else varInner off ns buf
    | none => varInner off ns buf

/-- Outer loop (decode_common.py 108). -/
def varOuter : List Nat → List UInt8 → List (List UInt8) × List UInt8
  | [], buf => ([], buf)
  | off :: offs, buf =>
    let r := varInner off (List.range' minBytes (buf.length - minBytes)) buf
    let q := varOuter offs r.2
    (r.1 ++ q.1, q.2)

/-- `decode_bytes_variable_len` (decode_common.py 99-133). -/
def decodeVariable (buf : List UInt8) : List (List UInt8) × List UInt8 :=
  if buf.length < minBytes then ([], buf) else varOuter (List.range (buf.length - minBytes)) buf

/-- `recv_bytes` with a variable length. decode_common.py 58-79, 99-141. -/
def recvVariable (buf b : List UInt8) : List (List UInt8) × List UInt8 :=
  decodeVariable ((buf ++ unpack b).dropWhile (· ≠ 0x3A))

end Verif.PcTool
