import Verif.C.Basic

set_option autoImplicit false

/-!
# Message frames: system-lib/uart/msgframedecode.c, msgframeencode.c

The CRC unit is an input: `crc pos msg` is the outcome of `CRC_Calculate` on the
bytes `msg` when the attempt starts at buffer position `pos` (`none`: the call
failed and left the result variable at 0). Within one `RecvMsg` call each position
is tried at most once, so this covers every pattern of failures.
-/

namespace Verif.MsgFrame

/-- `MSGFRAME_BUFFER_LEN` (msgframedecode.h 17). -/
def bufLen : Nat := 1024

/-- Outcome of the CRC unit, see above. msgframedecode.c 34-39, msgframeencode.c 53-58. -/
abbrev CrcUnit := Nat → List UInt8 → Option UInt32

/-- `MsgFrameDecode_T` (msgframedecode.h 19-29). The 16-bit cursors are natural
numbers; the invariant theorem bounds them by 1024. -/
structure Dec where
  msgLen : Nat
  start : Nat
  stop : Nat
  avail : Nat
  data : Nat → UInt8

/-- `n` bytes of the buffer from index `i`. `&data[start]` handed to `CRC_Calculate`, msgframedecode.c 34-39. -/
def slice (d : Nat → UInt8) (i n : Nat) : List UInt8 := (List.range' i n).map d

/-- Store a list of bytes at index `i`. `memcpy` in msgframedecode.c 71. -/
def store (d : Nat → UInt8) (i : Nat) (l : List UInt8) : Nat → UInt8 :=
  fun j => if i ≤ j then (l[j - i]?).getD (d j) else d j

/-- Most significant byte first (msgframedecode.c 42-45, msgframeencode.c 60-63). -/
def be32 (v : UInt32) : List UInt8 :=
  [(v >>> 24).toUInt8, (v >>> 16).toUInt8, (v >>> 8).toUInt8, v.toUInt8]

/-- msgframedecode.c 26-30. -/
def fromBe32 (a b c d : UInt8) : UInt32 :=
  a.toUInt32 <<< 24 ||| b.toUInt32 <<< 16 ||| c.toUInt32 <<< 8 ||| d.toUInt32

/-- `MsgFrameDecode_Init` (msgframedecode.c 51-62): only the upper bound of the
message length is checked. -/
def init (msgLen : Nat) (data : Nat → UInt8) : Option Dec :=
  if bufLen < msgLen then none else some ⟨msgLen, 0, 0, bufLen, data⟩

/-- `MsgFrameDecode_RecvBytes` (msgframedecode.c 64-77). -/
def recvBytes (s : Dec) (bytes : List UInt8) : C (Bool × Dec) :=
  if s.avail < bytes.length then .ok (false, s)
  else if bufLen < s.stop + bytes.length then .error .oobWrite
  else .ok (true, { s with
    data := store s.data s.stop bytes
    stop := s.stop + bytes.length
    avail := s.avail - bytes.length })

/-- `verifyCrc` (msgframedecode.c 16-48) at position `start`: read the field at
`msgLen - 6`, zero it, compute, restore. The index is computed on unsigned numbers
in C; below zero it leaves the buffer. -/
def verifyCrc (crc : CrcUnit) (msgLen : Nat) (data : Nat → UInt8) (start : Nat) :
    C (Bool × (Nat → UInt8)) :=
  if start + msgLen < 6 then .error .oobRead
  else if bufLen < start + msgLen then .error .oobRead
  else
    let i := start + msgLen - 6
    let msgCrc := fromBe32 (data i) (data (i + 1)) (data (i + 2)) (data (i + 3))
    let zeroed := store data i [0, 0, 0, 0]
    let result := (crc start (slice zeroed start msgLen)).getD 0
    .ok (result == msgCrc, store zeroed i (be32 msgCrc))

/-- The search loop of `MsgFrameDecode_RecvMsg` (msgframedecode.c 83-106): `used`
bytes from `start`. Result: offset of a message, the cursor and the remaining
count. With message length 0 the first iteration of the first call reads
`data[start - 2]` with `start = 0`; with length 1, `data[start - 1]`. -/
def scan (crc : CrcUnit) (msgLen : Nat) : Nat → (Nat → UInt8) → Nat →
    C (Option Nat × (Nat → UInt8) × Nat × Nat)
  | used, data, start =>
    if used < msgLen then .ok (none, data, start, used)
    else if start + msgLen < 2 then .error .oobRead
    else if bufLen < start + msgLen ∨ bufLen ≤ start then .error .oobRead
    else
      let next := fun (d : Nat → UInt8) =>
        match used with
        | 0 => .error .oobRead
        | used' + 1 => scan crc msgLen used' d (start + 1)
      if data start = 0x3A ∧ data (start + msgLen - 2) = 0x0D ∧ data (start + msgLen - 1) = 0x0A then
        match verifyCrc crc msgLen data start with
        | .error e => .error e
        | .ok (true, d) => .ok (some start, d, start + msgLen, used - msgLen)
        | .ok (false, d) => next d
      else next data

/-- The compaction after an unsuccessful search (msgframedecode.c 108-117), byte
by byte as the loop does it. -/
def compact (s : Dec) (used : Nat) : Dec :=
  if 1 < s.start then
    { s with
      data := (List.range used).foldl (fun d i => fun j => if j = i then d (i + s.start) else d j) s.data
      avail := s.avail + s.start
      stop := s.stop - s.start
      start := 0 }
  else s

/-- `MsgFrameDecode_RecvMsg` (msgframedecode.c 79-120). -/
def recvMsg (crc : CrcUnit) (s : Dec) : C (Option Nat × Dec) :=
  match scan crc s.msgLen (s.stop - s.start) s.data s.start with
  | .error e => .error e
  | .ok (some off, d, start, _) => .ok (some off, { s with data := d, start := start })
  | .ok (none, d, start, used) =>
    if bufLen < used + start then .error .oobRead
    else .ok (none, compact { s with data := d, start := start } used)

/-! ## Encoder -/

/-- `MsgFrameEncode_InitFrame` (msgframeencode.c 19-37): the frame with the payload
area and the CRC field untouched. A failing assertion (21-22) is `none`. The buffer
is given by its current contents, of the frame's length. -/
def initFrame (addr func : UInt16) (dataLen : Nat) (buf : List UInt8) : Option (List UInt8) :=
  if buf.length < 11 ∨ buf.length - 11 ≠ dataLen then none
  else some (((((((buf.set 0 0x3A).set (buf.length - 2) 0x0D).set (buf.length - 1) 0x0A).set 1
      (addr >>> 8).toUInt8).set 2 addr.toUInt8).set 3 (func >>> 8).toUInt8).set 4 func.toUInt8)

/-- Writing the payload through the returned pointer `buffer + 5` (line 36). msgframeencode.c 36. -/
def putPayload (buf payload : List UInt8) : List UInt8 :=
  buf.take 5 ++ payload ++ buf.drop (5 + payload.length)

/-- `MsgFrameEncode_UpdateCRC` (msgframeencode.c 39-64). -/
def updateCrc (crc : List UInt8 → Option UInt32) (buf : List UInt8) : List UInt8 :=
  let i := buf.length - 6
  let zeroed := buf.take i ++ [0, 0, 0, 0] ++ buf.drop (i + 4)
  let result := (crc zeroed).getD 0
  buf.take i ++ be32 result ++ buf.drop (i + 4)

end Verif.MsgFrame
