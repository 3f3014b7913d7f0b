import Verif.Model.MsgFrame

set_option autoImplicit false

/-!
# NMEA decoder: system-lib/uart/nmeadecode.c, nmeatypes.c

Cursors are C `uint16_t`: natural numbers with explicit reduction modulo 65536.
Reads outside the 1024-byte buffer, and writes outside the 128-byte token buffer,
are undefined behaviour.
-/

namespace Verif.Nmea

/-- `NMEAMSG_BUFFER_LEN` (nmeadecode.h 20). -/
def bufLen : Nat := 1024

/-- `struct token::tokenBuffer` (nmeadecode.c 51). -/
def tokenLen : Nat := 128

/-- `uint16_t` subtraction. nmeadecode.c 345, 385, 449, 473. -/
def sub16 (a b : Nat) : Nat := (a + 65536 - b) % 65536

/-- Read of `nmea->data[i]`. nmeadecode.c 76-93, 244-247, 274-330. -/
def rd (d : Nat → UInt8) (i : Nat) : C UInt8 := if i < bufLen then .ok (d i) else .error .oobRead

/-! ## nmeatypes.c -/

/-- `charToUInt8Dec` (nmeatypes.c 10-18). -/
def charToUInt8Dec (c : UInt8) : Option UInt8 := if 0x30 ≤ c ∧ c ≤ 0x39 then some (c - 0x30) else none

/-- `charToUInt16Dec` (nmeatypes.c 20-28). -/
def charToUInt16Dec (c : UInt8) : Option UInt16 :=
  if 0x30 ≤ c ∧ c ≤ 0x39 then some (c.toUInt16 - 0x30) else none

/-- `charToUInt16Hex` (nmeatypes.c 30-46). -/
def charToUInt16Hex (c : UInt8) : Option UInt16 :=
  if 0x30 ≤ c ∧ c ≤ 0x39 then some (c.toUInt16 - 0x30)
  else if 0x41 ≤ c ∧ c ≤ 0x46 then some (c.toUInt16 - 0x41 + 10)
  else if 0x61 ≤ c ∧ c ≤ 0x66 then some (c.toUInt16 - 0x61 + 10)
  else none

/-- Loop of `strToUInt8Dec` (nmeatypes.c 52-61) over the characters from the last
to the first. The product of two `uint16_t` is computed in `int` and narrowed to 8
bits; narrowing the 16-bit product gives the same bits. -/
def strLoop : List UInt8 → UInt16 → UInt8 → Bool × UInt8
  | [], _, out => (true, out)
  | c :: cs, mul, out =>
    match charToUInt16Dec c with
    | none => (false, out)
    | some digit => strLoop cs (mul * 10) (out + (mul * digit).toUInt8)

/-- `strToUInt8Dec` (nmeatypes.c 48-64): success and the value left in `*out`. -/
def strToUInt8Dec (str : List UInt8) : Bool × UInt8 := strLoop str.reverse 1 0

/-- `NmeaUTCTime_T` (nmeatypes.h 16-22). -/
structure Time where
  hour : UInt8
  min : UInt8
  sec : UInt8
  millisec : UInt16
  deriving DecidableEq, Repr

/-- `NmeaCharToUTCTime` (nmeatypes.c 66-101) on the 11 bytes `b 0 .. b 10`. -/
def utcTime (b : Nat → UInt8) : Option Time :=
  if b 10 ≠ 0 then none
  else
    match charToUInt8Dec (b 0), charToUInt8Dec (b 1), charToUInt8Dec (b 2), charToUInt8Dec (b 3),
      charToUInt8Dec (b 4), charToUInt8Dec (b 5) with
    | some h1, some h0, some m1, some m0, some s1, some s0 =>
      if b 6 = 0x2E then
        match charToUInt16Dec (b 7), charToUInt16Dec (b 8), charToUInt16Dec (b 9) with
        | some ms2, some ms1, some ms0 =>
          some ⟨10 * h1 + h0, 10 * m1 + m0, 10 * s1 + s0, 100 * ms2 + 10 * ms1 + ms0⟩
        | _, _, _ => none
      else if b 6 ≠ 0 then none
      else some ⟨10 * h1 + h0, 10 * m1 + m0, 10 * s1 + s0, 0⟩
    | _, _, _, _, _, _ => none

/-! ## Output -/

/-- `struct NmeaMessageGPGGA` (nmeafields.h 23-32); the position strings are the 11
bytes of the arrays. -/
structure Gga where
  time : Time
  lat : List UInt8
  ns : UInt8
  lon : List UInt8
  ew : UInt8
  fix : UInt8
  sats : UInt8
  deriving DecidableEq, Repr

/-- `NmeaMessageType_T` (nmeafields.h 62-68); the two kinds the decoder never
reports are left out. -/
inductive MsgType where
  | null
  | gpgga
  deriving DecidableEq, Repr

/-- `NmeaMessageFields_T` (nmeafields.h 70-78). -/
structure Out where
  type : MsgType
  gga : Gga
  deriving DecidableEq, Repr

/-! ## Payload -/

/-- The characters of the next token, remaining payload length, next position. nmeadecode.c 47-52. -/
structure Tok where
  chars : List UInt8
  left : Nat
  pos : Nat
  deriving DecidableEq, Repr

/-- Loop and tail of `extractNextToken` (nmeadecode.c 76-93). `pos` is the absolute
index of `inStr[i]`, `left = inStrLen - i` (0 when `i` is past the end). Each stored
character and the terminator are bounds-checked against the token buffer. -/
def nextTok (d : Nat → UInt8) : Nat → Nat → List UInt8 → C Tok
  | 0, pos, acc =>
    match rd d pos with
    | .error e => .error e
    | .ok _ => if acc.length < tokenLen then .ok ⟨acc, 0, pos + 1⟩ else .error .oobWrite
  | left + 1, pos, acc =>
    match rd d pos with
    | .error e => .error e
    | .ok c =>
      if c = 0x2C then
        if acc.length < tokenLen then .ok ⟨acc, left, pos + 1⟩ else .error .oobWrite
      else if acc.length < tokenLen then nextTok d left (pos + 1) (acc ++ [c])
      else .error .oobWrite

/-- `strncpy(dst, tok, count)` with `count` = token length + 1, into an 11-byte
array (nmeadecode.c 118, 136): copies up to a NUL, pads with NUL up to `count`. -/
def strncpyTok (dst tok : List UInt8) : List UInt8 :=
  let s := tok.takeWhile (· ≠ 0)
  s ++ List.replicate (tok.length + 1 - s.length) 0 ++ dst.drop (tok.length + 1)

/-- What a field does with its (non-empty) token: success and the output. nmeadecode.c 104-184. -/
abbrev Handler := List UInt8 → Gga → Bool × Gga

/-- UTC time (nmeadecode.c 104-109). The token buffer starts zeroed (98) and this is
the first token, so the bytes after the token are zero. -/
def hTime : Handler := fun tok g =>
  match utcTime (fun i => tok.getD i 0) with
  | none => (false, g)
  | some t => (true, { g with time := t })

/-- Latitude (nmeadecode.c 111-118). -/
def hLat : Handler := fun tok g =>
  if 11 < tok.length + 1 then (false, g) else (true, { g with lat := strncpyTok g.lat tok })

/-- N/S (nmeadecode.c 120-127). -/
def hNs : Handler := fun tok g =>
  let c := tok.getD 0 0
  if c ≠ 0x4E ∧ c ≠ 0x53 then (false, g) else (true, { g with ns := c })

/-- Longitude (nmeadecode.c 129-136). -/
def hLon : Handler := fun tok g =>
  if 11 < tok.length + 1 then (false, g) else (true, { g with lon := strncpyTok g.lon tok })

/-- E/W (nmeadecode.c 138-145). -/
def hEw : Handler := fun tok g =>
  let c := tok.getD 0 0
  if c ≠ 0x45 ∧ c ≠ 0x57 then (false, g) else (true, { g with ew := c })

/-- Position fix (nmeadecode.c 147-152). -/
def hFix : Handler := fun tok g =>
  match charToUInt8Dec (tok.getD 0 0) with
  | none => (false, g)
  | some v => (true, { g with fix := v })

/-- Satellites (nmeadecode.c 154-159). -/
def hSats : Handler := fun tok g =>
  let r := strToUInt8Dec tok
  (r.1, { g with sats := r.2 })

/-- A field that must be present but is not used (nmeadecode.c 161-184). -/
def hSkip : Handler := fun _ g => (true, g)

/-- The required fields in order (nmeadecode.c 104-184). -/
def handlers : List Handler :=
  [hTime, hLat, hNs, hLon, hEw, hFix, hSats, hSkip, hSkip, hSkip, hSkip, hSkip]

/-- `payloadDecodeGPGGA` (nmeadecode.c 96-192): the required fields, then one
optional one. A token of count below 2, i.e. an empty one, fails (57). -/
def runFields (d : Nat → UInt8) : List Handler → Nat → Nat → Gga → C (Bool × Gga)
  | [], left, pos, g =>
    match nextTok d left pos [] with
    | .error e => .error e
    | .ok _ => .ok (true, g)
  | h :: hs, left, pos, g =>
    match nextTok d left pos [] with
    | .error e => .error e
    | .ok t =>
      if t.chars.length + 1 < 2 then .ok (false, g)
      else
        match h t.chars g with
        | (false, g') => .ok (false, g')
        | (true, g') => runFields d hs t.left t.pos g'

/-! ## Sentence -/

/-- Loop of `tryDecodeLocatePayload` (nmeadecode.c 318-325): index of the first `*`
from `i` up to and including `stop`. The first argument is `1024 - i`. -/
def findStar (d : Nat → UInt8) (stop : Nat) : Nat → Nat → C (Option Nat)
  | 0, i => if i ≤ stop then .error .oobRead else .ok none
  | n + 1, i =>
    if i ≤ stop then
      if d i = 0x2A then .ok (some i) else findStar d stop n (i + 1)
    else .ok none

/-- XOR of the bytes from `i`, `n` of them (nmeadecode.c 244-247). -/
def xorFrom (d : Nat → UInt8) (i n : Nat) : UInt16 :=
  (List.range' i n).foldl (fun x j => x ^^^ (d j).toUInt16) 0

/-- `verifyChecksum` (nmeadecode.c 224-250). `dec->checksum[2]` is always NUL
(zero-initialised, 380). -/
def verifyChecksum (d : Nat → UInt8) (msgBegin payloadBegin payloadEnd : Nat) (k1 k0 : UInt8) : Bool :=
  if payloadEnd < payloadBegin + 2 then false
  else
    match charToUInt16Hex k1, charToUInt16Hex k0 with
    | some c1, some c0 =>
      xorFrom d (msgBegin + 1) (payloadEnd - (msgBegin + 1)) == (c1 <<< 4) + c0
    | _, _ => false

/-- `NMEA_GPGGA_TALKERID` (nmeafields.h 21). -/
def gpgga : List UInt8 := [0x47, 0x50, 0x47, 0x47, 0x41]

/-- `NmeaDecode_T` (nmeadecode.h 22-30). -/
structure Nmea where
  start : Nat
  stop : Nat
  avail : Nat
  data : Nat → UInt8

/-- `tryDecodeStart` (nmeadecode.c 274-284). -/
def tryStart (s : Nmea) : C Bool :=
  match rd s.data s.start with
  | .error e => .error e
  | .ok c => .ok (c == 0x24)

/-- `tryDecodeTalkerMsgId` (nmeadecode.c 293-305): copies the 5 bytes after the `$`
and checks the comma behind them. -/
def tryTalker (s : Nmea) : C Bool :=
  if bufLen ≤ s.start + 6 then .error .oobRead else .ok (s.data (s.start + 6) == 0x2C)

/-- `tryDecodeLocateMsgEnd` (nmeadecode.c 342-362) with the index of the `*`. -/
def tryMsgEnd (s : Nmea) (star : Nat) : C Bool :=
  if sub16 s.stop (star + 1) < 4 then .ok false
  else if bufLen ≤ star + 3 then .error .oobRead
  else if s.data (star + 3) ≠ 0x0D then .ok false
  else if bufLen ≤ star + 4 then .error .oobRead
  else .ok (s.data (star + 4) == 0x0A)

/-- The four steps joined by `&&` (nmeadecode.c 393-400), including
`tryDecodeLocatePayload` (314-333): the index of the `*`. -/
def locate (s : Nmea) : C (Option Nat) :=
  match tryStart s with
  | .error e => .error e
  | .ok false => .ok none
  | .ok true =>
    match tryTalker s with
    | .error e => .error e
    | .ok false => .ok none
    | .ok true =>
      match findStar s.data s.stop (bufLen - (s.start + 7)) (s.start + 7) with
      | .error e => .error e
      | .ok none => .ok none
      | .ok (some star) =>
        match tryMsgEnd s star with
        | .error e => .error e
        | .ok false => .ok none
        | .ok true => .ok (some star)

/-- `tryDecodePayload` (nmeadecode.c 201-221). -/
def tryPayload (s : Nmea) (star : Nat) (o : Out) : C (Bool × Out) :=
  if (List.range' (s.start + 1) 5).map s.data = gpgga then
    match runFields s.data handlers (star - (s.start + 7)) (s.start + 7) o.gga with
    | .error e => .error e
    | .ok (b, g) => .ok (b, ⟨.gpgga, g⟩)
  else .ok (false, { o with type := .null })

/-- `tryDecode` (nmeadecode.c 371-415). The result length is the absolute index
behind the sentence, as line 408 sets it. -/
def tryDecode (s : Nmea) (o : Out) : C (Nat × Out) :=
  let o := { o with type := .null }
  if s.stop = s.start then .ok (0, o)
  else if sub16 s.stop s.start < 13 then .ok (0, o)
  else
    match locate s with
    | .error e => .error e
    | .ok none => .ok (0, o)
    | .ok (some star) =>
      if verifyChecksum s.data s.start (s.start + 7) star (s.data (star + 1)) (s.data (star + 2)) then
        match tryPayload s star o with
        | .error e => .error e
        | .ok (true, o') => .ok (star + 5, o')
        | .ok (false, o') => .ok (0, o')
      else .ok (0, o)

/-- `NmeaDecode_Init` (nmeadecode.c 419-424). -/
def init (data : Nat → UInt8) : Nmea := ⟨0, 0, bufLen, data⟩

/-- `NmeaDecode_AccumulateBytes` (nmeadecode.c 426-440). -/
def accumulate (s : Nmea) (bytes : List UInt8) : C (Bool × Nmea) :=
  if s.avail < bytes.length then .ok (false, s)
  else if bufLen < s.stop + bytes.length then .error .oobWrite
  else .ok (true, { s with
    data := MsgFrame.store s.data s.stop bytes
    stop := s.stop + bytes.length
    avail := s.avail - bytes.length })

/-- `trimFront` (nmeadecode.c 258-265). The first argument is `stop - start`. -/
def trimFront (d : Nat → UInt8) : Nat → Nat → C Nat
  | 0, start => .ok start
  | n + 1, start =>
    match rd d start with
    | .error e => .error e
    | .ok c => if c ≠ 0x24 then trimFront d n (start + 1) else .ok start

/-- Loop of `NmeaDecode_Decode` (nmeadecode.c 451-464) with `used` = `usedBytes`;
`start` is advanced in place. -/
def decodeLoop : Nat → Nmea → Out → C (Bool × Nat × Nmea × Out)
  | 0, s, o => .ok (false, 0, s, o)
  | used + 1, s, o =>
    if used + 1 ≤ 13 then .ok (false, used + 1, s, o)
    else
      match tryDecode s o with
      | .error e => .error e
      | .ok (msgLen, o') =>
        if msgLen = 0 then decodeLoop used { s with start := (s.start + 1) % 65536 } o'
        else .ok (true, 0, { s with start := (s.start + msgLen) % 65536 }, o')

/-- The compaction (nmeadecode.c 466-475). -/
def compact (s : Nmea) (used : Nat) : C Nmea :=
  if 1 < s.start then
    if 0 < used ∧ bufLen < used + s.start then .error .oobRead
    else .ok {
      data := (List.range used).foldl (fun d i => fun j => if j = i then d (i + s.start) else d j) s.data
      avail := (s.avail + s.start) % 65536
      stop := sub16 s.stop s.start
      start := 0 }
  else .ok s

/-- `NmeaDecode_Decode` (nmeadecode.c 442-478). -/
def decode (s : Nmea) (o : Out) : C (Bool × Nmea × Out) :=
  match trimFront s.data (s.stop - s.start) s.start with
  | .error e => .error e
  | .ok start =>
    let s := { s with start := start }
    match decodeLoop (sub16 s.stop s.start) s o with
    | .error e => .error e
    | .ok (true, _, s', o') => .ok (true, s', o')
    | .ok (false, used, s', o') =>
      match compact s' used with
      | .error e => .error e
      | .ok s'' => .ok (false, s'', o')

end Verif.Nmea
