import Verif.Model.Nmea
import Verif.Model.VehicleState

set_option autoImplicit false

/-!
# GPS task: device/gps/gps.c

One activation of `GPS_TaskMethod`. The local `decodedFields` (gps.c 70) is never
initialised: its first value is an input, `junk`. The decoder is `Model/Nmea.lean`.
-/

namespace Verif.Gps
open Nmea

/-- `GPS_RECV_STREAM_SIZE_BYTES` (gps.h 35). -/
def streamSize : Nat := 2048

/-- Length of `"GPS received sentence: "` (gps.c 54). -/
def prefixLen : Nat := 23

/-- One `snprintf(buff + offset, 2048, ...)` that produces `n < 2048` characters
(gps.c 54-58): it stores `n + 1` bytes (the terminator too) and returns `n`. The
size argument never limits it, so nothing but the caller keeps it inside the
4096-byte array (gps.c 53). -/
def put (offset n : Nat) : C Nat :=
  if offset + n + 1 ≤ 2 * streamSize then .ok (offset + n) else .error .oobWrite

/-- The loop of gps.c 55-57: `%c` of one byte produces one character, also for a NUL. -/
def putEach : Nat → Nat → C Nat
  | 0, offset => .ok offset
  | n + 1, offset =>
    match put offset 1 with
    | .error e => .error e
    | .ok off => putEach n off

/-- Building the log line (gps.c 53-58) for `n` received bytes: the final offset. The
line itself is never printed. -/
def logLine (n : Nat) : C Nat :=
  match put 0 prefixLen with
  | .error e => .error e
  | .ok off =>
    match putEach n off with
    | .error e => .error e
    | .ok off => put off 1

/-- `pushGPGGA` (gps.c 24-37) with the outcome of acquiring the vehicle state. The
arrays are copied whole, 11 bytes each (32-33). The release without a successful
acquire (36) is not modelled. -/
def push (acquired : Bool) (p : GpsState) (g : Gga) : GpsState :=
  if acquired then
    { utcTime := ⟨g.time.hour, g.time.min, g.time.sec, g.time.millisec⟩
      latitude := g.lat, nsIndicator := g.ns, longitude := g.lon, ewIndicator := g.ew
      positionFix := g.fix, nSatellites := g.sats }
  else p

/-- The loop of gps.c 71-92, at most `fuel` calls of `NmeaDecode_Decode`; `none` when
they do not suffice. `acq i` is the outcome of the `i`-th acquisition. The result
lists the records after each push. -/
def loop : Nat → (Nat → Bool) → Nmea → Out → GpsState → C (Option (List GpsState × Nmea × GpsState))
  | 0, _, _, _, _ => .ok none
  | fuel + 1, acq, s, o, p =>
    match decode s o with
    | .error e => .error e
    | .ok (false, s', _) => .ok (some ([], s', p))
    | .ok (true, s', o') =>
      let p' := match o'.type with
        | .gpgga => push (acq 0) p o'.gga
        | .null => p
      match loop fuel (fun i => acq (i + 1)) s' o' p' with
      | .error e => .error e
      | .ok none => .ok none
      | .ok (some (ps, t, q)) => .ok (some (p' :: ps, t, q))

/-- `GPS_TaskMethod` (gps.c 39-93) on the `batch` taken from the stream buffer
(41-49), at most 2048 bytes. `none`: the decode loop did not end within `fuel`
calls. -/
def activation (fuel : Nat) (batch : List UInt8) (junk : Out) (acq : Nat → Bool) (s : Nmea) (p : GpsState) :
    C (Option (List GpsState × Nmea × GpsState)) :=
  if batch = [] then .ok (some ([], s, p))
  else
    match logLine batch.length with
    | .error e => .error e
    | .ok _ =>
      match accumulate s batch with
      | .error e => .error e
      | .ok (false, s') => .ok (some ([], s', p))
      | .ok (true, s') => loop fuel acq s' junk p

/-- What one activation meets: the batch received, the previous contents of the stack
area of `decodedFields`, the outcomes of acquiring the vehicle state. gps.c 41-49, 70, 24-37. -/
structure Input where
  batch : List UInt8
  junk : Out
  acq : Nat → Bool

/-- `GPS_Task` (gps.c 96-103): any number of activations. The result lists every
record pushed. -/
def run (fuel : Nat) : List Input → Nmea → GpsState → C (Option (List GpsState × Nmea × GpsState))
  | [], s, p => .ok (some ([], s, p))
  | i :: is, s, p =>
    match activation fuel i.batch i.junk i.acq s p with
    | .error e => .error e
    | .ok none => .ok none
    | .ok (some (ps, s', p')) =>
      match run fuel is s' p' with
      | .error e => .error e
      | .ok none => .ok none
      | .ok (some (ps', t, q)) => .ok (some (ps ++ ps', t, q))

end Verif.Gps
