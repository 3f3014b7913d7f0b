import Verif.Model.CanRegs
import Mathlib.Data.Rat.Floor
import Mathlib.Algebra.Order.Floor.Ring

set_option autoImplicit false

/-!
# A CAN bus: what a controller puts on it and what a controller reads

The meaning of the registers follows the reference manual RM0410, chapter 40 (40.7.7, 40.9.2); stuffing and
synchronisation follow ISO 11898-1.  `true` is recessive, `false` dominant.  Left out: disturbances of the bus, the
delay of the wires, arbitration (another node beginning at the same time), and the times within a time quantum (the
bus is looked at once per quantum).
-/

namespace Verif.CanLine
open Verif.CanRegs

/-! ## Settings -/

/-- The parts of a bit, in time quanta. -/
structure Timing where
  /-- from the beginning of the second quantum to the sample point -/
  seg1 : Nat
  /-- from the sample point to the end -/
  seg2 : Nat
  /-- largest correction per edge -/
  sjw : Nat
deriving DecidableEq, Repr

/-- Quanta per bit; the first is the synchronisation segment. -/
def Timing.bit (t : Timing) : Nat := 1 + t.seg1 + t.seg2

/-- `width` bits of a register from position `lo`. -/
def bits (r : BitVec 32) (lo width : Nat) : Nat := r.toNat / 2 ^ lo % 2 ^ width

/-- What BTR selects. -/
def timing (r : Regs) : Timing := ⟨bits r.btr 16 4 + 1, bits r.btr 20 3 + 1, bits r.btr 24 2 + 1⟩

/-- Seconds per time quantum with a clock of `pclk` Hz. -/
def quantumTime (r : Regs) (pclk : ℚ) : ℚ := (bits r.btr 0 10 + 1 : Nat) / pclk

/-- The controller takes part in the traffic: neither in initialisation nor asleep, neither silent nor looped back. -/
def Working (r : Regs) : Prop :=
  r.mcr.getLsbD 0 = false ∧ r.mcr.getLsbD 1 = false ∧ r.btr.getLsbD 30 = false ∧ r.btr.getLsbD 31 = false

/-! ## Sending -/

/-- Bit stuffing: after five equal bits one of the other kind. `run` bits equal to `last` have been sent. -/
def stuffFrom : Nat → Bool → List Bool → List Bool
  | _, _, [] => []
  | run, last, b :: rest =>
    if b = last then
      if run + 1 = 5 then b :: (!b) :: stuffFrom 1 (!b) rest else b :: stuffFrom (run + 1) b rest
    else b :: stuffFrom 1 b rest

/-- A bit stream on its way to the bus; before it the bus is idle. -/
def stuff (l : List Bool) : List Bool := stuffFrom 0 true l

/-- Removing the stuffing; `none` after six equal bits. -/
def unstuffFrom : Nat → Bool → List Bool → Option (List Bool)
  | _, _, [] => some []
  | run, last, b :: rest =>
    if run = 5 then if b = last then none else unstuffFrom 1 b rest
    else (unstuffFrom (if b = last then run + 1 else 1) b rest).map (b :: ·)

/-- See `unstuffFrom`. -/
def unstuff (l : List Bool) : Option (List Bool) := unstuffFrom 0 true l

/-- A frame on the bus: the stream from the start of frame to the end of the checksum, stuffed, then the delimiter and
the acknowledge slot. All that follows (delimiter, end of frame, idle) is recessive. -/
def wire (body : List Bool) (ack : Bool) : List Bool := stuff body ++ [true, ack]

/-- The level of the bus at time `t`, when bits of length `b` are sent from time `start` on. -/
def level (b start : ℚ) (l : List Bool) (t : ℚ) : Bool :=
  if t < start then true else l.getD ⌊(t - start) / b⌋.toNat true

/-! ## Receiving -/

/-- A receiver within a frame. -/
structure Rx where
  /-- number of the coming quantum within the bit -/
  pos : Nat
  /-- the value last sampled -/
  sampled : Bool
  /-- the level in the quantum before -/
  prev : Bool
  /-- there has been a synchronisation since the last sample -/
  done : Bool
  /-- the values sampled so far -/
  heard : List Bool
deriving DecidableEq, Repr

/-- Synchronisation to an edge seen in quantum `p`: an edge before the sample point is late and lengthens the bit, one
after it is early and shortens it, both by at most the jump width. -/
def adjust (t : Timing) (p : Nat) : Nat :=
  if p ≤ t.seg1 then p - min p t.sjw else (p + min (t.bit - p) t.sjw) % t.bit

/-- One time quantum, in which the bus has the level `v`. -/
def quantum (t : Timing) (r : Rx) (v : Bool) : Rx :=
  let sync := r.prev && !v && r.sampled && !r.done
  let p := if sync then adjust t r.pos else r.pos
  if p = t.seg1 then ⟨(p + 1) % t.bit, v, v, false, r.heard ++ [v]⟩
  else ⟨(p + 1) % t.bit, r.sampled, v, r.done || sync, r.heard⟩

/-- The receiver after `n` quanta, beginning on an idle bus (`none`). The first dominant level is the start of a frame,
and its quantum the first of a bit. -/
def listen (t : Timing) (sig : Nat → Bool) : Nat → Option Rx
  | 0 => none
  | n + 1 =>
    match listen t sig n with
    | none => if sig n then none else some ⟨1 % t.bit, true, false, true, []⟩
    | some r => some (quantum t r (sig n))

/-- The bits sampled in the first `n` quanta. -/
def heard (t : Timing) (sig : Nat → Bool) (n : Nat) : List Bool :=
  match listen t sig n with
  | none => []
  | some r => r.heard

end Verif.CanLine
