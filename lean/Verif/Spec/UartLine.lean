import Verif.Model.UartRegs
import Mathlib.Data.Rat.Floor
import Mathlib.Algebra.Order.Floor.Ring

set_option autoImplicit false

/-!
# An asynchronous serial line: what a port puts on it and what a port hears

The meaning of the registers and the way the receiver samples the line follow the reference manual RM0410, chapter 34
(34.5.2, 34.5.3, 34.5.5).  Left out: noise on the line, and the steps in which a fractional baud rate places the
samples (they are taken as equally spaced).
-/

namespace Verif.UartLine
open Verif.UartRegs

/-- The format of the words on the line. -/
structure Format where
  /-- bits of a word, a parity bit included -/
  bits : Nat
  parity : Bool
  /-- stop bits, in halves -/
  stopHalves : Nat
  /-- samples per bit -/
  over : Nat
  /-- one sample decides instead of the majority of three -/
  oneBit : Bool
  msbFirst : Bool
  inverted : Bool
deriving DecidableEq, Repr

/-- The format the registers select. -/
def format (r : Regs) : Format where
  bits := if r.cr1.getLsbD 28 then 7 else if r.cr1.getLsbD 12 then 9 else 8
  parity := r.cr1.getLsbD 10
  stopHalves := match r.cr2.getLsbD 13, r.cr2.getLsbD 12 with
    | false, false => 2
    | false, true => 1
    | true, false => 4
    | true, true => 3
  over := if r.cr1.getLsbD 15 then 8 else 16
  oneBit := r.cr3.getLsbD 11
  msbFirst := r.cr2.getLsbD 19
  inverted := r.cr2.getLsbD 16 || r.cr2.getLsbD 17 || r.cr2.getLsbD 18

/-- The port is on and sends and receives, asynchronously, on its own two pins, without flow control. -/
def Working (r : Regs) : Prop :=
  r.cr1.getLsbD 0 = true ∧ r.cr1.getLsbD 2 = true ∧ r.cr1.getLsbD 3 = true ∧ r.cr1.getLsbD 13 = false ∧
  r.cr2.getLsbD 11 = false ∧ r.cr2.getLsbD 14 = false ∧ r.cr2.getLsbD 15 = false ∧
  r.cr3.getLsbD 1 = false ∧ r.cr3.getLsbD 3 = false ∧ r.cr3.getLsbD 5 = false ∧
  r.cr3.getLsbD 8 = false ∧ r.cr3.getLsbD 9 = false

/-- Eight bits, no parity, one stop bit, least significant bit first; sixteen samples per bit, majority of three. -/
def eightN1 : Format := ⟨8, false, 2, 16, false, false, false⟩

/-- Seconds per bit with a peripheral clock of `pclk` Hz, for sixteen samples per bit. -/
def bitTime (r : Regs) (pclk : ℚ) : ℚ := r.brr / pclk

/-! ## Sending -/

/-- The levels of a byte on the line, bit by bit: start, data, stop. -/
def shape (d : UInt8) : List Bool := false :: (List.range 8).map (fun k => d.toNat.testBit k) ++ [true]

/-- The level of the line at time `t`, when bytes are sent at the given times with bits of length `b`. -/
def level (b : ℚ) (sent : List (ℚ × UInt8)) (t : ℚ) : Bool :=
  match sent.find? (fun x => decide (x.1 ≤ t ∧ t < x.1 + 10 * b)) with
  | some x => (shape x.2).getD ⌊(t - x.1) / b⌋.toNat true
  | none => true

/-- A byte begins only when the one before it is complete. -/
def InTurn (b : ℚ) (sent : List (ℚ × UInt8)) : Prop := sent.Pairwise (fun x y => x.1 + 10 * b ≤ y.1)

/-! ## Receiving -/

/-- At least two of three. -/
def majority (x y z : Bool) : Bool := (x && y) || (y && z) || (x && z)

/-- The value of the bit whose first sample is `n`. -/
def vote (f : Format) (sig : Nat → Bool) (n : Nat) : Bool :=
  let m := f.over / 2
  if f.oneBit then sig (n + m) else majority (sig (n + m - 1)) (sig (n + m)) (sig (n + m + 1))

/-- A start bit begins with sample `n`: three samples high, then low, confirmed by the third, fifth and seventh sample
and by the eighth to tenth (for sixteen samples per bit). -/
def starts (f : Format) (sig : Nat → Bool) (n : Nat) : Bool :=
  decide (3 ≤ n) && sig (n - 3) && sig (n - 2) && sig (n - 1) && !sig n &&
    !majority (sig (n + 2)) (sig (n + 4)) (sig (n + 6)) && !vote f sig n

/-- The word after a start bit at sample `n`. -/
def word (f : Format) (sig : Nat → Bool) (n : Nat) : Nat :=
  ((List.range f.bits).map fun k => (vote f sig (n + f.over * (k + 1))).toNat *
    2 ^ (if f.msbFirst then f.bits - 1 - k else k)).sum

/-- What the receiver hears from sample `n` on, in at most `fuel` steps: a byte, or nothing for a word whose stop bit is
not there. After a word it looks for the next start bit right after the samples of the stop bit. -/
def hear (f : Format) (sig : Nat → Bool) : Nat → Nat → List (Option UInt8)
  | 0, _ => []
  | fuel + 1, n =>
    if starts f sig n then
      (if vote f sig (n + f.over * (f.bits + 1)) then
        some (UInt8.ofNat (word f sig n % 2 ^ (if f.parity then f.bits - 1 else f.bits))) else none) ::
      hear f sig fuel (n + f.over * (f.bits + 1) + f.over / 2 + 2)
    else hear f sig fuel (n + 1)

end Verif.UartLine
