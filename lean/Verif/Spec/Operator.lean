import Verif.Model.Vehicle
import Verif.Spec.Term
import Verif.Spec.MsgFrame

set_option autoImplicit false

/-!
# What the operator at the PC asks for (C140)

From the frames of the PC alone: a frame addressed to the ECU is a power request (function 0x102),
a request for the shutdown line (0x101) or a piece of terminal text (0x9). Terminal text is cut
into lines across frames; a line acts as the terminal language says (`TermSpec.acts`).
-/

namespace Verif.OperatorSpec
open TermSpec Vehicle

/-- Bytes the PC interface has taken from the serial stream. -/
def taken (s : St) : List Ev → List UInt8
  | [] => []
  | e :: es =>
    match step s e with
    | .error _ => []
    | .ok (s', _) =>
      (match e with
        | .pcBatch b _ => if s.todo = [] then b else []
        | _ => []) ++ taken s' es

/-- Two bytes of a frame, most significant first. -/
def pair (m : List UInt8) (i : Nat) : Nat := (m.getD i 0).toNat * 256 + (m.getD (i + 1) 0).toNat

/-- Addressed to the ECU with this function. -/
def IsRequest (m : List UInt8) (func : Nat) : Prop := pair m 1 = 1 ∧ pair m 3 = func

instance (m : List UInt8) (func : Nat) : Decidable (IsRequest m func) := inferInstanceAs (Decidable (_ ∧ _))

/-- What a frame asks for directly: six power outputs in data bytes 2 to 7, or the shutdown line in
data byte 7. The data begin at byte 5. -/
def direct (m : List UInt8) : List Act :=
  if IsRequest m 0x102 then (List.range 6).map fun i => .power i (decide (m.getD (5 + (2 + i)) 0 ≠ 0))
  else if IsRequest m 0x101 then [.ecuError (decide (m.getD (5 + 7) 0 ≠ 0))]
  else []

/-- The terminal text in a frame: the eight data bytes up to a NUL. -/
def typed (m : List UInt8) : List UInt8 :=
  if IsRequest m 0x9 then ((m.drop 5).take 8).takeWhile (· ≠ 0) else []

/-- Everything asked for by these frames, in order; `cur` is the unfinished line. -/
def orders (cur : List UInt8) : List (List UInt8) → List Act
  | [] => []
  | m :: ms =>
    direct m ++ (splitLines (typed m) cur).1.flatMap (fun l => acts (words l [])) ++
      orders (splitLines (typed m) cur).2 ms

/-- The terminal text is of the kind C43 covers: no frame completes two lines, no line has more than
56 characters or eight words or begins or ends with a blank, `help` is asked for commands that
exist. -/
structure Ordinary (ms : List (List UInt8)) : Prop where
  one : ∀ m ∈ ms, (typed m).count 10 ≤ 1
  length : ∀ l ∈ (splitLines (ms.flatMap typed) []).1, l.length ≤ 56
  head : ∀ l ∈ (splitLines (ms.flatMap typed) []).1, ∀ c, l.head? = some c → ¬ Blank c
  last : ∀ l ∈ (splitLines (ms.flatMap typed) []).1, ∀ c, l.getLast? = some c → ¬ Blank c
  few : ∀ l ∈ (splitLines (ms.flatMap typed) []).1, (words l []).length ≤ 8
  known : ∀ l ∈ (splitLines (ms.flatMap typed) []).1, ∀ x, words l [] = [help, x] →
    x = help ∨ x = setpdm ∨ x = setsdc
  rest : (splitLines (ms.flatMap typed) []).2.length ≤ 56

/-- The state last asked for power output `ch`; off if never asked. -/
def lastAsked (ch : Nat) (init : Bool) : List Act → Bool
  | [] => init
  | .power c b :: as => lastAsked ch (if c = ch then b else init) as
  | .ecuError _ :: as => lastAsked ch init as

end Verif.OperatorSpec
