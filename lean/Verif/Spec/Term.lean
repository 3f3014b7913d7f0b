set_option autoImplicit false

/-!
# Specification of the terminal language

Lines end with a newline; a line is a sequence of words separated by blanks (space
or tab). Two commands act on the vehicle: `setsdc x` and `setpdm x1 .. x6`, where an
argument counts by its first character, 0 or 1.
-/

namespace Verif.TermSpec

/-- Space or tab. -/
def Blank (c : UInt8) : Prop := c = 32 ∨ c = 9

instance (c : UInt8) : Decidable (Blank c) := inferInstanceAs (Decidable (_ ∨ _))

/-- The complete lines of a text (without newline) and the rest; `cur` is the text
of the current line read so far. -/
def splitLines : List UInt8 → List UInt8 → List (List UInt8) × List UInt8
  | [], cur => ([], cur)
  | c :: cs, cur =>
    if c = 10 then (cur :: (splitLines cs []).1, (splitLines cs []).2) else splitLines cs (cur ++ [c])

/-- The words of a line; `cur` is the current word read so far. -/
def words : List UInt8 → List UInt8 → List (List UInt8)
  | [], cur => if cur = [] then [] else [cur]
  | c :: cs, cur =>
    if Blank c then (if cur = [] then words cs [] else cur :: words cs []) else words cs (cur ++ [c])

/-- Actions on the vehicle. -/
inductive Act where
  | ecuError (on : Bool)
  | power (channel : Nat) (on : Bool)
  deriving DecidableEq, Repr

/-- Value of an argument. -/
def bit : List UInt8 → Option Bool
  | 48 :: _ => some false
  | 49 :: _ => some true
  | _ => none

/-- "setsdc", "setpdm", "help" -/
def setsdc : List UInt8 := [115, 101, 116, 115, 100, 99]
def setpdm : List UInt8 := [115, 101, 116, 112, 100, 109]
def help : List UInt8 := [104, 101, 108, 112]

/-- What a line, given as its words, does to the vehicle. -/
def acts : List (List UInt8) → List Act
  | [] => []
  | n :: as =>
    if n = setsdc then
      match as with
      | [a] => ((bit a).map Act.ecuError).toList
      | _ => []
    else if n = setpdm then
      if as.length = 6 ∧ ∀ a ∈ as, (bit a).isSome then as.mapIdx fun i a => .power i ((bit a).getD false)
      else []
    else []

end Verif.TermSpec
