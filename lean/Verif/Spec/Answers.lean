import Verif.Spec.Term

set_option autoImplicit false

/-!
# What the terminal answers

A dialogue: what a line makes the terminal do and say, in order. A text is said in one message.
-/

namespace Verif.TermSpec

/-- The bytes of an ASCII text. -/
def ascii (s : String) : List UInt8 := s.toList.map fun c => UInt8.ofNat c.toNat

/-- One step of the dialogue. -/
inductive Item where
  | does (a : Act)
  | says (text : List UInt8)
  deriving DecidableEq, Repr

/-- The overview of the commands. -/
def overview : List Item :=
  [.says (ascii "Available commands:\n"),
   .says (ascii "help         Display command help screen\n"),
   .says (ascii "setpdm       Control PDM channels\n"),
   .says (ascii "setsdc       Control shutdown circuit output state\n")]

/-- What is said about one command: its purpose, and how it is used. -/
def about (name : List UInt8) : List Item :=
  if name = help then
    [.says (ascii "Display command help screen"), .says (ascii "\n"),
     .says (ascii "Use help [cmd] for extended help for a specific command")]
  else if name = setpdm then
    [.says (ascii "Control PDM channels"), .says (ascii "\n"),
     .says (ascii "Usage: setpdm 1 2 3 4 5 6\n1-6 are the on off states for channels 1-6, respectively.\nFor example, `setpdm 0 0 1 0 1 0` turns on channels 3 and 5, and switches\noff remaining channels.\n")]
  else if name = setsdc then
    [.says (ascii "Control shutdown circuit output state"), .says (ascii "\n"),
     .says (ascii "Usage: setsdc x\nwhere x is 0 or 1 to disable or enable the SDC output.\n")]
  else []

/-- The dialogue of a line, given as its words. Every output that is set is reported after it has been
set, with its number and value; a refused line says why and does nothing. -/
def dialogue : List (List UInt8) → List Item
  | [] => []
  | n :: as =>
    if n = help then
      match as with
      | [] => overview
      | [x] => about x
      | _ => .says (ascii "Unexpected number of arguments.\n\n") :: overview
    else if n = setpdm then
      match as.map bit with
      | [some a, some b, some c, some d, some e, some f] =>
        .says (ascii "Test command executed: set PDM states to\n") ::
          [(0, a), (1, b), (2, c), (3, d), (4, e), (5, f)].flatMap fun (x : Nat × Bool) =>
            [.does (.power x.1 x.2),
             .says (ascii ("  PDM channel " ++ toString x.1 ++ (if x.2 then ": 1\n" else ": 0\n")))]
      | [_, _, _, _, _, _] => [.says (ascii "Param must be 0 or 1\n")]
      | _ => [.says (ascii "Unexpected number of params\n")]
    else if n = setsdc then
      match as.map bit with
      | [some b] => [.does (.ecuError b), .says (ascii (if b then "  SDC output set to: 1\n" else "  SDC output set to: 0\n"))]
      | [none] => [.says (ascii "Param must be 0 or 1\n")]
      | _ => [.says (ascii "Unexpected number of params\n")]
    else []

/-- The prompt. -/
def prompt : Item := .says (ascii "> ")

end Verif.TermSpec
