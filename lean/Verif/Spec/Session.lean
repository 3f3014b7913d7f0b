import Verif.Spec.Operator
import Verif.Model.PcTool

set_option autoImplicit false

/-!
# A session of messages sent by the PC with the tool's encoder (C147)

What the messages ask for is read off their address, function and data; nothing here knows about frames.
-/

namespace Verif.SessionSpec
open TermSpec

/-- A message: address, function, eight bytes of data. -/
structure Msg where
  addr : UInt16
  func : UInt16
  data : List UInt8
  eight : data.length = 8

/-- The bytes the tool makes of it. -/
def Msg.bytes (m : Msg) : List UInt8 := PcTool.encodeMessage m.addr.toNat m.func.toNat m.data

/-- The bytes of a session on the wire. -/
def wire (ms : List Msg) : List UInt8 := ms.flatMap Msg.bytes

/-- The text in a message to the terminal. -/
def Msg.text (m : Msg) : List UInt8 :=
  if m.addr = 1 ∧ m.func = 0x9 then m.data.takeWhile (· ≠ 0) else []

/-- What a message asks for without the terminal. -/
def Msg.direct (m : Msg) : List Act :=
  if m.addr = 1 ∧ m.func = 0x102 then (m.data.drop 2).mapIdx fun i x => .power i (decide (x ≠ 0))
  else if m.addr = 1 ∧ m.func = 0x101 then [.ecuError (decide (m.data.getLast? ≠ some 0))]
  else []

/-- Everything a session asks for, in order; `cur` is the line not yet finished. -/
def wants (cur : List UInt8) : List Msg → List Act
  | [] => []
  | m :: ms =>
    m.direct ++ (splitLines m.text cur).1.flatMap (fun l => acts (words l [])) ++
      wants (splitLines m.text cur).2 ms

/-- The terminal lines of a session, finished and unfinished. -/
def lines (ms : List Msg) : List (List UInt8) × List UInt8 := splitLines (ms.flatMap Msg.text) []

/-- Text of the kind C43 covers. -/
structure PlainText (ms : List Msg) : Prop where
  one : ∀ m ∈ ms, m.text.count 10 ≤ 1
  length : ∀ l ∈ (lines ms).1, l.length ≤ 56
  head : ∀ l ∈ (lines ms).1, ∀ c, l.head? = some c → ¬ Blank c
  last : ∀ l ∈ (lines ms).1, ∀ c, l.getLast? = some c → ¬ Blank c
  few : ∀ l ∈ (lines ms).1, (words l []).length ≤ 8
  known : ∀ l ∈ (lines ms).1, ∀ x, words l [] = [help, x] → x = help ∨ x = setpdm ∨ x = setsdc
  rest : (lines ms).2.length ≤ 56

/-- Text cut into messages of at most eight characters, as the terminal takes it. -/
def chunk (t : List UInt8) (h : t.length ≤ 8) : Msg :=
  ⟨1, 9, t ++ List.replicate (8 - t.length) 0, by rw [List.length_append, List.length_replicate]; omega⟩

end Verif.SessionSpec
