import Verif.Model.MsgFrame

set_option autoImplicit false

/-!
# Debug terminal: vcu/device/pcinterface/debugterm.c, debugtermcommands.c,
debugtermlib.h

Writes outside the command buffer and the argument array, and the use of a missing
command, are undefined behaviour.
-/

namespace Verif.Term
open MsgFrame

/-- `PCINTERFACE_DEBUGTERM_BUFLEN` (pcinterface.h 47). -/
def bufLen : Nat := 64

/-- `DEBUGTERM_NUM_ARGS` (debugtermcommands.h 16). -/
def numArgs : Nat := 8

/-- Characters per argument, `PCINTERFACE_DEBUGTERM_BUFLEN+1` (debugterm.c 67). -/
def argLen : Nat := 65

/-- Bytes of an ASCII string literal. E.g. debugtermcommands.c 137-160. -/
def str (s : String) : List UInt8 := s.toList.map fun c => UInt8.ofNat c.toNat

/-- What the terminal does outside itself. debugtermcommands.c 33-135, debugtermlib.h 28-59. -/
inductive Eff where
  /-- `DebugPrint` -/
  | print (text : List UInt8)
  /-- `VehicleControl_SetECUError` -/
  | ecuError (on : Bool)
  /-- `VehicleControl_SetPowerChannel` -/
  | power (channel : Nat) (on : Bool)
  deriving DecidableEq, Repr

/-! ## Commands (debugtermcommands.c) -/

/-- `char argv[8][65]`. debugterm.c 50. -/
abbrev Args := Nat → Nat → UInt8

/-- One execution of `processCommand`: `argc`, `argv`. debugterm.c 47-59. -/
structure Call where
  argc : Nat
  argv : Args

/-- `strcmp(row, name) == 0` for a literal `name`: reads `row` up to the length of
`name`, at most 7 bytes. debugterm.c 55, debugtermcommands.c 25. -/
def strEq (row : Nat → UInt8) (name : List UInt8) : Bool :=
  (List.range (name.length + 1)).all fun i => row i == name.getD i 0

/-- The implementation a table entry points to. debugtermcommands.c 137-160. -/
inductive Exec where
  | help | setpdm | setsdc
  deriving DecidableEq, Repr

/-- `struct DebugTerm_CmdDef` (debugtermcommands.h 23-28). -/
structure CmdDef where
  name : List UInt8
  desc : List UInt8
  help : List UInt8
  exec : Exec
  deriving DecidableEq, Repr

/-- `DebugTerm_Commands` (debugtermcommands.c 137-160). -/
def commands : List CmdDef := [
  ⟨str "help", str "Display command help screen", str "Use help [cmd] for extended help for a specific command", .help⟩,
  ⟨str "setpdm", str "Control PDM channels",
    str "Usage: setpdm 1 2 3 4 5 6\n" ++ str "1-6 are the on off states for channels 1-6, respectively.\n" ++
    str "For example, `setpdm 0 0 1 0 1 0` turns on channels 3 and 5, and switches\n" ++
    str "off remaining channels.\n", .setpdm⟩,
  ⟨str "setsdc", str "Control shutdown circuit output state",
    str "Usage: setsdc x\n" ++ str "where x is 0 or 1 to disable or enable the SDC output.\n", .setsdc⟩]

/-- `snprintf(helpLineBuf, 256, "%-12s %s\n", ...)` (debugtermcommands.c 45-46). -/
def helpLine (c : CmdDef) : List UInt8 :=
  (c.name ++ List.replicate (12 - c.name.length) 0x20 ++ [0x20] ++ c.desc ++ [0x0A]).take 255

/-- `cmd_help` with `argc` 1 (debugtermcommands.c 39-51). -/
def helpAll : List Eff := .print (str "Available commands:\n") :: commands.map fun c => .print (helpLine c)

/-- `cmd_help` (debugtermcommands.c 33-71); `findCmdByName` 20-31 may be null. -/
def cmdHelp (c : Call) : C (List Eff) :=
  if c.argc = 1 then .ok helpAll
  else if c.argc = 2 then
    match commands.find? (fun d => strEq (c.argv 1) d.name) with
    | none => .error .nullDeref
    | some d => .ok [.print d.desc, .print (str "\n"), .print d.help]
  else .ok (.print (str "Unexpected number of arguments.\n\n") :: helpAll)

/-- A parameter that must be 0 or 1 (debugtermcommands.c 85-93, 117-128). -/
def param (c : UInt8) : Option Bool := if c = 0x30 then some false else if c = 0x31 then some true else none

/-- A digit 0-9 as printed by `%u`. debugtermcommands.c 101, 133. -/
def digit (n : Nat) : UInt8 := UInt8.ofNat (48 + n)

/-- `cmd_setpdm` (debugtermcommands.c 73-104). -/
def cmdSetpdm (c : Call) : List Eff :=
  if c.argc ≠ 7 then [.print (str "Unexpected number of params\n")]
  else
    match (List.range 6).mapM (fun i => param (c.argv (i + 1) 0)) with
    | none => [.print (str "Param must be 0 or 1\n")]
    | some req =>
      .print (str "Test command executed: set PDM states to\n") ::
        (List.range 6).flatMap fun i =>
          [.power i (req.getD i false),
           .print ((str "  PDM channel " ++ [digit i] ++ str ": " ++ [digit (req.getD i false).toNat] ++ str "\n").take 31)]

/-- `cmd_setsdc` (debugtermcommands.c 106-135). -/
def cmdSetsdc (c : Call) : List Eff :=
  if c.argc ≠ 2 then [.print (str "Unexpected number of params\n")]
  else
    match param (c.argv 1 0) with
    | none => [.print (str "Param must be 0 or 1\n")]
    | some b => [.ecuError b, .print ((str "  SDC output set to: " ++ [digit b.toNat] ++ str "\n").take 31)]

/-- `cmdDef->exec(...)` debugterm.c 56. -/
def run1 : Exec → Call → C (List Eff)
  | .help, c => cmdHelp c
  | .setpdm, c => .ok (cmdSetpdm c)
  | .setsdc, c => .ok (cmdSetsdc c)

/-- Loop of `processCommand` (debugterm.c 47-59). -/
def processCommand (c : Call) : List CmdDef → C (List Eff)
  | [] => .ok []
  | d :: ds =>
    if strEq (c.argv 0) d.name then
      match run1 d.exec c with
      | .error e => .error e
      | .ok es =>
        match processCommand c ds with
        | .error e => .error e
        | .ok fs => .ok (es ++ fs)
    else processCommand c ds

/-! ## Tokens (debugterm.c 61-97) -/

/-- Locals of `processCommandStr`. debugterm.c 67-71. -/
structure Tok where
  args : Args
  nArgs : Nat
  argIdx : Nat
  ws : Bool

/-- Initial values (debugterm.c 67-71). -/
def Tok.start : Tok := ⟨fun _ _ => 0, 0, 0, false⟩

/-- Body of the loop (debugterm.c 73-94). -/
def Tok.step (t : Tok) (c : UInt8) : C Tok :=
  if c = 0x20 ∨ c = 0x09 then
    .ok (if !t.ws then { t with nArgs := t.nArgs + 1, argIdx := 0, ws := true } else { t with ws := true })
  else if c = 0x0A then .ok { t with nArgs := t.nArgs + 1, argIdx := 0 }
  else if t.nArgs < numArgs ∧ t.argIdx < argLen then
    .ok { t with
      args := fun k j => if k = t.nArgs ∧ j = t.argIdx then c else t.args k j
      argIdx := t.argIdx + 1
      ws := false }
  else .error .oobWrite

/-- `processCommandStr` up to the call of `processCommand` (debugterm.c 61-96). -/
def tokenise (cmd : List UInt8) : C Call :=
  match cmd.foldlM Tok.step Tok.start with
  | .error e => .error e
  | .ok t => .ok ⟨t.nArgs, t.args⟩

/-! ## Buffer (debugterm.c 99-157) -/

/-- `struct PCInterface_DebugTerm` (pcinterface.h 48-51). -/
structure Term where
  buf : Nat → UInt8
  next : Nat

/-- What a call did: commands executed and effects. debugterm.c 135-157. -/
structure Log where
  calls : List Call
  effs : List Eff

/-- Locals of `processBuffer`; `cmdBuf` holds the `cmdBufIdx` characters stored. debugterm.c 99-107. -/
structure Proc where
  cmdBuf : List UInt8
  begin : Nat
  full : Bool
  i : Nat
  log : Log

/-- Body of the first loop of `processBuffer` (debugterm.c 109-119); `cmdBufIdx` is
not reset. -/
def Proc.step (p : Proc) (c : UInt8) : C Proc :=
  if bufLen ≤ p.cmdBuf.length then .error .oobWrite
  else
    let cmd := p.cmdBuf ++ [c]
    if c = 0x0A then
      match tokenise cmd with
      | .error e => .error e
      | .ok call =>
        match processCommand call commands with
        | .error e => .error e
        | .ok es => .ok ⟨cmd, p.i + 1, true, p.i + 1, ⟨p.log.calls ++ [call], p.log.effs ++ es⟩⟩
    else .ok { p with cmdBuf := cmd, i := p.i + 1 }

/-- `processBuffer` (debugterm.c 99-132). -/
def processBuffer (t : Term) : C (Log × Term) :=
  match (slice t.buf 0 t.next).foldlM Proc.step ⟨[], 0, false, 0, ⟨[], []⟩⟩ with
  | .error e => .error e
  | .ok p =>
    .ok (⟨p.log.calls, p.log.effs ++ (if p.full then [.print (str "> ")] else [])⟩,
      ⟨(List.range (t.next - p.begin)).foldl (fun d i => fun j => if j = i then d (i + p.begin) else d j) t.buf,
        t.next - p.begin⟩)

/-- `PCInterface_DebugTermRecv` (debugterm.c 135-157) with `strncpyl` (26-37), which
stops at a NUL. -/
def recv (t : Term) (payload : List UInt8) : C (Log × Term) :=
  if bufLen < t.next + payload.length then
    .ok (⟨[], [.print (str "error: buffer full\n")]⟩, { t with next := 0 })
  else
    let text := payload.takeWhile (· ≠ 0)
    let t : Term := ⟨store t.buf t.next text, t.next + text.length⟩
    if t.next = 0 then .ok (⟨[], []⟩, t) else processBuffer t

/-- A sequence of payloads. debugterm.c 135-157. -/
def run : List (List UInt8) → Term → C (Log × Term)
  | [], t => .ok (⟨[], []⟩, t)
  | p :: ps, t =>
    match recv t p with
    | .error e => .error e
    | .ok (l, t') =>
      match run ps t' with
      | .error e => .error e
      | .ok (m, u) => .ok (⟨l.calls ++ m.calls, l.effs ++ m.effs⟩, u)

/-! ## DebugPrint (debugtermlib.h) -/

/-- `DEBUGTERM_MAX_MSG_LEN` and the size of `mfDebugEncodeBuffer` (debugtermlib.h 18,
messages.h 31). -/
def printMax : Nat := 256

/-- `DebugPrint` (debugtermlib.h 28-59): the frame sent on both ports, built in the
256-byte buffer `buf`. `msgLen = textLen + 2 + 11`; `MsgFrameEncode_InitFrame` writes
the last two bytes of the frame, so a longer frame leaves the buffer. In particular
the truncation branch (36-44), taken for 256 characters, always does: its
`payloadLen` is 258. Text is the C string `msg` without its NUL. -/
def debugPrint (crc : List UInt8 → Option UInt32) (buf text : List UInt8) : C (Option (List UInt8)) :=
  let textLen := min text.length printMax
  let msgLen := textLen + 2 + 11
  if printMax < msgLen then .error .oobWrite
  else
    .ok ((initFrame 0x02 0x09 (textLen + 2) (buf.take msgLen)).map fun b =>
      updateCrc crc (putPayload b ([UInt8.ofNat (textLen % 256), UInt8.ofNat (textLen / 256 % 256)] ++ text)))

end Verif.Term
