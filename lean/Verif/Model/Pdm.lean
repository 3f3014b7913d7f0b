import Verif.C.Basic

set_option autoImplicit false

/-!
# Power distribution: vcu/device/pdm/pdm.c

Pins are numbered; `level` is the level last driven on each.
-/

namespace Verif.Pdm

/-- `VEHICLESTATE_MAXPDM_CHANNELS` (vehicleStateTypes.h 54). -/
def maxChannels : Nat := 8

/-- `PDM_Status_T` (pdm.h 20-27). -/
inductive Status where
  | ok | errorDepends | errorConfig | errorInvalidCh | errorState
deriving DecidableEq, Repr

/-- `PDM_T` (pdm.h 34-44): the channel array (null or its pins), the channel count, and what it
acts on. -/
structure St where
  channels : Option (List Nat)
  numChannels : Nat
  published : List Bool
  level : Nat → Bool

/-- `PDM_Init` (pdm.c 14-35); `depends` is the outcome of the two dependency checks. -/
def init (s : St) (depends : Bool) : Status :=
  if !depends then .errorDepends
  else if (s.channels = none ∧ 0 < s.numChannels) ∨ (s.channels ≠ none ∧ s.numChannels = 0) then
    .errorConfig
  else if maxChannels < s.numChannels then .errorConfig
  else .ok

/-- `PDM_SetOutputEnabled` (pdm.c 37-57); `lock` is the outcome of taking the vehicle state lock. -/
def setOutputEnabled (s : St) (channel : UInt8) (state lock : Bool) : C (Status × St) :=
  if s.numChannels ≤ channel.toNat then .ok (.errorInvalidCh, s)
  else if !lock then .ok (.errorState, s)
  else if channel.toNat < s.published.length then
    let s' := { s with published := s.published.set channel.toNat state }
    match s.channels with
    | none => .error .nullDeref
    | some chs =>
      match chs[channel.toNat]? with
      | none => .error .oobRead
      | some pin =>
        .ok (.ok, { s' with level := fun p => if p = pin then state else s.level p })
  else .error .oobWrite

/-- One command: channel, state, whether the lock was obtained. pdm.c 37-57. -/
structure Cmd where
  channel : UInt8
  state : Bool
  lock : Bool
deriving DecidableEq, Repr

/-- A sequence of commands. pdm.c 37-57. -/
def run : St → List Cmd → C St
  | s, [] => .ok s
  | s, c :: cs => do
    let (_, s') ← setOutputEnabled s c.channel c.state c.lock
    run s' cs

/-- The six shipped pins (deviceMapping.c 15-28, cube main.h 61-66, 146-151) as
`16 * port + pin`, port A being 0. -/
def shippedPins : List Nat := [16 * 1 + 9, 16 * 4 + 0, 16 * 4 + 1, 16 * 4 + 2, 16 * 4 + 3, 16 * 4 + 4]

/-- The shipped configuration (initialize.c 82-86) after the vehicle state is zeroed
(vehicleState.c 24); MX_GPIO_Init drives all six pins low (cube main.c 909-914). -/
def shipped : St where
  channels := some shippedPins
  numChannels := 6
  published := List.replicate maxChannels false
  level _ := false

end Verif.Pdm
