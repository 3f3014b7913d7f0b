import Verif.C.Basic
import Verif.C.Float32

set_option autoImplicit false

/-!
# ADC driver: system-lib/adc/adc.c

Arrays are functions on indices with explicit bound checks at `ADC_MAX_NUM_CHANNELS`.
Pointers to ADC handles are numbers. Log output is left out. `ADC_Get` runs with the
ADC's DMA interrupt disabled (150, 176), so it is one step. The DMA controller is modelled
in the second half, from the cube configuration.
-/

namespace Verif.Adc

/-- `ADC_MAX_NUM_CHANNELS` (adc.h 51). -/
def maxChannels : Nat := 16

/-- `ADC_Status_T` (adc.h 22-32). -/
inductive Status where
  | ok | errDma | errChannelCount | errDepends | errHwConfig | errInvalidChannel | errInternal
  | errNotReady
deriving DecidableEq, Repr

/-- Static data of the module (adc.c 23-47). `activeA` is `activeCopyBuffer`; the enum is
only ever assigned its two values, so the `default` branches (171-173, 223, 257-259) are
left out. -/
structure St where
  dma : Nat → UInt32
  bufA : Nat → UInt32
  bufB : Nat → UInt32
  validA : Bool
  validB : Bool
  activeA : Bool
  halfLen : Nat
  cpltOff : Nat
  cpltLen : Nat
  numChannels : UInt16
  handle : Nat
  initialized : Bool

/-- Zero-initialised static storage before `ADC_Init`. adc.c 23-47. -/
def boot : St :=
  { dma := fun _ => 0, bufA := fun _ => 0, bufB := fun _ => 0, validA := false, validB := false,
    activeA := true, halfLen := 0, cpltOff := 0, cpltLen := 0, numChannels := 0, handle := 0,
    initialized := false }

/-- One array store. adc.c 57-77, 207-261. -/
def put (a : Nat → UInt32) (i : Nat) (v : UInt32) : C (Nat → UInt32) :=
  if i < maxChannels then .ok (fun j => if j = i then v else a j) else .error .oobWrite

/-- One array load. adc.c 57-62, 141-179. -/
def get (a : Nat → UInt32) (i : Nat) : C UInt32 :=
  if i < maxChannels then .ok (a i) else .error .oobRead

/-- `bufferCopy(dest + off, src + off, len)` (adc.c 57-62). -/
def bufferCopy (dest src : Nat → UInt32) (off : Nat) : Nat → C (Nat → UInt32)
  | 0 => .ok dest
  | len + 1 => do
    let d ← bufferCopy dest src off len
    let v ← get src (off + len)
    put d (off + len) v

/-- The arguments of `ADC_Init` and the results of the calls it makes: module checks, the
hardware settings read at 89-98, `HAL_ADC_Start_DMA`, registration. adc.c 79-138. -/
structure InitArgs where
  dependOk : Bool
  numChannelsUsed : UInt16
  nbrOfConversion : Nat
  continuousConv : Bool
  alignRight : Bool
  handle : Nat
  startOk : Bool
  registerOk : Bool

/-- `ADC_Init` (adc.c 79-138). `bufferSet` over the whole arrays (104-106) is written as the
constant function. -/
def init (s : St) (a : InitArgs) : Status × St :=
  if !a.dependOk then (.errDepends, s)
  else if maxChannels < a.numChannelsUsed.toNat then (.errChannelCount, s)
  else if a.numChannelsUsed.toNat ≠ a.nbrOfConversion then (.errHwConfig, s)
  else if !a.continuousConv then (.errHwConfig, s)
  else if !a.alignRight then (.errHwConfig, s)
  else
    let n := a.numChannelsUsed.toNat
    let s' : St :=
      { dma := fun _ => 0, bufA := fun _ => 0, bufB := fun _ => 0, validA := false,
        validB := false, activeA := true, halfLen := n / 2, cpltOff := n / 2,
        cpltLen := if n % 2 = 0 then n / 2 else n / 2 + 1,
        numChannels := a.numChannelsUsed, handle := a.handle, initialized := true }
    if !a.startOk then (.errDma, s')
    else if !a.registerOk then (.errDepends, s')
    else (.ok, s')

/-- `ADC_Get` (adc.c 141-179): status and the value written to `*val`. -/
def adcGet (s : St) (channel : Nat) : C (Status × UInt16) :=
  if s.numChannels.toNat < channel then .ok (.errInvalidChannel, 0)
  else if s.activeA then
    if s.validB then do
      let v ← get s.bufB channel
      .ok (.ok, (v &&& 0xFFFF).toUInt16)
    else .ok (.errNotReady, 0)
  else
    if s.validA then do
      let v ← get s.bufA channel
      .ok (.ok, (v &&& 0xFFFF).toUInt16)
    else .ok (.errNotReady, 0)

/-- `HAL_ADC_ConvHalfCpltCallback` (adc.c 207-227). -/
def halfCallback (s : St) (hadc : Nat) : C St :=
  if hadc ≠ s.handle then .ok s
  else if s.activeA then do
    let b ← bufferCopy s.bufA s.dma 0 s.halfLen
    .ok { s with bufA := b }
  else do
    let b ← bufferCopy s.bufB s.dma 0 s.halfLen
    .ok { s with bufB := b }

/-- `HAL_ADC_ConvCpltCallback` (adc.c 232-261). -/
def cpltCallback (s : St) (hadc : Nat) : C St :=
  if hadc ≠ s.handle then .ok s
  else if s.activeA then do
    let b ← bufferCopy s.bufA s.dma s.cpltOff s.cpltLen
    .ok { s with bufA := b, validA := true, activeA := false }
  else do
    let b ← bufferCopy s.bufB s.dma s.cpltOff s.cpltLen
    .ok { s with bufB := b, validB := true, activeA := true }

/-- `ADC_Scaling_T` (adc.h 60-65). -/
structure Scaling where
  lower : UInt16
  upper : UInt16
  saturate : Bool
deriving DecidableEq, Repr

/-- `ADC_ApplyScaling` (adc.c 182-201). The two subtractions are in `int` and cannot overflow. -/
def applyScaling (sc : Scaling) (raw : UInt16) : F32 :=
  let num : Int := (raw.toNat : Int) - sc.lower.toNat
  let den : Int := (sc.upper.toNat : Int) - sc.lower.toNat
  let output := F32.div (F32.ofInt num) (F32.ofInt den)
  if sc.saturate then
    if F32.gt output (F32.fin 1) then F32.fin 1
    else if F32.lt output (F32.fin 0) then F32.fin 0
    else output
  else output

/-! ### Converter and DMA -/

/-- How the DMA stream and the converter are set up. cube-proj/Core/Src/stm32f7xx_hal_msp.c 149-158, main.c 247-259.
-/
structure Hw where
  /-- bytes per transfer are 2 instead of 4 (`MemDataAlignment`) -/
  halfWord : Bool
  /-- `DMAContinuousRequests` is off: requests stop after the configured number of
  transfers (stm32f7xx_hal_adc.h 101-103) -/
  oneShot : Bool
deriving DecidableEq, Repr

/-- What the driver's `uint32_t` buffer and double buffering are written for. adc.c 23-35. -/
def wordHw : Hw := ⟨false, false⟩

/-- The shipped configuration: cube-proj/Core/Src/stm32f7xx_hal_msp.c 154-155 (half-word,
half-word) and main.c 259 (`DMAContinuousRequests = DISABLE`). -/
def shippedHw : Hw := ⟨true, true⟩

/-- The `i`-th transfer of a circular run stores `v` in the buffer that
`HAL_ADC_Start_DMA(handle, adcDMABuf, numChannels)` (adc.c 129) was given: 32-bit transfers go to
word `i`, 16-bit transfers to half `i % 2` of word `i / 2` (little endian). -/
def store (hw : Hw) (mem : Nat → UInt32) (i : Nat) (v : UInt16) : Nat → UInt32 :=
  if hw.halfWord then fun j =>
    if j = i / 2 then
      if i % 2 = 0 then (mem j &&& (0xFFFF0000 : UInt32)) ||| v.toUInt32
      else (mem j &&& (0x0000FFFF : UInt32)) ||| (v.toUInt32 <<< 16)
    else mem j
  else fun j => if j = i then v.toUInt32 else mem j

/-- What can happen after initialisation: the converter finishes the conversion of the next
channel in its sequence, or one of the two callbacks runs for some ADC handle. adc.c 129, 207-261
(`HAL_ADC_Start_DMA`, the callbacks). -/
inductive Ev where
  | sample (v : UInt16)
  | half (hadc : Nat)
  | cplt (hadc : Nat)
deriving DecidableEq, Repr

/-- Driver and the number of transfers so far. adc.c 23-47; the count is that of the DMA stream started at adc.c
129. -/
structure Sys where
  st : St
  k : Nat

/-- One event. adc.c 129 (the transfer), 207-227, 232-261 (the callbacks). -/
def step (hw : Hw) (y : Sys) : Ev → C Sys
  | .sample v =>
    let n := y.st.numChannels.toNat
    if hw.oneShot && decide (n ≤ y.k) then .ok y
    else .ok { st := { y.st with dma := store hw y.st.dma (y.k % n) v }, k := y.k + 1 }
  | .half h => do
    let s ← halfCallback y.st h
    .ok { y with st := s }
  | .cplt h => do
    let s ← cpltCallback y.st h
    .ok { y with st := s }

/-- A history of events. adc.c 129, 207-261. -/
def run (hw : Hw) : Sys → List Ev → C Sys
  | y, [] => .ok y
  | y, e :: es => step hw y e >>= fun y' => run hw y' es

end Verif.Adc
