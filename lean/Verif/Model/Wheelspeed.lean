import Verif.C.Basic
import Verif.Model.VehicleState

set_option autoImplicit false

/-!
# Wheel speed: vcu/device/wheelspeed/wheelspeed.c

The sample stream is a FreeRTOS stream buffer (a byte FIFO that holds one byte less than its
storage and drops what does not fit). Sampling by the timer interrupt and activations of the
task are separate steps: the task shares only the stream with the interrupt.
-/

namespace Verif.Wheelspeed

/-- `WSS_SAMPLING_STREAM_SIZE_BYTES` (wheelspeed.c 48) minus the byte a stream buffer keeps free. -/
def streamCap : Nat := 3999

/-- `WSS_BATCH_RECV_SIZE` (wheelspeed.c 50). -/
def batchMax : Nat := 2000

/-- Module state: `mTask.counter` (wheelspeed.c 34), the sample stream (52-57), `mConfig.sensorTeeth`
(167) and the published vehicle data. -/
structure St where
  counter : UInt16
  stream : List UInt8
  teeth : UInt16
  published : WheelState

/-- After `Wheelspeed_Init` (wheelspeed.c 157-200). -/
def start (teeth : UInt16) (p : WheelState) : St := ⟨0, [], teeth, p⟩

/-- One sample byte (wheelspeed.c 218-224). `GPIO_ReadPin` returns a bool. -/
def sampleByte (front rear : Bool) : UInt8 :=
  let sample : UInt8 := 0
  let sample := sample ||| (rear.toUInt8 &&& 0x1)
  sample ||| ((front.toUInt8 &&& 0x1) <<< 1)

/-- `Wheelspeed_TIM_IRQHandler` (wheelspeed.c 202-231): `mine` says whether the timer is the configured
one. -/
def sampleIsr (s : St) (mine front rear : Bool) : St :=
  if mine then
    if s.stream.length < streamCap then { s with stream := s.stream ++ [sampleByte front rear] }
    else s
  else s

/-- One iteration of the loop wheelspeed.c 69-88 with the two counters. -/
def countStep (prev cur : UInt8) (out : UInt16 × UInt16) : UInt16 × UInt16 :=
  let f := if prev &&& 0x2 = 0 ∧ 0 < cur &&& 0x2 then out.1 + 1 else out.1
  let r := if prev &&& 0x1 = 0 ∧ 0 < cur &&& 0x1 then out.2 + 1 else out.2
  (f, r)

/-- The loop wheelspeed.c 69-88 over the rest of the array, `prev` being the element before it. -/
def countLoop (prev : UInt8) : List UInt8 → UInt16 × UInt16 → UInt16 × UInt16
  | [], out => out
  | cur :: rest, out => countLoop cur rest (countStep prev cur out)

/-- `countLowHighTransitions` (wheelspeed.c 60-89). -/
def countLowHighTransitions : List UInt8 → UInt16 × UInt16
  | [] => (0, 0)
  | x :: xs => countLoop x xs (0, 0)

/-- One value of `calculateRpm` (wheelspeed.c 102-110). -/
def rpm (count teeth : UInt16) : C UInt16 :=
  if teeth = 0 then .error .divByZero
  else .ok ((60 * count.toUInt32) / teeth.toUInt32).toUInt16

/-- `Wheelspeed_TaskMethod` after a notification (wheelspeed.c 117-142). The flag says whether an update
was attempted. `acquired` is the result of `VehicleState_AccessAcquire`. -/
def tick (s : St) (acquired : Bool) : C (Bool × St) :=
  if s.counter % 100 = 0 then
    let samples := s.stream.take batchMax
    let s' := { s with stream := s.stream.drop batchMax, counter := s.counter + 1 }
    if 0 < samples.length then do
      let (f, r) := countLowHighTransitions samples
      let rf ← rpm f s.teeth
      let rr ← rpm r s.teeth
      .ok (true, if acquired then { s' with published := ⟨rf, rr, f, r⟩ } else s')
    else .ok (true, s')
  else .ok (false, { s with counter := s.counter + 1 })

end Verif.Wheelspeed
