import Verif.Model.Wheelspeed
import Verif.Model.Telemetry

set_option autoImplicit false

/-!
# Counters of the 100 Hz tasks

One activation is one pass of a task method after a notification. Notifications that arrive
while a task is busy are merged by `ulTaskNotifyTake(pdTRUE, …)`, so activations are counted,
not timer ticks.
-/

namespace Verif.Periodic

/-- `WatchdogTrigger` after a notification (vcu/vehicleLogic/watchdogTrigger/watchdogTrigger.c
25-29): the new counter and whether the output was toggled. -/
def watchdogTick (counter : UInt16) : UInt16 × Bool :=
  let counter := counter + 1
  if counter = 100 then (0, true) else (counter, false)

/-- The state broadcast of `PCInterface_TaskMethod` (vcu/device/pcinterface/pcinterface.c
74-84): the new counter and the frames sent. -/
def pcTick (crc : List UInt8 → Option UInt32) (bits : F32 → UInt32) (enabled : Bool) (counter : UInt32)
    (copied : Option VData) (buf : List UInt8) : UInt32 × List (List UInt8) :=
  (counter + 1, Telemetry.periodicStateUpdate crc bits enabled counter copied buf)

/-- Wheel-speed task: the state after `t` activations from `s`, with the stream refilled in
between by `refill`. wheelspeed.c 113-143. -/
def wheelAfter (refill : Nat → List UInt8) (s : Wheelspeed.St) : Nat → C Wheelspeed.St
  | 0 => .ok s
  | t + 1 => do
    let s ← wheelAfter refill s t
    let (_, s) ← Wheelspeed.tick { s with stream := s.stream ++ refill t } true
    .ok s

end Verif.Periodic
