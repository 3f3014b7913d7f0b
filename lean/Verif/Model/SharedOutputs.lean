import Verif.Model.Vsm
import Verif.Model.Periodic

set_option autoImplicit false

/-!
# Output pins with two writers

The ECU error line is written by the state machine (stateMachine.c 21, 53, 166) and by operator
requests (requests.c 42, debugtermcommands.c 130). The pin of the dashboard lamp
(`Mapping_GPO_LED`, initialize.c 124) is also the heartbeat output of the watchdog process
(initialize.c 139).
-/

namespace Verif.SharedOutputs

/-- Events on the ECU error line: a tick of the state machine, or an operator request that calls
`VehicleControl_SetECUError` (vehicleControl.c 62-67, sdc.c 103-107). The tasks do not preempt
each other inside a pin write; a request may come between any two ticks. -/
inductive EcuEv where
  | tick (i : Vsm.In)
  | operator (on : Bool)
deriving DecidableEq, Repr

/-- One event. stateMachine.c 187-238; vehicleControl.c 62-67. -/
def ecuStep (w : Vsm.World) : EcuEv → Vsm.World
  | .tick i => w.step i
  | .operator b => { w with out := { w.out with ecuError := b } }

/-- A history. stateMachine.c 187-238; vehicleControl.c 62-67. -/
def ecuRun (w : Vsm.World) (es : List EcuEv) : Vsm.World := es.foldl ecuStep w

/-- Lamp pin and heartbeat counter. dashboard_output.c 25, watchdogTrigger.c 25-29. -/
structure Lamp where
  level : Bool
  counter : UInt16
deriving DecidableEq, Repr

/-- Events: `VehicleControl_SetDash` (vehicleControl.c 69-73, dashboard_output.c 23-27) and one
activation of the watchdog process (watchdogTrigger.c 17-31). -/
inductive LampEv where
  | set (on : Bool)
  | beat
deriving DecidableEq, Repr

/-- One event. dashboard_output.c 23-27, watchdogTrigger.c 25-29. -/
def lampStep (s : Lamp) : LampEv → Lamp
  | .set b => { s with level := b }
  | .beat =>
    let r := Periodic.watchdogTick s.counter
    ⟨if r.2 then !s.level else s.level, r.1⟩

/-- A history. dashboard_output.c 23-27, watchdogTrigger.c 25-29. -/
def lampRun (s : Lamp) (es : List LampEv) : Lamp := es.foldl lampStep s

/-- After `DashboardOut_Init` and `WatchdogTrigger_Init`. dashboard_output.c 10-21, watchdogTrigger.c 45-78. -/
def lampStart : Lamp := ⟨false, 0⟩

end Verif.SharedOutputs
