import Verif.C.Basic

set_option autoImplicit false

/-!
# Shutdown circuit: vcu/device/sdc/sdc.c

One processor: the interrupt handler may run between any two steps of the task, the task never
runs while the handler does, and pin levels change at any time, also inside the handler. The
task copies the input structure field by field in an arbitrary fixed order (the C standard leaves
it open; a single word copy is the case where nothing happens in between).
-/

namespace Verif.Sdc

/-- Members of `VehicleState_SDC_T` (vehicleStateTypes.h 45-52). -/
inductive Field where
  | bms | bspd | imd | out
deriving DecidableEq, Repr

/-- Lines routed to `HAL_GPIO_EXTI_Callback` (interrupts.c 17-20): the four shutdown-circuit pins
and the IMU pin (stm32f7xx_it.c 183-192, 295-304, 379-390). -/
inductive Line where
  | sdc (f : Field)
  | imu
deriving DecidableEq, Repr

/-- Members of the inputs (sdc.c 22-29). -/
abbrev Levels := Field → Bool

/-- Where the task is inside `SDC_TaskMethod` (sdc.c 32-43). -/
inductive Phase where
  | idle
  | acquiring
  | copying (rest : List Field)
deriving DecidableEq, Repr

/-- Pins, interrupt controller, module variables (sdc.c 22-29) and the published status.
`isr` holds, while the handler runs, the inputs it still has to read and its `notify` variable.
`pending` counts notifications given since the last take. -/
structure St where
  lvl : Levels
  imu : Bool
  exti : Line → Bool
  inputs : Levels
  isr : Option (List Field × Bool)
  pending : Nat
  phase : Phase
  published : Levels

/-- Things that happen. sdc.c 32-43, 63-72, 109-123. -/
inductive Ev where
  | pin (f : Field) (v : Bool)
  | imuPin (v : Bool)
  | isrEnter (l : Line)
  | isrRead (f : Field)
  | isrExit
  | take
  | acquire (ok : Bool)
  | copy (f : Field)
  | release
deriving DecidableEq, Repr

/-- After `SDC_Init` (75-101): all inputs false whatever the pins are. The vehicle state was
zeroed before (vehicleState.c 24). -/
def start (lvl : Levels) (imu : Bool) : St where
  lvl := lvl
  imu := imu
  exti _ := false
  inputs _ := false
  isr := none
  pending := 0
  phase := .idle
  published _ := false

/-- Edge selection of the EXTI lines: `GPIO_MODE_IT_RISING` for all of them (cube main.c 993,
1019, 1025). -/
def triggers (old new : Bool) : Bool := !old && new

/-- `updateSdcInputIRQ` (sdc.c 63-72): the stored value and whether it changed. -/
def updateSdcInput (cur new : Bool) : Bool × Bool :=
  if cur != new then (new, true) else (cur, false)

/-- The order of the reads in `SDC_IRQHandler` (115-118). Order of the reads (sdc.c 115-118). -/
def readOrder : List Field := [.bms, .bspd, .imd, .out]

/-- An assignment to a member (sdc.c 39, 63-72). -/
def upd {α : Type} [DecidableEq α] (g : α → Bool) (a : α) (v : Bool) : α → Bool :=
  fun b => if b = a then v else g b

/-- One step; `none` when the event cannot happen in this state. `order` is the order in which
the structure assignment of line 39 copies the members.

* `pin`, `imuPin`: the level changes and the line becomes pending on a triggering edge.
* `isrEnter`: stm32f7xx_hal_gpio.c 485-493 clears the line and calls the handler; all lines have
  the same priority (cube main.c 1030-1037), so handlers do not nest.
* `isrRead`: one of lines 115-118. `isrExit`: lines 120-122.
* `take`: `ulTaskNotifyTake(pdTRUE, ..)` (34-35) returns the 32-bit count and clears it.
* `acquire`: line 38. `copy`, `release`: lines 39 and 40. -/
def step (order : List Field) (s : St) : Ev → Option St
  | .pin f v =>
    some { s with
      lvl := upd s.lvl f v
      exti := if triggers (s.lvl f) v then upd s.exti (.sdc f) true else s.exti }
  | .imuPin v =>
    some { s with
      imu := v
      exti := if triggers s.imu v then upd s.exti .imu true else s.exti }
  | .isrEnter l =>
    if s.isr = none ∧ s.exti l = true then
      some { s with exti := upd s.exti l false, isr := some (readOrder, false) }
    else none
  | .isrRead f =>
    match s.isr with
    | some (g :: rest, n) =>
      if g = f then
        let r := updateSdcInput (s.inputs f) (s.lvl f)
        some { s with inputs := upd s.inputs f r.1, isr := some (rest, n || r.2) }
      else none
    | _ => none
  | .isrExit =>
    match s.isr with
    | some ([], n) =>
      some { s with isr := none, pending := if n then s.pending + 1 else s.pending }
    | _ => none
  | .take =>
    if s.isr = none ∧ s.phase = .idle then
      if 0 < s.pending % 2 ^ 32 then some { s with pending := 0, phase := .acquiring }
      else some { s with pending := 0 }
    else none
  | .acquire ok =>
    if s.isr = none ∧ s.phase = .acquiring then
      some { s with phase := if ok then .copying order else .idle }
    else none
  | .copy f =>
    if s.isr = none then
      match s.phase with
      | .copying (g :: rest) =>
        if g = f then
          some { s with published := upd s.published f (s.inputs f), phase := .copying rest }
        else none
      | _ => none
    else none
  | .release =>
    if s.isr = none ∧ s.phase = .copying [] then some { s with phase := .idle } else none

/-- A sequence of events. sdc.c 32-43, 63-72, 109-123. -/
def run (order : List Field) : St → List Ev → Option St
  | s, [] => some s
  | s, e :: es => (step order s e).bind fun s' => run order s' es

end Verif.Sdc
