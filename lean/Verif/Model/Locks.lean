import Mathlib.Data.Fintype.Basic

set_option autoImplicit false

/-!
# Tasks and mutexes

The mutexes of the firmware and the functions that take them, as instruction
lists executed by any number of tasks under any schedule.  One instruction is
one access to a shared object or one mutex operation; a task switch may happen
between any two of them (`configUSE_PREEMPTION`, FreeRTOSConfig.h).
-/

namespace Verif.Locks

/-- One step of a task: `xSemaphoreTake`, `xSemaphoreGive`, or an access to a
shared field. E.g. vehicleState.c 37-61. -/
inductive Instr (L F V : Type) where
  | acq (l : L)
  | rel (l : L)
  | wr (f : F) (v : V)
  | rd (f : F)

/-- A task: what it still has to execute, and the last value it read from each
field. One per `xTaskCreateStatic`, e.g. throttleController.c 96-103. -/
structure Thread (L F V : Type) where
  prog : List (Instr L F V)
  loc : F → Option V

/-- Mutex holders, shared memory and `n` tasks. vehicleState.h, cInverter.h 34-41. -/
structure Sys (L F V : Type) (n : Nat) where
  holder : L → Option (Fin n)
  mem : F → V
  th : Fin n → Thread L F V

variable {L F V : Type} [DecidableEq L] [DecidableEq F] {n : Nat}

/-- Replace one entry of a function. For the assignments of `step`, e.g. vehicleState.c 37-61. -/
def upd {A B : Type} [DecidableEq A] (g : A → B) (a : A) (b : B) : A → B :=
  fun x => if x = a then b else g x

/-- The next instruction of task `t`; `none` when the task cannot continue.

* `acq`: `xSemaphoreTake(mutex, portMAX_DELAY)` waits while another task is the
  holder (vehicleState.c:37, 51; cInverter.c:422, 448, 490;
  throttleController.c:121, 136).  A non-recursive mutex makes its own holder
  wait as well.  The takes with a time limit (logging.c:43, 58, 72; crc.c:34)
  are modelled without one; a take that timed out skips its section, which is
  the same as a program without that section.
* `rel`: `xSemaphoreGive` by the holder.  A give by a task that is not the
  holder is an assertion failure in the kernel (`xTaskPriorityDisinherit`,
  tasks.c) or has no effect; both are shown never to happen, so the model has no
  step for it. -/
def step (t : Fin n) (s : Sys L F V n) : Option (Sys L F V n) :=
  match (s.th t).prog with
  | [] => none
  | .acq l :: p =>
    match s.holder l with
    | none => some { s with holder := upd s.holder l (some t),
                            th := upd s.th t { s.th t with prog := p } }
    | some _ => none
  | .rel l :: p =>
    if s.holder l = some t then
      some { s with holder := upd s.holder l none,
                    th := upd s.th t { s.th t with prog := p } }
    else none
  | .wr f v :: p =>
    some { s with mem := upd s.mem f v, th := upd s.th t { s.th t with prog := p } }
  | .rd f :: p =>
    some { s with th := upd s.th t { prog := p, loc := upd (s.th t).loc f (some (s.mem f)) } }

/-- A schedule: which task executes its next instruction. `configUSE_PREEMPTION`, FreeRTOSConfig.h 58. -/
def run (s : Sys L F V n) : List (Fin n) → Option (Sys L F V n)
  | [] => some s
  | t :: es =>
    match step t s with
    | none => none
    | some s' => run s' es

/-- No mutex is held and no task has read anything. vehicleState.c 18-32 and the other `*_Init` functions. -/
def init (P : Fin n → List (Instr L F V)) (m : F → V) : Sys L F V n :=
  { holder := fun _ => none, mem := m, th := fun t => { prog := P t, loc := fun _ => none } }

/-! ## The firmware -/

/-- The mutexes taken by the tasks: `VehicleState_T.mutex`,
`CInverter_T.commandData.mutex`, `ThrottleController_T.mutex`, `CRC_T.mutex`,
`Logging_T.mutex`. vehicleState.c 27, cInverter.c 422, throttleController.c 121, crc.c 34, logging.c 72. -/
inductive Lock where
  | vehicle | command | throttle | crc | log
deriving DecidableEq, Repr

/-- Shared objects: a member of `VehicleState_Data_T`
(vehicleStateTypes.h 24-205) by its C name, a member of `CInverter_T.commandData`, the
settings of the throttle controller, the CRC unit, the log settings and
outputs. -/
inductive Fld where
  | vs (name : String)
  | cmd (name : String)
  | thr (name : String)
  | crcUnit
  | log (name : String)
deriving DecidableEq, Repr

/-- The mutex that protects an object. vehicleState.c 27, cInverter.c 422, throttleController.c 121, crc.c 34, logging.c 72. -/
def guardOf : Fld → Lock
  | .vs _ => .vehicle
  | .cmd _ => .command
  | .thr _ => .throttle
  | .crcUnit => .crc
  | .log _ => .log

/-- All members of `VehicleState_Data_T`, vehicleStateTypes.h:24-205. -/
def vsFields : List String :=
  ["inputs.accel", "inputs.accelA", "inputs.accelB", "inputs.accelRawA", "inputs.accelRawB",
   "inputs.accelValid", "inputs.brakePresFront", "inputs.brakePresRear", "inputs.brakeRawFront",
   "inputs.brakeRawRear", "dash.buttonPressed", "dash.ledOn",
   "vehicle.sdc", "vehicle.wheelspeed",
   "vehicle.gps.utcTime", "vehicle.gps.nsIndicator", "vehicle.gps.ewIndicator",
   "vehicle.gps.positionFix", "vehicle.gps.nSatellites", "vehicle.gps.latitude",
   "vehicle.gps.longitude",
   "glv.pdmChState",
   "battery.maxCellTemperature", "battery.maxCellTemperatureCellID", "battery.maxCellVoltage",
   "battery.maxCellVoltageCellID", "battery.minCellTemperature",
   "battery.minCellTemperatureCellID", "battery.minCellVoltage", "battery.minCellVoltageCellID",
   "battery.dcCurrent", "battery.dcVoltage", "battery.stateOfCarge", "battery.bmsFaultIndicator",
   "battery.bmsPopulatedCells",
   "battery.bmsCounter", "battery.bmsFailsafeStatus",
   "motor.temperature", "motor.angle", "motor.speed", "motor.phaseACurrent",
   "motor.phaseBCurrent", "motor.phaseCCurrent", "motor.calculatedTorque",
   "inverter.moduleATemperature", "inverter.moduleBTemperature", "inverter.moduleCTemperature",
   "inverter.gateDriverTemp", "inverter.controlBoardTemp", "inverter.outputFrequency",
   "inverter.dcBusCurrent", "inverter.dcBusVoltage", "inverter.outputVoltage", "inverter.vd",
   "inverter.vq", "inverter.fluxCommand", "inverter.fluxFeedback", "inverter.idFeedback",
   "inverter.iqFeedback", "inverter.vsmState", "inverter.inverterState",
   "inverter.dischargeState", "inverter.enabled", "inverter.direction", "inverter.postFaults",
   "inverter.runFaults", "inverter.commandedTorque", "inverter.timerCounts",
   "inverter.modulationIndex", "inverter.fluxWeakeningOutput", "inverter.idCommand",
   "inverter.iqCommand"]

/-- The functions that take a mutex.  Functions with several paths through the
section have a parameter that selects what the path accesses. Lines at each constructor, e.g. vehicleState.c 37-46. -/
inductive Fn where
  /-- vehicleState.c:35-46 (telemetry, periodicupdates.c:183; fault manager,
  faultManager.c:225) -/
  | copyState
  /-- throttleController.c:50-54 -/
  | readPedal
  /-- stateMachine.c:44-48, 116-120, 144-148 -/
  | readButton
  /-- stateMachine.c:85-89 -/
  | readInverter
  /-- orionBms.c:51-57 -/
  | bmsMax
  /-- orionBms.c:82-88 -/
  | bmsMin
  /-- orionBms.c:115-120 -/
  | bmsPack
  /-- orionBms.c:137-142 -/
  | bmsStatus
  /-- cInverter.c:69-75 -/
  | invTemp1
  /-- cInverter.c:90-93 -/
  | invTemp2
  /-- cInverter.c:108-111 -/
  | invTemp3
  /-- cInverter.c:128-133 -/
  | invPos
  /-- cInverter.c:151-157 -/
  | invCurrent
  /-- cInverter.c:175-181 -/
  | invVoltage
  /-- cInverter.c:199-205 -/
  | invFlux
  /-- cInverter.c:224-231 -/
  | invStates
  /-- cInverter.c:244-248 -/
  | invFaults
  /-- cInverter.c:265-270 -/
  | invTorque
  /-- cInverter.c:288-294 -/
  | invFluxWeak
  /-- pdm.c:47-51 -/
  | pdmSet
  /-- sdc.c:38-41 -/
  | sdcCopy
  /-- wheelspeed.c:134-137 -/
  | wheelCopy
  /-- gps.c:26-36 -/
  | gpsCopy
  /-- discretesense.c:43-71; the flags are the ADC results of the two pedal and
  the two brake channels -/
  | discrete (a b fr re : Bool)
  /-- cInverter.c:422-442 -/
  | torque
  /-- cInverter.c:448-484; the flag is false on the early return of line 453 -/
  | enable (done : Bool)
  /-- cInverter.c:490-516; `done` as above, `on` is the argument -/
  | discharge (done on : Bool)
  /-- throttleController.c:121-128 -/
  | setEnabled
  /-- throttleController.c:136-143 -/
  | setDirection
  /-- crc.c:34-42 -/
  | crcCalc
  /-- logging.c:72-90 -/
  | logPrint
  /-- logging.c:43-51 -/
  | logStream
  /-- logging.c:58-65 -/
  | logSwo
deriving DecidableEq, Repr

/-- Assign the named members of the vehicle data. E.g. orionBms.c 34-141. -/
def wrs (v : Fld → V) (names : List String) : List (Instr Lock Fld V) :=
  names.map fun a => .wr (.vs a) (v (.vs a))

/-- What the function does between take and give, and which mutex it uses.  `v`
gives the values written. Lines at `Fn`, e.g. vehicleState.c 37-46. -/
def body (v : Fld → V) : Fn → Lock × List (Instr Lock Fld V)
  | .copyState => (.vehicle, vsFields.map fun a => .rd (.vs a))
  | .readPedal => (.vehicle, [.rd (.vs "inputs.accel")])
  | .readButton => (.vehicle, [.rd (.vs "dash.buttonPressed")])
  | .readInverter => (.vehicle, [.rd (.vs "inverter.vsmState")])
  | .bmsMax => (.vehicle, wrs v ["battery.maxCellTemperature",
      "battery.maxCellTemperatureCellID", "battery.maxCellVoltage",
      "battery.maxCellVoltageCellID"])
  | .bmsMin => (.vehicle, wrs v ["battery.minCellTemperature",
      "battery.minCellTemperatureCellID", "battery.minCellVoltage",
      "battery.minCellVoltageCellID"])
  | .bmsPack => (.vehicle, wrs v ["battery.dcCurrent", "battery.dcVoltage",
      "battery.stateOfCarge"])
  | .bmsStatus => (.vehicle, wrs v ["battery.bmsPopulatedCells", "battery.bmsCounter",
      "battery.bmsFailsafeStatus"])
  | .invTemp1 => (.vehicle, wrs v ["inverter.moduleATemperature",
      "inverter.moduleBTemperature", "inverter.moduleCTemperature", "inverter.gateDriverTemp"])
  | .invTemp2 => (.vehicle, wrs v ["inverter.controlBoardTemp"])
  | .invTemp3 => (.vehicle, wrs v ["motor.temperature"])
  | .invPos => (.vehicle, wrs v ["motor.angle", "motor.speed", "inverter.outputFrequency"])
  | .invCurrent => (.vehicle, wrs v ["motor.phaseACurrent", "motor.phaseBCurrent",
      "motor.phaseCCurrent", "inverter.dcBusCurrent"])
  | .invVoltage => (.vehicle, wrs v ["inverter.dcBusVoltage", "inverter.outputVoltage",
      "inverter.vd", "inverter.vq"])
  | .invFlux => (.vehicle, wrs v ["inverter.fluxCommand", "inverter.fluxFeedback",
      "inverter.idFeedback", "inverter.iqFeedback"])
  | .invStates => (.vehicle, wrs v ["inverter.vsmState", "inverter.inverterState",
      "inverter.dischargeState", "inverter.enabled", "inverter.direction"])
  | .invFaults => (.vehicle, wrs v ["inverter.postFaults", "inverter.runFaults"])
  | .invTorque => (.vehicle, wrs v ["inverter.commandedTorque", "motor.calculatedTorque",
      "inverter.timerCounts"])
  | .invFluxWeak => (.vehicle, wrs v ["inverter.modulationIndex",
      "inverter.fluxWeakeningOutput", "inverter.idCommand", "inverter.iqCommand"])
  | .pdmSet => (.vehicle, wrs v ["glv.pdmChState"])
  | .sdcCopy => (.vehicle, wrs v ["vehicle.sdc"])
  | .wheelCopy => (.vehicle, wrs v ["vehicle.wheelspeed"])
  | .gpsCopy => (.vehicle, wrs v ["vehicle.gps.utcTime", "vehicle.gps.nsIndicator",
      "vehicle.gps.ewIndicator", "vehicle.gps.positionFix", "vehicle.gps.nSatellites",
      "vehicle.gps.latitude", "vehicle.gps.longitude"])
  | .discrete a b fr re => (.vehicle,
      (if a then wrs v ["inputs.accelA", "inputs.accelRawA"] else [])
      ++ (if b then wrs v ["inputs.accelB", "inputs.accelRawB"] else [])
      ++ (if a && b then wrs v ["inputs.accel", "inputs.accelValid"] else [])
      ++ (if fr then wrs v ["inputs.brakePresFront", "inputs.brakeRawFront"] else [])
      ++ (if re then wrs v ["inputs.brakePresRear", "inputs.brakeRawRear"] else [])
      ++ wrs v ["dash.buttonPressed"])
  | .torque => (.command, [.rd (.cmd "inverterEnabled")])
  | .enable done => (.command, [.rd (.cmd "dischargeModeEnabled")]
      ++ (if done then [.rd (.cmd "inverterEnabled"),
            .wr (.cmd "inverterEnabled") (v (.cmd "inverterEnabled"))] else []))
  | .discharge done on => (.command, [.rd (.cmd "inverterEnabled")]
      ++ (if done then [.wr (.cmd "dischargeModeEnabled") (v (.cmd "dischargeModeEnabled"))]
            ++ (if on then [.wr (.cmd "inverterEnabled") (v (.cmd "inverterEnabled"))] else [])
          else []))
  | .setEnabled => (.throttle, [.wr (.thr "enabled") (v (.thr "enabled"))])
  | .setDirection => (.throttle, [.wr (.thr "direction") (v (.thr "direction"))])
  | .crcCalc => (.crc, [.wr .crcUnit (v .crcUnit), .rd .crcUnit])
  | .logPrint => (.log, [.rd (.log "enableSWO"), .rd (.log "enableSerial"),
      .rd (.log "serialOutputStream"), .wr (.log "output") (v (.log "output"))])
  | .logStream => (.log, [.wr (.log "enableSerial") (v (.log "enableSerial")),
      .wr (.log "serialOutputStream") (v (.log "serialOutputStream"))])
  | .logSwo => (.log, [.wr (.log "enableSWO") (v (.log "enableSWO"))])

/-- A call: take, body, give.  None of the functions calls another function that
takes a mutex between its take and its give (the sections listed at `Fn` contain
assignments, `memcpy`, `SendCANCommand` → `CAN_SendMessage`, whose wait on its
queue is limited to 10 ticks (can.c), `HAL_CRC_Calculate`, `printf` and
`xStreamBufferSend` without wait). -/
def call (c : Fn × (Fld → V)) : List (Instr Lock Fld V) :=
  .acq (body c.2 c.1).1 :: (body c.2 c.1).2 ++ [.rel (body c.2 c.1).1]

/-- A task: any sequence of calls (every task of the firmware calls only some of
them, in the order of its source; which ones does not matter here). E.g. orionBms.c 180-190. -/
def task (cs : List (Fn × (Fld → V))) : List (Instr Lock Fld V) :=
  cs.flatMap call

end Verif.Locks
