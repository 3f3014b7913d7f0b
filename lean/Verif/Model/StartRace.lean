import Verif.Model.Startup

set_option autoImplicit false

/-!
# Start-up beside the tasks it creates

The init task (initialize.c 244-268) creates the other tasks one by one and goes on; the scheduler
may give the processor to them in between, and interrupts wake them. Here the init task is the list
of its steps with everything it makes and with its log calls, each taken apart into taking the lock,
sending, and giving the lock back (logging.c 70-92). The other tasks are left free to do, in any
order and as often as they like, what occurs in their code: use an object, take or give a lock, or
wait. Which task gets the processor is free within the kernel's rule for the init task
(C106, C108).

File names below: initialize.c is vcu/startup/initialize.c; the modules are those of
`Model/Startup`.
-/

namespace Verif.StartRace

open Startup (Task Op Hw Mod)

/-- What the start-up makes and tasks use. Kernel objects are null before, other data are zero.
initialize.c 271-396; lines below. -/
inductive Obj where
  /-- Interfaces of uart.c 188-197. -/
  | uart (dev : Nat)
  /-- Lock of the CRC unit, crc.c 20. -/
  | crc
  /-- Frame encoders and decoder, pcinterface.c 110-148. -/
  | pcFrames
  /-- Log stream, pcinterface.c 152-156. -/
  | logStream
  /-- Receive stream of the PC interface, pcinterface.c 182-186. -/
  | pcStream
  /-- Transmit queues of the CAN driver, can.c 202-209. -/
  | canQueues
  /-- A bus in use, can.c 238-269. -/
  | canBus (bus : Fin 3)
  /-- Buffers of the converter, adc.c 105-129. -/
  | adc
  /-- `mConfig`, initialize.c 318-321. -/
  | config
  /-- Vehicle data and their lock, vehicleState.c 24-27. -/
  | vehicleState
  /-- NMEA decoder, gps.c 121. -/
  | nmea
  /-- GPS stream, gps.c 134-138. -/
  | gpsStream
  /-- `mConfig` of the wheel speeds, wheelspeed.c 167. -/
  | wheelConfig
  /-- Sample stream, wheelspeed.c 170-174. -/
  | wheelStream
  /-- Pins of the shutdown circuit, sdc.c 82-86. -/
  | sdcPins
  /-- Power outputs, pdm.c 31. -/
  | pdm
  /-- Receive queue of the inverter, cInverter.c 372-376. -/
  | inverterQueue
  /-- Command data of the inverter with their lock, cInverter.c 379-380. -/
  | inverterCommand
  /-- Receive queue of the battery, orionBms.c 199-203. -/
  | bmsQueue
  /-- Calibration of the sensors, initialize.c 352-371. -/
  | scaling
  /-- Counter of the watchdog task, watchdogTrigger.c 54. -/
  | watchdogCounter
  /-- Maps, state and lock of the throttle controller, throttleController.c 87-93. -/
  | throttle
  /-- State machine and fault manager, vehicleStateManager.c 46-51. -/
  | vsm
deriving DecidableEq, Repr

/-- Locks the tasks and the start-up take: logging.c 32, vehicleState.c 27, cInverter.c 380,
throttleController.c 93, crc.c 20. -/
inductive Lock where
  | log | vehicleState | inverterCommand | throttle | crc
deriving DecidableEq, Repr

/-- Steps of the init task, initialize.c 244-396. -/
inductive Step where
  /-- A step of `Model/Startup`. -/
  | op (o : Op)
  /-- Objects made (initialize.c 271-396, citations at `Obj`). -/
  | make (o : Obj)
  /-- `xSemaphoreTake` in `Log_Print`, logging.c 72. -/
  | logTake
  /-- The message is sent, logging.c 87-89. -/
  | logSend
  /-- `xSemaphoreGive`, logging.c 91. -/
  | logGive
deriving DecidableEq, Repr

/-- `Log_Print`, logging.c 70-92. -/
def log : List Step := [.logTake, .logSend, .logGive]

/-- `UART_Config`, uart.c 168-204. -/
def uartConfig (dev : Nat) : List Step :=
  log ++ [.op (.depend .uart), .make (.uart dev), .op (.uartConfig dev)] ++ log

/-- `CAN_Config`, can.c 217-273. -/
def canConfig (bus : Fin 3) : List Step :=
  log ++ [.op (.depend .can)] ++ log ++
  [.op (.canInUse bus), .op (.hw (.canFilter bus)), .op (.hw (.canStart bus)), .op (.hw (.canNotify bus)),
   .make (.canBus bus)] ++ log

/-- `ECU_Init_System`, initialize.c 271-291, and the two messages of lines 253-254. -/
def system : List Step :=
  [.op (.register .log)] ++ log ++
  log ++ [.op (.depend .log), .op (.timerReset 2), .op (.hw .timStart), .op (.timerRuns 2), .op (.register .taskTimer)] ++
    log ++
  log ++ [.op (.depend .log), .op (.register .uart)] ++ log ++ uartConfig 1 ++ uartConfig 3 ++
  log ++ [.op (.depend .log), .make .crc, .op (.register .crc)] ++ log ++
  log ++ [.op (.depend .log), .op (.depend .uart), .op (.depend .taskTimer), .make .pcFrames, .make .logStream,
    .op (.mkTask .pc), .op (.regTimer .pc), .op (.hw .logLock), .make .pcStream, .op (.mkBuffer .pc),
    .op (.uartStream 1 .pc), .op (.uartStream 3 .pc), .op (.register .pc)] ++ log ++
  log ++ log

/-- `ECU_Init_BoardPeriph`, `ECU_Init_BoardDevs` and `ECU_Init_LoadConfig`, initialize.c 294-322. -/
def boardPeriph : List Step :=
  log ++ log ++ [.op (.depend .log), .make .canQueues, .op (.register .can)] ++ log ++
  canConfig 0 ++ canConfig 1 ++ canConfig 2 ++
  log ++ [.op (.depend .log), .op (.require (12 ≤ 16)), .op (.require ((12 : Nat) = 12)), .op (.require true),
    .op (.require true), .make .adc, .op (.hw .adcStart), .op (.register .adc)] ++ log ++
  log ++ [.make .config]

/-- `ECU_Init_VehicleInterface1`, initialize.c 325-333. -/
def vehicleInterface1 : List Step :=
  log ++ log ++ [.op (.depend .taskTimer), .make .vehicleState, .op (.register .vehicleState)] ++ log ++
  [.op (.depend .vehicleState)]

/-- `ECU_Init_VehicleDevices`, initialize.c 336-375. -/
def vehicleDevices : List Step :=
  log ++ uartConfig 6 ++
  log ++ [.op (.depend .log), .op (.depend .vehicleState), .op (.depend .uart), .make .nmea, .op (.mkTask .gps),
    .make .gpsStream, .op (.mkBuffer .gps), .op (.uartStream 6 .gps), .op (.register .gps)] ++ log ++
  [.op (.depend .log)] ++ log ++ [.op (.depend .vehicleState), .op (.depend .taskTimer), .make .wheelConfig,
    .make .wheelStream, .op (.mkBuffer .wheelspeed), .op (.mkTask .wheelspeed), .op (.regTimer .wheelspeed),
    .op .wheelReady, .op (.register .wheelspeed)] ++ log ++
  log ++ [.op (.depend .log), .op (.depend .vehicleState), .make .sdcPins, .op .sdcConfig, .op (.mkTask .sdc),
    .op (.register .sdc)] ++ log ++
  log ++ [.op (.depend .log), .op (.depend .vehicleState), .make .pdm, .op (.register .pdm)] ++ log ++
  log ++ [.op (.depend .log), .op (.depend .can), .make .inverterQueue, .op (.mkBuffer .inverter), .make .inverterCommand,
    .op (.mkTask .inverter), .op (.regTimer .inverter), .op (.canQueue 0 .inverter), .op (.register .inverter)] ++ log ++
  log ++ [.op (.depend .log), .op (.depend .can), .make .bmsQueue, .op (.mkBuffer .bms), .op (.mkTask .bms),
    .op (.regTimer .bms), .op (.canQueue 1 .bms), .op (.register .bms)] ++ log ++
  [.make .scaling] ++
  log ++ [.op (.depend .log), .op (.depend .vehicleState), .op (.depend .adc), .op (.depend .taskTimer),
    .op (.mkTask .discreteSense), .op (.regTimer .discreteSense), .op (.register .discreteSense)] ++ log ++
  [.op (.depend .log), .op (.depend .vehicleState)] ++ log ++ [.op (.register .dashboard)] ++ log

/-- `ECU_Init_VehicleInterface2`, initialize.c 378-386. -/
def vehicleInterface2 : List Step :=
  log ++ log ++ [.op (.depend .sdc), .op (.depend .inverter), .op (.depend .pdm), .op (.depend .dashboard),
    .op (.register .vehicleControl)] ++ log ++ [.op (.depend .vehicleControl)]

/-- `ECU_Init_VehicleProccesses`, initialize.c 389-396; the state machine's own messages are those of
stateMachine.c 173 and 184 and faultManager.c `FaultManager_Init`. -/
def vehicleProcesses : List Step :=
  log ++
  log ++ [.op (.depend .log), .op (.depend .taskTimer), .make .watchdogCounter, .op (.mkTask .watchdog),
    .op (.regTimer .watchdog), .op (.register .watchdog)] ++ log ++
  log ++ [.op (.depend .taskTimer), .make .throttle, .op (.mkTask .throttle), .op (.regTimer .throttle),
    .op (.register .throttle)] ++ log ++
  log ++ [.op (.depend .taskTimer)] ++ log ++ log ++ [.make .vsm] ++ log ++ log ++ [.op (.mkTask .stateManager),
    .op (.regTimer .stateManager), .op (.register .stateManager)] ++ log

/-- `ECU_Init_Task`, initialize.c 244-268. -/
def boot : List Step :=
  system ++ boardPeriph ++ vehicleInterface1 ++ vehicleDevices ++ vehicleInterface2 ++ vehicleProcesses ++ log ++ log

/-- The objects that occur in a task's code. pcinterface.c 22-86 with requests.c, periodicupdates.c and
logging.c; gps.c 45-92; wheelspeed.c 113-143; sdc.c 32-43; cInverter.c 297-348; orionBms.c 145-178;
discretesense.c 17-74; watchdogTrigger.c 17-31; throttleController.c 20-65 with cInverter.c 413-447 and
can.c; stateMachine.c 187-240 with faultManager.c, throttleController.c 117-150, vehicleControl.c,
sdc.c 103-107. (The pointer of the fault manager that nothing sets is C10 and not listed.) -/
def uses : Task → List Obj
  | .pc => [.pcStream, .pcFrames, .crc, .uart 1, .uart 3, .logStream, .canQueues, .canBus 0, .vehicleState, .pdm]
  | .gps => [.gpsStream, .nmea, .vehicleState]
  | .wheelspeed => [.wheelStream, .wheelConfig, .vehicleState]
  | .sdc => [.sdcPins, .vehicleState]
  | .inverter => [.inverterQueue, .vehicleState]
  | .bms => [.bmsQueue, .vehicleState]
  | .discreteSense => [.adc, .scaling, .vehicleState]
  | .watchdog => [.watchdogCounter]
  | .throttle => [.vehicleState, .throttle, .inverterCommand, .canQueues, .canBus 0]
  | .stateManager => [.vsm, .config, .vehicleState, .throttle, .inverterCommand, .canQueues, .canBus 0, .sdcPins]

/-- The locks that occur in a task's code (same places, and vehicleState.c 35-60,
cInverter.c 413-520, throttleController.c 117-150, crc.c, logging.c 70-92). -/
def locks : Task → List Lock
  | .pc => [.log, .vehicleState, .crc]
  | .gps => [.vehicleState]
  | .wheelspeed => [.vehicleState]
  | .sdc => [.vehicleState]
  | .inverter => [.vehicleState]
  | .bms => [.vehicleState]
  | .discreteSense => [.vehicleState]
  | .watchdog => []
  | .throttle => [.vehicleState, .inverterCommand]
  | .stateManager => [.vehicleState, .inverterCommand, .throttle]

/-- Who holds a lock. logging.c 72. -/
inductive Who where
  | init | task (t : Task)
deriving DecidableEq, Repr

/-- A task: not created, ready or running, asleep, or waiting for a lock. Kernel: tasks.c 2665-2800, 3094-3140. -/
inductive Mode where
  | absent | ready | asleep | wants (l : Lock)
deriving DecidableEq, Repr

/-- The init task: going on, waiting for the log's lock, in the loop of `ECU_Init_Error`
(initialize.c 224), or deleted (initialize.c 267). -/
inductive Init where
  | goes | wants | stuck | done
deriving DecidableEq, Repr

/-- State of start-up and tasks (initialize.c 244-268). `lost` counts the log calls of the init task that gave
up. -/
structure St where
  init : Init
  rest : List Step
  made : List Obj
  serial : Bool
  mode : Task → Mode
  holder : Lock → Option Who
  lost : Nat

/-- When the init task starts: nothing made (initialize.c 228-242). -/
def start : St := ⟨.goes, boot, [], false, fun _ => .absent, fun _ => none, 0⟩

/-- The init task can use the processor. Its loop at the end does, its waiting does not. initialize.c 224, 244-268. -/
def initReady (s : St) : Bool := s.init == .goes || s.init == .stuck

/-- The kernel's rule as far as it concerns the init task, which has the highest priority there is (clamped,
tasks.c 921-924): while it is ready no task of lower priority runs, except that one that holds a lock may have
inherited a higher priority. Between the other tasks the choice is left free. FreeRTOS tasks.c 2947-3010 `vTaskSwitchContext`,
`xTaskPriorityInherit`. -/
def MayRun (s : St) (t : Task) : Prop :=
  s.mode t = .ready ∧
    (initReady s = true → Startup.initPriority ≤ t.priority ∨ ∃ l, s.holder l = some (.task t))

/-- What a task does next: throttleController.c 43-65 and the other places listed at `uses` and `locks`. -/
inductive Act where
  | use (o : Obj)
  | take (l : Lock)
  | give (l : Lock)
  | sleep
deriving DecidableEq, Repr

/-- It occurs in the task's code: throttleController.c 43-65 and the other places listed at `uses` and `locks`. -/
def inCode (t : Task) : Act → Bool
  | .use o => decide (o ∈ uses t)
  | .take l => decide (l ∈ locks t)
  | .give l => decide (l ∈ locks t)
  | .sleep => true

/-- Events: a step of the init task, with what the hardware answers if the step asks it; the end of its waiting
after 100 ms (logging.c 72), or because the lock has become free; an action of a task; a wake-up of a sleeping task by an interrupt or by its time
limit; the hand-over of a lock that has become free to a task that waits for it. initialize.c 244-268. -/
inductive Ev where
  | init (hw : Bool)
  | expire
  | resume
  | act (t : Task) (a : Act)
  | wake (t : Task)
  | handOver (t : Task)
deriving DecidableEq, Repr

/-- A new holder. queue.c `prvCopyDataFromQueue` (mutex case), logging.c 72, 91. -/
def hold (s : St) (l : Lock) (w : Option Who) : St := { s with holder := fun k => if k = l then w else s.holder k }

/-- A new mode. tasks.c 2665-2800, 3094-3140. -/
def put (s : St) (t : Task) (m : Mode) : St := { s with mode := fun u => if u = t then m else s.mode u }

/-- One step of the init task that may run, with `rest` behind it. Taking the lock when it is not free makes it
wait; a refusal of the hardware leads to `ECU_Init_Error` (initialize.c 211-225, whose messages are left out:
nothing follows them). -/
def initStep (s : St) (hw : Bool) (st : Step) (rest : List Step) : C St :=
  match st with
  | .make o => .ok { s with rest := rest, made := o :: s.made }
  | .logTake =>
    match s.holder .log with
    | none => .ok { hold s .log (some .init) with rest := rest }
    | some _ => .ok { s with init := .wants }
  | .logSend =>
    if s.serial then
      if Obj.logStream ∈ s.made then .ok { s with rest := rest } else .error .assertFail
    else .ok { s with rest := rest }
  | .logGive => .ok { hold s .log none with rest := rest }
  | .op (.hw .logLock) =>
    match s.holder .log with
    | none => .ok { s with rest := rest, serial := true }
    | some _ => .ok { s with init := .wants }
  | .op (.hw _) => if hw then .ok { s with rest := rest } else .ok { s with init := .stuck }
  | .op (.mkTask t) => .ok { put s t .ready with rest := rest }
  | .op _ => .ok { s with rest := rest }

/-- One action of a task that may run. A kernel call on an object that does not exist fails an assertion
(FreeRTOS queue.c 753, 1280, 1425, stream_buffer.c 517, 620, 823); other objects would be used with their zeroes, which counts
as an error here as well. A lock that is not free makes the task wait; a lock is given back by its holder. -/
def taskStep (s : St) (t : Task) : Act → C St
  | .use o => if o ∈ s.made then .ok s else .error .assertFail
  | .take l =>
    match s.holder l with
    | none => .ok (hold s l (some (.task t)))
    | some _ => .ok (put s t (.wants l))
  | .give l => if s.holder l = some (.task t) then .ok (hold s l none) else .ok s
  | .sleep => .ok (put s t .asleep)

open Classical in
/-- One event; events that are not possible change nothing. initialize.c 244-268. -/
noncomputable def step (s : St) : Ev → C St
  | .init hw =>
    if s.init = .goes then
      match s.rest with
      | [] => .ok { s with init := .done }
      | st :: rest => initStep s hw st rest
    else .ok s
  | .expire =>
    if s.init = .wants then
      match s.rest with
      | .logTake :: rest => .ok { s with init := .goes, rest := rest.drop 2, lost := s.lost + 1 }
      | _ => .ok { s with init := .stuck }
    else .ok s
  | .resume => if s.init = .wants ∧ s.holder .log = none then .ok { s with init := .goes } else .ok s
  | .act t a => if MayRun s t ∧ inCode t a = true then taskStep s t a else .ok s
  | .wake t => if s.mode t = .asleep then .ok (put s t .ready) else .ok s
  | .handOver t =>
    match s.mode t with
    | .wants l => if s.holder l = none then .ok (put (hold s l (some (.task t))) t .ready) else .ok s
    | _ => .ok s

/-- Events one after the other. initialize.c 244-268. -/
noncomputable def run (s : St) (evs : List Ev) : C St := evs.foldlM step s

end Verif.StartRace
