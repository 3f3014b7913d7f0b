import Verif.Model.Depends
import Verif.Model.TaskTimer

set_option autoImplicit false

/-!
# Start-up: vcu/startup/initialize.c and the `*_Init` functions it calls

Each `*_Init` is written as the list of its steps that can fail or that matter to an interrupt or
to the scheduler, in program order. Creation of statically allocated queues, mutexes, streams and
tasks cannot fail. Log output is left out: it cannot fail the start-up.
-/

namespace Verif.Startup

/-- Registered modules (`REGISTER`, `REGISTER_STATIC`). initialize.c 271-396. -/
inductive Mod where
  | log | taskTimer | uart | crc | pc | can | adc | vehicleState | gps | wheelspeed | sdc | pdm
  | inverter | bms | discreteSense | dashboard | vehicleControl | watchdog | throttle | stateManager
deriving DecidableEq, Repr

/-- Tasks created during start-up. initialize.c 271-396. -/
inductive Task where
  | pc | gps | wheelspeed | sdc | inverter | bms | discreteSense | watchdog | throttle
  | stateManager
deriving DecidableEq, Repr

/-- Number of a task, for the task timer's table. tasktimer.c 68-91. -/
def Task.id : Task → Nat
  | .pc => 0 | .gps => 1 | .wheelspeed => 2 | .sdc => 3 | .inverter => 4 | .bms => 5
  | .discreteSense => 6 | .watchdog => 7 | .throttle => 8 | .stateManager => 9

/-- The `*_TASK_PRIORITY` constants of the headers. pcinterface.h 41, gps.h 33,
wheelspeed.h 38, sdc.h 44, cInverter.h 24, bms.h 22, discretesense.h 35, watchdogTrigger.h 29,
throttleController.h 35, vehicleStateManager.h 33. -/
def Task.requested : Task → Nat
  | .pc => 3 | .gps => 4 | .wheelspeed => 6 | .sdc => 4 | .inverter => 10 | .bms => 10
  | .discreteSense => 10 | .watchdog => 8 | .throttle => 3 | .stateManager => 3

/-- `configMAX_PRIORITIES` (FreeRTOSConfig.h 65). -/
def maxPriorities : Nat := 7

/-- Priorities above the maximum are clamped (FreeRTOS tasks.c 921-923). -/
def clamp (p : Nat) : Nat := if maxPriorities ≤ p then maxPriorities - 1 else p

/-- `INIT_TASK_PRIORITY` (initialize.c 44). -/
def initPriority : Nat := clamp 15

/-- `uxPriority` of a task (FreeRTOS tasks.c 921-929). -/
def Task.priority (t : Task) : Nat := clamp t.requested

/-- Hardware calls whose result is checked: `HAL_TIM_Base_Start_IT` (tasktimer.c 57), the lock of
the log (logging.c 58), the three calls of `CAN_Config` per bus (can.c 257-269) and
`HAL_ADC_Start_DMA` (adc.c 129). -/
inductive Hw where
  | timStart | logLock | canFilter (bus : Fin 3) | canStart (bus : Fin 3) | canNotify (bus : Fin 3)
  | adcStart
deriving DecidableEq, Repr

/-- Steps. initialize.c 244-396. -/
inductive Op where
  /-- `DEPEND_ON` / `DEPEND_ON_STATIC` (depends.h 67-95). -/
  | depend (m : Mod)
  /-- `REGISTER` / `REGISTER_STATIC` (depends.h 44-59). -/
  | register (m : Mod)
  /-- A check of constants. -/
  | require (b : Bool)
  /-- A checked hardware call. -/
  | hw (h : Hw)
  /-- Lines 49-53 of tasktimer.c. -/
  | timerReset (inst : Nat)
  /-- The timer runs and interrupts from here on. -/
  | timerRuns (inst : Nat)
  /-- `UART_Config` past its dependency check (uart.c 173-200). The result of starting the
  receiver (200) is ignored by the code. -/
  | uartConfig (dev : Nat)
  /-- `UART_SetRecvStream` (uart.c 207-224) with the stream of module `m`. -/
  | uartStream (dev : Nat) (m : Mod)
  /-- `handle` and `inUse` of a CAN bus (can.c 238-239). -/
  | canInUse (bus : Nat)
  /-- `CAN_RegisterQueue` (can.c 276-299) with the queue of module `m`. -/
  | canQueue (bus : Nat) (m : Mod)
  /-- Creation of the queue or stream of module `m`. -/
  | mkBuffer (m : Mod)
  /-- `xTaskCreateStatic`, with the handle stored. -/
  | mkTask (t : Task)
  /-- `TaskTimer_RegisterTask`. -/
  | regTimer (t : Task)
  /-- `mConfig = *config` of the shutdown circuit (sdc.c 86). -/
  | sdcConfig
  /-- `isInitialized = true` of the wheel speed module (wheelspeed.c 195). -/
  | wheelReady
deriving DecidableEq, Repr

/-- Static data during start-up. initialize.c 50-151 and the variables of the modules. -/
structure St where
  reg : Depends.St
  ids : List (Mod × UInt32)
  timer : TaskTimer.St
  running : List Nat
  uarts : List Nat
  uartStreams : List (Nat × Mod)
  cans : List Nat
  canQueues : List (Nat × Mod)
  buffers : List Mod
  tasks : List Task
  sdcConfigured : Bool
  wheelReady : Bool
deriving DecidableEq, Repr

/-- At the start of the init task. Timer 1 is the HAL time base
(stm32f7xx_hal_timebase_tim.c 82) and runs already. -/
def power : St :=
  ⟨Depends.start, [], TaskTimer.power, [1], [], [], [], [], [], [], false, false⟩

/-- The component id stored in a module: zero until registered (static storage). depends.c 12-34. -/
def idOf (s : St) (m : Mod) : UInt32 := (s.ids.lookup m).getD 0

/-- `CAN_MAX_RECV_QUEUES` (can.h 27). -/
def canMaxQueues : Nat := 8

/-- One step; `none` is an error return, which ends in `ECU_Init_Error` (initialize.c 211-214,
217-225). -/
def step (env : Hw → Bool) (s : St) : Op → Option St
  | .depend m => if Depends.dependOn s.reg (idOf s m) then some s else none
  | .register m =>
    match Depends.registerModule s.reg true with
    | (some i, r) => some { s with reg := r, ids := (m, i) :: s.ids }
    | (none, _) => none
  | .require b => if b then some s else none
  | .hw h => if env h then some s else none
  | .timerReset inst =>
    some { s with timer := ⟨some inst, 0, List.replicate TaskTimer.maxTasks none, true⟩ }
  | .timerRuns inst => some { s with running := inst :: s.running }
  | .uartConfig d => if d ∈ s.uarts then none else some { s with uarts := d :: s.uarts }
  | .uartStream d m =>
    if d ∈ s.uarts then some { s with uartStreams := (d, m) :: s.uartStreams } else none
  | .canInUse b => some { s with cans := b :: s.cans }
  | .canQueue b m =>
    if (s.canQueues.filter fun q => q.1 = b).length = canMaxQueues then none
    else some { s with canQueues := (b, m) :: s.canQueues }
  | .mkBuffer m => some { s with buffers := m :: s.buffers }
  | .mkTask t => some { s with tasks := t :: s.tasks }
  | .regTimer t =>
    match TaskTimer.registerTask s.timer (Depends.dependOn s.reg (idOf s .taskTimer))
        (some t.id) 0 with
    | .ok (.ok, tt) => some { s with timer := tt }
    | _ => none
  | .sdcConfig => some { s with sdcConfigured := true }
  | .wheelReady => some { s with wheelReady := true }

/-- The init task: the state in which it stops and whether it got to the end. initialize.c 244-268. -/
def exec (env : Hw → Bool) : St → List Op → St × Bool
  | s, [] => (s, true)
  | s, o :: os =>
    match step env s o with
    | none => (s, false)
    | some s' => exec env s' os

/-- `CAN_Config` (can.c 217-273). -/
def canConfig (bus : Fin 3) : List Op :=
  [.depend .can, .canInUse bus, .hw (.canFilter bus), .hw (.canStart bus), .hw (.canNotify bus)]

/-- `UART_Config` (uart.c 168-204). -/
def uartConfig (dev : Nat) : List Op := [.depend .uart, .uartConfig dev]

/-- `ECU_Init_System` (initialize.c 271-291): `Log_Init` (logging.c 30-38), `TaskTimer_Init`
(tasktimer.c 41-65) with timer 2, `UART_Init` (uart.c 153-165), two `UART_Config` (devices 1 and
3, deviceMapping.c), `CRC_Init` (crc.c 13-25), `PCInterface_Init` (pcinterface.c 99-197). -/
def system : List Op :=
  [.register .log,
   .depend .log, .timerReset 2, .hw .timStart, .timerRuns 2, .register .taskTimer,
   .depend .log, .register .uart] ++ uartConfig 1 ++ uartConfig 3 ++
  [.depend .log, .register .crc,
   .depend .log, .depend .uart, .depend .taskTimer, .mkTask .pc, .regTimer .pc, .hw .logLock,
   .mkBuffer .pc, .uartStream 1 .pc, .uartStream 3 .pc, .register .pc]

/-- `ECU_Init_BoardPeriph` (initialize.c 294-305): `CAN_Init` (can.c 193-214), `CAN_Config` for
the three busses, `ADC_Init` (adc.c 79-138) with 12 channels (deviceMapping.h; cube main.c
250-270). -/
def boardPeriph : List Op :=
  [.depend .log, .register .can] ++ canConfig 0 ++ canConfig 1 ++ canConfig 2 ++
  [.depend .log, .require (12 ≤ 16), .require ((12 : Nat) = 12), .require true, .require true,
   .hw .adcStart, .register .adc]

/-- `ECU_Init_VehicleInterface1` (initialize.c 325-333): `VehicleState_Init` (vehicleState.c
18-32), `PCInterface_SetVehicleState` (pcinterface.c 199-209). -/
def vehicleInterface1 : List Op :=
  [.depend .taskTimer, .register .vehicleState, .depend .vehicleState]

/-- `ECU_Init_VehicleDevices` (initialize.c 336-375): GPS port and `GPS_Init` (gps.c 107-146),
`Wheelspeed_Init` (wheelspeed.c 157-200), `SDC_Init` (sdc.c 75-101), `PDM_Init` (pdm.c 14-35),
`CInverter_Init` (cInverter.c 364-411, bus 1 of deviceMapping.h 80), `BMS_Init` (orionBms.c
191-234, bus 2), `DiscreteSense_Init` (discretesense.c 87-121), `DashboardOut_Init`
(dashboard_output.c 10-21). -/
def vehicleDevices : List Op :=
  uartConfig 6 ++
  [.depend .log, .depend .vehicleState, .depend .uart, .mkTask .gps, .mkBuffer .gps,
   .uartStream 6 .gps, .register .gps,
   .depend .log, .depend .vehicleState, .depend .taskTimer, .mkBuffer .wheelspeed,
   .mkTask .wheelspeed, .regTimer .wheelspeed, .wheelReady, .register .wheelspeed,
   .depend .log, .depend .vehicleState, .sdcConfig, .mkTask .sdc, .register .sdc,
   .depend .log, .depend .vehicleState, .register .pdm,
   .depend .log, .depend .can, .mkBuffer .inverter, .mkTask .inverter, .regTimer .inverter,
   .canQueue 0 .inverter, .register .inverter,
   .depend .log, .depend .can, .mkBuffer .bms, .mkTask .bms, .regTimer .bms,
   .canQueue 1 .bms, .register .bms,
   .depend .log, .depend .vehicleState, .depend .adc, .depend .taskTimer,
   .mkTask .discreteSense, .regTimer .discreteSense, .register .discreteSense,
   .depend .log, .depend .vehicleState, .register .dashboard]

/-- `ECU_Init_VehicleInterface2` (initialize.c 378-386): `VehicleControl_Init` (vehicleControl.c
18-32), `PCInterface_SetVehicleControl` (pcinterface.c 211-221). -/
def vehicleInterface2 : List Op :=
  [.depend .sdc, .depend .inverter, .depend .pdm, .depend .dashboard, .register .vehicleControl,
   .depend .vehicleControl]

/-- `ECU_Init_VehicleProccesses` (initialize.c 389-396): `WatchdogTrigger_Init`
(watchdogTrigger.c 45-78), `ThrottleController_Init` (throttleController.c 79-114),
`VehicleStateManager_Init` (vehicleStateManager.c 40-72). -/
def vehicleProcesses : List Op :=
  [.depend .log, .depend .taskTimer, .mkTask .watchdog, .regTimer .watchdog, .register .watchdog,
   .depend .taskTimer, .mkTask .throttle, .regTimer .throttle, .register .throttle,
   .depend .taskTimer, .mkTask .stateManager, .regTimer .stateManager, .register .stateManager]

/-- `ECU_Init_Task` (initialize.c 244-268); `ECU_Init_BoardDevs` and `ECU_Init_LoadConfig` cannot
fail. -/
def boot : List Op :=
  system ++ boardPeriph ++ vehicleInterface1 ++ vehicleDevices ++ vehicleInterface2 ++
    vehicleProcesses

/-- A task that the scheduler may ever select while the init task runs or spins without blocking:
the running task always has the highest priority among the ready ones, with time slicing among
equals. FreeRTOS tasks.c 2947-3010, 2772-2790. -/
def mayRun (s : St) (t : Task) : Prop := t ∈ s.tasks ∧ initPriority ≤ t.priority

/-- Interrupts. `sdc` carries the levels of the four pins. interrupts.c 17-29, can.c 121-190,
uart.c 72-149, adc.c 207-261. -/
inductive Irq where
  | timer (inst : Nat)
  | sdc (bms bspd imd out : Bool)
  | canRx (bus : Nat)
  | uartRx (dev : Nat)
deriving DecidableEq, Repr

/-- Whether the interrupt can be raised: a timer when it was started, a shutdown-circuit line at
any time (enabled in `MX_GPIO_Init`, cube main.c 1029-1037, before the scheduler starts), a bus
or port when configured. -/
def canOccur (s : St) : Irq → Prop
  | .timer i => i ∈ s.running
  | .sdc _ _ _ _ => True
  | .canRx b => b ∈ s.cans
  | .uartRx d => d ∈ s.uarts

/-- Notify tasks: `vTaskNotifyGiveFromISR` asserts a non-null handle (FreeRTOS tasks.c 4963). -/
def notify (s : St) : List Nat → C Unit
  | [] => .ok ()
  | t :: ts => if s.tasks.any (fun u => u.id = t) then notify s ts else .error .assertFail

/-- Send to a queue or stream: `configASSERT` on a null handle. FreeRTOS queue.c 963, stream_buffer.c 620. -/
def send (s : St) (ms : List Mod) : C Unit :=
  if ms.all (fun m => decide (m ∈ s.buffers)) then .ok () else .error .assertFail

/-- The handlers: `TIM_IRQHandler` (interrupts.c 22-29) with `Wheelspeed_TIM_IRQHandler`
(wheelspeed.c 202-231), `SDC_IRQHandler` (sdc.c 109-123) with all stored inputs false,
`ISR_RxMsgPendingCallback` (can.c 64-114), `HAL_UARTEx_RxEventCallback` (uart.c 72-94). -/
def handle (s : St) : Irq → C Unit
  | .timer i =>
    match TaskTimer.callback s.timer i with
    | .error e => .error e
    | .ok ts =>
      match notify s ts with
      | .error e => .error e
      | .ok () => if s.wheelReady ∧ i = 3 then send s [.wheelspeed] else .ok ()
  | .sdc bms bspd imd out =>
    if !s.sdcConfigured then .error .nullDeref
    else if bms || bspd || imd || out then notify s [Task.sdc.id] else .ok ()
  | .canRx b =>
    if b ∈ s.cans then send s ((s.canQueues.filter fun q => q.1 = b).map Prod.snd) else .ok ()
  | .uartRx d =>
    if d ∈ s.uarts then send s ((s.uartStreams.filter fun q => q.1 = d).map Prod.snd) else .ok ()

end Verif.Startup
