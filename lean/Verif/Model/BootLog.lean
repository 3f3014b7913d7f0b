import Verif.Model.StartRace
import Verif.Model.LogStream

set_option autoImplicit false

/-!
# What start-up writes to the log

`Model/StartRace` has every `Log_Print` of the init task as taking the lock, sending and giving it back; here are
the texts, and the log and its stream behind them (`Model/LogStream`). The two messages of `ECU_Init_Error`
(initialize.c 217-225), which `Model/StartRace` leaves out, are sent in the step in which start-up fails.

File names: initialize.c is vcu/startup/initialize.c; other files as in `Model/Startup`.
-/

namespace Verif.BootLog

open StartRace (MayRun)

/-- The characters of a C string. initialize.c 253-266. -/
def chars (s : String) : List UInt8 := s.toList.map fun c => UInt8.ofNat c.toNat

/-- Texts of `UART_Config`, uart.c 170, 202. -/
def uartConfig : List String := ["UART_Config begin\n", "UART_Config complete\n"]

/-- Texts of `CAN_Config`, can.c 219-231, 271. -/
def canConfig (bus : String) : List String := ["CAN_Config begin ", bus, "CAN_Config complete\n"]

/-- Before the log has its stream: `ECU_Init_System` up to `Log_SetSerialStream`. initialize.c 276-290,
tasktimer.c 46, 63, uart.c 156, 163, crc.c 16, 23, pcinterface.c 105. -/
def early : List String :=
  ["###### ECU_Init_System ######\n", "TaskTimer_Init begin\n", "TaskTimer_Init complete\n",
   "UART_Init begin\n", "UART_Init complete\n"] ++ uartConfig ++ uartConfig ++
  ["CRC_Init begin\n", "complete begin\n", "PCInterface_Init begin\n"]

/-- `welcomeMsg`, welcomemsg.c 3-15. -/
def welcome : String :=
  "####################################\n" ++
  "#     ___                          #\n" ++
  "#    /   \\                         #\n" ++
  "#   |] _ [|           DFEA         #\n" ++
  "#   |_/ \\_|          RACING        #\n" ++
  "#   / \\_/ \\                        #\n" ++
  "#  ||     ||                       #\n" ++
  "#  ||     ||      QUACKIN QUICK    #\n" ++
  "#   \\_____/                        #\n" ++
  "#   __   __                        #\n" ++
  "#                                  #\n" ++
  "####################################\n"

/-- pcinterface.c 195 and `ECU_Init_Task`, initialize.c 254-255. -/
def system : List String := ["PCInterface_Init complete\n", "\n\n\n", welcome]

/-- `ECU_Init_BoardPeriph`, `ECU_Init_BoardDevs`: initialize.c 296, 310, can.c 196, 212, adc.c 82, 136. -/
def board : List String :=
  ["###### ECU_Init_BoardPeriph ######\n", "CAN_Init begin\n", "CAN_Init complete\n"] ++
  canConfig "CAN1\n" ++ canConfig "CAN2\n" ++ canConfig "CAN3\n" ++
  ["ADC_Init begin\n", "ADC_Init complete\n", "###### ECU_Init_BoardDevs ######\n"]

/-- `ECU_Init_VehicleInterface1`: initialize.c 327, vehicleState.c 21, 30. -/
def interface1 : List String :=
  ["###### ECU_Init_VehicleInterface1 ######\n", "VehicleState_Init begin\n", "VehicleState_Init complete\n"]

/-- `ECU_Init_VehicleDevices`: initialize.c 338, gps.c 112, 144, wheelspeed.c 161, 198, sdc.c 78, 99, pdm.c 17, 33,
cInverter.c 367, 409, orionBms.c 194, 232, discretesense.c 90, 119, dashboard_output.c 14, 19. -/
def devices : List String :=
  ["###### ECU_Init_VehicleDevices ######\n"] ++ uartConfig ++
  ["GPS_Init begin\n", "GPS_Init complete\n", "Wheelspeed_Init begin\n", "Wheelspeed_Init complete\n",
   "SDC_Init begin\n", "SDC_Init complete\n", "PDM_Init begin\n", "PDM_Init complete\n",
   "CInverter_Init begin\n", "CInverter_Init complete\n", "BMS_Init begin\n", "BMS_Init complete\n",
   "DiscreteSense_Init begin\n", "DiscreteSense_Init complete\n",
   "DashboardOut_Init begin\n", "DashboardOut_Init complete\n"]

/-- `ECU_Init_VehicleInterface2`: initialize.c 380, vehicleControl.c 23, 30. -/
def interface2 : List String :=
  ["###### ECU_Init_VehicleInterface2 ######\n", "VehicleControl_Init begin\n", "VehicleControl_Init complete\n"]

/-- `ECU_Init_VehicleProccesses` and the end of `ECU_Init_Task`: initialize.c 391, 265-266, watchdogTrigger.c 50, 76,
throttleController.c 84, 112, vehicleStateManager.c 43, 70, stateMachine.c 173, 184, faultManager.c 200, 218. -/
def processes : List String :=
  ["###### ECU_Init_VehicleProccesses ######\n", "WatchdogTrigger_Init begin\n", "WatchdogTrigger_Init complete\n",
   "ThrottleController_Init begin\n", "ThrottleController_Init complete\n",
   "VehicleStateManager_Init begin\n", "VSM_Init begin\n", "FaultManager_Init begin\n",
   "FaultManager_Init complete\n", "VSM_Init complete\n", "VehicleStateManager_Init complete\n",
   "ECU_Init complete\n", "ECU_Init deleting init task\n"]

/-- All texts of the init task in order. initialize.c 244-268. -/
def texts : List String :=
  early ++ (system ++ board ++ interface1 ++ devices ++ interface2 ++ processes)

/-- The messages of a failure: `TRY_INIT` and `ECU_Init_Error`, initialize.c 211-225. The macro does not use its
argument `module_name`. -/
def failure : List String := ["Watchdog Trigger initialization error\n", "ECU Failed to initialize\n"]

/-- Start-up and tasks, the texts still to come, the log. initialize.c 244-268. -/
structure St where
  race : StartRace.St
  left : List String
  sys : LogStream.Sys

/-- Before the init task begins: `Log_Init` has not enabled serial output (logging.c 33). -/
def start : St := ⟨StartRace.start, texts, ⟨⟨false, false, [], [], []⟩, []⟩⟩

/-- Events: one of `Model/StartRace`; the PC interface's task sends a frame of log text (pcinterface.c 33-43), or
prints something itself (pcinterface.c 63, requests.c 47-70). -/
inductive Ev where
  | race (e : StartRace.Ev)
  | round
  | print (ok : Bool) (mem : List UInt8)

/-- The init task is about to send a text (logging.c 87-89). -/
def saying (s : StartRace.St) : StartRace.Ev → Bool
  | .init _ => decide (s.init = .goes) && decide (s.rest.head? = some .logSend)
  | _ => false

/-- The init task gives a text up, because the lock was not free for 100 ms (logging.c 72-74). -/
def skipping (s : StartRace.St) (e : StartRace.Ev) : Bool :=
  decide (e = .expire) && decide (s.init = .wants) && decide (s.rest.head? = some .logTake)

/-- `Log_Print` with the string in memory, terminator included. logging.c 70-92. -/
def say (crc : List UInt8 → Option UInt32) (ok : Bool) (y : LogStream.Sys) (m : String) : C LogStream.Sys :=
  y.step crc (.print ok (chars m ++ [0]))

/-- What the log does in a step that leads from `s` to start-up state `r`. logging.c 42-53, 70-92, initialize.c 217-225. -/
def follow (crc : List UInt8 → Option UInt32) (s : St) (e : StartRace.Ev) (r : StartRace.St) : C St :=
  if saying s.race e then
    match s.left with
    | [] => .ok { s with race := r }
    | m :: l =>
      match say crc true s.sys m with
      | .error x => .error x
      | .ok y => .ok ⟨r, l, y⟩
  else if skipping s.race e then .ok ⟨r, s.left.tail, s.sys⟩
  else if s.race.init = .goes ∧ r.init = .stuck then
    match failure.foldlM (say crc (decide (r.holder .log = none))) s.sys with
    | .error x => .error x
    | .ok y => .ok ⟨r, s.left, y⟩
  else if r.serial then .ok ⟨r, s.left, { s.sys with log := { s.sys.log with enableSerial := true } }⟩
  else .ok { s with race := r }

open Classical in
/-- One event. The PC interface's task runs only as the kernel lets it. initialize.c 244-268, pcinterface.c 30-85. -/
noncomputable def step (crc : List UInt8 → Option UInt32) (s : St) : Ev → C St
  | .race e =>
    match StartRace.step s.race e with
    | .error x => .error x
    | .ok r => follow crc s e r
  | .round =>
    if MayRun s.race .pc then
      match s.sys.step crc .round with
      | .error x => .error x
      | .ok y => .ok { s with sys := y }
    else .ok s
  | .print ok mem =>
    if MayRun s.race .pc then
      match s.sys.step crc (.print ok mem) with
      | .error x => .error x
      | .ok y => .ok { s with sys := y }
    else .ok s

/-- Events one after the other. initialize.c 244-268, pcinterface.c 30-85. -/
noncomputable def run (crc : List UInt8 → Option UInt32) (s : St) (evs : List Ev) : C St := evs.foldlM (step crc) s

end Verif.BootLog
