set_option autoImplicit false

/-!
# What the PC should read of a start-up

Independent of the model: the lines as they appear in the log viewer.
-/

namespace Verif.BootLogSpec

/-- Characters of a text. -/
def ascii (s : String) : List UInt8 := s.toList.map fun c => UInt8.ofNat c.toNat

/-- The lines of a complete start-up, from the moment serial logging is on. -/
def lines : List String :=
  ["PCInterface_Init complete",
   "",
   "",
   "",
   "####################################",
   "#     ___                          #",
   "#    /   \\                         #",
   "#   |] _ [|           DFEA         #",
   "#   |_/ \\_|          RACING        #",
   "#   / \\_/ \\                        #",
   "#  ||     ||                       #",
   "#  ||     ||      QUACKIN QUICK    #",
   "#   \\_____/                        #",
   "#   __   __                        #",
   "#                                  #",
   "####################################",
   "###### ECU_Init_BoardPeriph ######",
   "CAN_Init begin",
   "CAN_Init complete",
   "CAN_Config begin CAN1",
   "CAN_Config complete",
   "CAN_Config begin CAN2",
   "CAN_Config complete",
   "CAN_Config begin CAN3",
   "CAN_Config complete",
   "ADC_Init begin",
   "ADC_Init complete",
   "###### ECU_Init_BoardDevs ######",
   "###### ECU_Init_VehicleInterface1 ######",
   "VehicleState_Init begin",
   "VehicleState_Init complete",
   "###### ECU_Init_VehicleDevices ######",
   "UART_Config begin",
   "UART_Config complete",
   "GPS_Init begin",
   "GPS_Init complete",
   "Wheelspeed_Init begin",
   "Wheelspeed_Init complete",
   "SDC_Init begin",
   "SDC_Init complete",
   "PDM_Init begin",
   "PDM_Init complete",
   "CInverter_Init begin",
   "CInverter_Init complete",
   "BMS_Init begin",
   "BMS_Init complete",
   "DiscreteSense_Init begin",
   "DiscreteSense_Init complete",
   "DashboardOut_Init begin",
   "DashboardOut_Init complete",
   "###### ECU_Init_VehicleInterface2 ######",
   "VehicleControl_Init begin",
   "VehicleControl_Init complete",
   "###### ECU_Init_VehicleProccesses ######",
   "WatchdogTrigger_Init begin",
   "WatchdogTrigger_Init complete",
   "ThrottleController_Init begin",
   "ThrottleController_Init complete",
   "VehicleStateManager_Init begin",
   "VSM_Init begin",
   "FaultManager_Init begin",
   "FaultManager_Init complete",
   "VSM_Init complete",
   "VehicleStateManager_Init complete",
   "ECU_Init complete",
   "ECU_Init deleting init task"]

/-- Each line ends with a line feed. -/
def written (l : List String) : List UInt8 := l.flatMap fun x => ascii x ++ [0x0A]

/-- The whole report. -/
def report : List UInt8 := written lines

/-- What a failed start-up says last. -/
def complaint : List UInt8 := written ["Watchdog Trigger initialization error", "ECU Failed to initialize"]

end Verif.BootLogSpec
