import Verif.C.Basic
import Verif.C.Float32
import Verif.Props.Vsm
import Verif.Props.FaultManager
import Verif.Props.StateManager
import Verif.Props.TorqueMap
import Verif.Props.Throttle
import Verif.Props.InverterCmd
import Verif.Props.CanStatus
import Verif.Props.BmsLimits
import Verif.Props.Can
import Verif.Props.Uart
import Verif.Props.MsgFrame
import Verif.Props.PcRequests
import Verif.Props.Nmea
import Verif.Props.Term
import Verif.Props.Telemetry
import Verif.Props.LogStream
import Verif.Props.Adc
import Verif.Props.DiscreteSense
import Verif.Props.Wheelspeed
import Verif.Props.Periodic
import Verif.Props.Sdc
import Verif.Props.Depends
import Verif.Props.TaskTimer
import Verif.Props.Pdm
import Verif.Props.I2c
import Verif.Props.Spi
import Verif.Props.Startup
import Verif.Props.SharedOutputs
import Verif.Props.Drive
import Verif.Props.Gps
import Verif.Props.Crc
import Verif.Props.PcTool
import Verif.Props.CanHal
import Verif.Props.Locks
import Verif.Props.StreamBuffer
import Verif.Props.Queue
import Verif.Props.Ticks
import Verif.Props.Noninterf
import Verif.Props.CanFresh
import Verif.Props.Critical
import Verif.Props.Delay
import Verif.Props.PcIsolation
import Verif.Props.VehicleFault
import Verif.Props.KernelLists
import Verif.Props.Ready
import Verif.Props.SbWait
import Verif.Props.QueueWait
import Verif.Props.Wake
import Verif.Props.TimeOut
import Verif.Props.CanFilter
import Verif.Props.CanBus
import Verif.Props.CanRx
import Verif.Props.Clock
import Verif.Props.Inherit
import Verif.Props.Context
import Verif.Props.Sbrk
import Verif.Props.Notify
import Verif.Props.Response
import Verif.Props.Board
import Verif.Props.AdcRegs
import Verif.Props.Reset
import Verif.Props.Vectors
import Verif.Props.Exti
import Verif.Props.UartRx
import Verif.Props.SimServer
import Verif.Props.VehicleSafe
import Verif.Props.Rtc
import Verif.Props.Car
import Verif.Props.UartTx
import Verif.Props.Pedal
import Verif.Props.Healthy
import Verif.Props.Screen
import Verif.Props.Fresh
import Verif.Props.Heartbeat
import Verif.Props.Operator
import Verif.Props.Session
import Verif.Props.InvCar
import Verif.Props.Loop
import Verif.Props.SenseCar
import Verif.Props.PedalCar
import Verif.Props.TimIrq
import Verif.Props.SdcScreen
import Verif.Props.Stuck
import Verif.Props.UartLine
import Verif.Props.Halt
import Verif.Props.CanLine
import Verif.Props.Deadline
import Verif.Props.SensorFault
import Verif.Props.ClockStart
import Verif.Props.Whole
import Verif.Props.TorqueFused
import Verif.Props.StartRace
import Verif.Props.RtcRate
import Verif.Props.Ending
import Verif.Props.Answers
import Verif.Props.Memory
import Verif.Props.BootLog
import Verif.Props.NmeaFields
import Verif.Props.QueueResults
import Verif.Props.I2cBuses
import Verif.Props.ErrorLine
import Verif.Props.Burst
