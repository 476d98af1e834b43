import Verif.Base
import Verif.Props.Frame
import Verif.Props.Nonsecure
import Verif.Props.Counter
import Verif.Props.SecureFrame
import Verif.Props.SecureTx
import Verif.Props.Security
import Verif.Props.TxCounter
import Verif.Props.RxCounter
import Verif.Props.SecureRx
import Verif.Props.CRC
import Verif.Props.Stats
import Verif.Props.RXQueue
import Verif.Props.Boiler
import Verif.Props.Schedule
import Verif.Props.Occupancy
import Verif.Props.Valve
import Verif.Props.ValveLive
import Verif.Props.TempControl
import Verif.Props.Target
import Verif.Props.FHT8V
import Verif.Props.FHT8VDriver
import Verif.Props.RTC
import Verif.Props.ErrorReport
import Verif.Props.Util
import Verif.Props.BinaryStats
import Verif.Props.Jeelabs
import Verif.Props.Messaging
import Verif.Props.Motor
import Verif.Props.JSON
import Verif.Props.JSONTable
import Verif.Props.JSONStats
import Verif.Props.JSONFair
import Verif.Props.SecureLive
import Verif.Props.UI
import Verif.Props.UISettle
import Verif.Props.ValveHot
import Verif.Props.Tight
import Verif.Props.AmbientLight
import Verif.Props.CLI
import Verif.Props.CLISet
import Verif.Props.Sim900
import Verif.Props.Sim900Power
import Verif.Props.Sim900Live
import Verif.Props.Sim900Parse
import Verif.Props.Tight2
import Verif.Props.RFM23
import Verif.Props.RFM23RX
import Verif.Props.RadioUtil
import Verif.Props.OneWire
import Verif.Props.Entropy
import Verif.Props.Concurrency
import Verif.Props.Sensors
import Verif.Props.MotorHW
import Verif.Props.SoftSerial
import Verif.Props.Sleep
import Verif.Props.HWTest
import Verif.Props.QueueHandler
import Verif.Props.TextOut
import Verif.Props.TextDump
import Verif.Props.HouseCode
import Verif.Props.SecureChannel
import Verif.Props.SecureChannelLive
import Verif.Props.MemCheck
import Verif.Props.Tight3
import Verif.Props.HeatSystem
import Verif.Props.Wear
import Verif.Props.NodeID
import Verif.Props.EndToEnd
import Verif.Props.Tight4
import Verif.Props.StatsLog
import Verif.Props.HeatStops
import Verif.Props.Analog
import Verif.Props.ClosedLoop
import Verif.Props.Relay
import Verif.Props.SerialPort
import Verif.Props.StatsHolder
import Verif.Props.QueuedHouse
import Verif.Props.SensorLog
import Verif.Props.AdcRun
import Verif.Props.QueuedHeat
import Verif.Props.Seed
import Verif.Props.Watchdog
import Verif.Props.HouseWarm
import Verif.Props.Tight5
import Verif.Props.SPIBus
import Verif.Props.SPIBus2
import Verif.Props.Tight6
import Verif.Props.RFM23Frames
import Verif.Props.Sim900Count
import Verif.Props.Tight7
import Verif.Props.AssocTable
import Verif.Props.ClockBytes
import Verif.Props.SerialText
import Verif.Props.EEMap
import Verif.Props.QueuedWarm
import Verif.Props.FixedRx
import Verif.Props.Tight8
import Verif.Props.OneWireLine
import Verif.Props.StatsText
import Verif.Props.Tight9
import Verif.Props.SimText
import Verif.Props.ZapCLI
import Verif.Props.KeyReset
import Verif.Props.SoftSerial1
import Verif.Props.Tight10
import Verif.Props.AtomicWord
import Verif.Props.I2C
import Verif.Props.ShtI2C
import Verif.Props.RN2483
import Verif.Props.Target2016
import Verif.Props.Trv
import Verif.Props.MotorStart
import Verif.Props.TrvHome
import Verif.Props.TrvLoop
import Verif.Props.RamSchedule
import Verif.Props.Mean
import Verif.Props.UIDial
import Verif.Props.HandOn
import Verif.Props.HandOpen
import Verif.Props.HandDown
import Verif.Props.HandBake
