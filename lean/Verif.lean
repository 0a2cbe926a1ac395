import Verif.Props.AtomicQueue
import Verif.Props.AtomicQueueConc
import Verif.Props.Deque
import Verif.Props.Timer
import Verif.Props.BitOps
import Verif.Props.Crc
import Verif.Props.Saturated
import Verif.Props.Median
import Verif.Props.Filter
import Verif.Props.Fir
import Verif.Props.Pid
import Verif.Props.Range
import Verif.Props.Prescaler
import Verif.Props.Interp
import Verif.Props.Lagrange
import Verif.Props.Sab
import Verif.Props.Sab2
import Verif.Props.Rpr
import Verif.Props.Lawicel
import Verif.Props.Can
import Verif.Props.LinkedList
import Verif.Props.DoublyLinkedList
import Verif.Props.DynamicArray
import Verif.Props.SmartPointer
import Verif.Props.Scheduler
import Verif.Props.PtSemaphore
import Verif.Props.Fiber
import Verif.Props.BlockAllocator
import Verif.Props.XpccCan
import Verif.Props.Amnb
import Verif.Props.Encoder
import Verif.Props.Date
import Verif.Props.Register
import Verif.Props.Color
import Verif.Props.Button
import Verif.Props.OneWire
import Verif.Props.Display
import Verif.Props.Mono
import Verif.Props.Resumable
import Verif.Props.Storage
import Verif.Props.Spi
import Verif.Props.I2c
import Verif.Props.Geometry
import Verif.Props.Dispatcher
import Verif.Props.DispatcherTime
import Verif.Props.DispatcherEnd
import Verif.Props.DispatcherCases
import Verif.Model.Matrix
import Verif.Model.Lu
import Verif.Model.Quaternion
import Verif.Spec.Matrix
import Verif.Spec.Quaternion
import Verif.Lemmas.Matrix
import Verif.Lemmas.Lu
import Verif.Props.Matrix
import Verif.Props.Lu
import Verif.Props.Quaternion
import Verif.Props.Vector
import Verif.Model.Uart
import Verif.Spec.Uart
import Verif.Lemmas.Uart
import Verif.Lemmas.UartRx
import Verif.Lemmas.UartRun
import Verif.Props.Uart
import Verif.Model.CanFilter
import Verif.Spec.CanFilter
import Verif.Lemmas.CanFilter
import Verif.Props.CanFilter
import Verif.Model.BxcanTx
import Verif.Spec.BxcanTx
import Verif.Lemmas.BxcanTx
import Verif.Lemmas.BxcanTxRun
import Verif.Props.BxcanTx
import Verif.Model.BxcanRx
import Verif.Spec.BxcanRx
import Verif.Lemmas.BxcanRx
import Verif.Lemmas.BxcanRxRun
import Verif.Props.BxcanRx
import Verif.Model.CanFrame
import Verif.Spec.CanFrame
import Verif.Lemmas.CanFrame
import Verif.Props.CanFrame
import Verif.Model.Mcp2515
import Verif.Spec.Mcp2515
import Verif.Props.Mcp2515
import Verif.Model.FdcanTx
import Verif.Spec.FdcanTx
import Verif.Lemmas.FdcanTx
import Verif.Props.FdcanTx
import Verif.Model.FdcanRx
import Verif.Spec.FdcanRx
import Verif.Lemmas.FdcanRx
import Verif.Props.FdcanRx
import Verif.Model.SystemClock
import Verif.Spec.SystemClock
import Verif.Lemmas.SystemClock
import Verif.Props.SystemClock
import Verif.Model.CanTiming
import Verif.Spec.CanTiming
import Verif.Lemmas.CanTiming
import Verif.Props.CanTiming
import Verif.Model.Delay
import Verif.Spec.Delay
import Verif.Props.Delay
import Verif.Model.IoStream
import Verif.Spec.IoStream
import Verif.Props.IoStream
import Verif.Model.FdcanFilter
import Verif.Spec.FdcanFilter
import Verif.Props.FdcanFilter
import Verif.Model.Mcp2515Filter
import Verif.Spec.Mcp2515Filter
import Verif.Props.Mcp2515Filter
import Verif.Model.Eeprom
import Verif.Spec.Eeprom
import Verif.Props.Eeprom
import Verif.Model.Animation
import Verif.Spec.Animation
import Verif.Props.Animation
import Verif.Model.InplaceAny
import Verif.Spec.InplaceAny
import Verif.Lemmas.InplaceAny
import Verif.Props.InplaceAny
import Verif.Model.InplaceFunction
import Verif.Spec.InplaceFunction
import Verif.Lemmas.InplaceFunction
import Verif.Props.InplaceFunction
import Verif.Model.AdcSampler
import Verif.Spec.AdcSampler
import Verif.Props.AdcSampler
import Verif.Model.ViewStack
import Verif.Spec.ViewStack
import Verif.Props.ViewStack
import Verif.Model.Menu
import Verif.Spec.Menu
import Verif.Props.Menu
import Verif.Model.GpioExpander
import Verif.Spec.GpioExpander
import Verif.Lemmas.GpioExpander
import Verif.Props.GpioExpander
import Verif.Model.GpioPins
import Verif.Spec.GpioPins
import Verif.Lemmas.GpioPins
import Verif.Props.GpioPins
import Verif.Model.Stm32Timer
import Verif.Spec.Stm32Timer
import Verif.Lemmas.Stm32Timer
import Verif.Props.Stm32Timer
import Verif.Model.Rtc
import Verif.Spec.Rtc
import Verif.Props.Rtc
import Verif.Spec.I2cMaster
import Verif.Lemmas.I2cMaster
import Verif.Model.I2cAvr
import Verif.Props.I2cAvr
import Verif.Model.I2cStm32
import Verif.Props.I2cStm32
import Verif.Model.I2cStm32Ext
import Verif.Props.I2cStm32Ext
import Verif.Spec.Flash
import Verif.Model.Flash
import Verif.Props.Flash
import Verif.Model.HeapTable
import Verif.Props.HeapTable
import Verif.Model.HeapTlsf
import Verif.Props.HeapTlsf
import Verif.Model.AtomicLock
import Verif.Model.StaticGuard
import Verif.Model.Multicore
import Verif.Props.AtomicLock
import Verif.Props.StaticGuard
import Verif.Props.Multicore
import Verif.Model.LedDrivers
import Verif.Props.LedDrivers
import Verif.Model.TempSensors
import Verif.Props.TempSensors
import Verif.Model.Barometer
import Verif.Props.Barometer
import Verif.Model.AdcDrivers
import Verif.Props.AdcDrivers
import Verif.Model.AvrHeap
import Verif.Spec.AvrHeap
import Verif.Props.AvrHeap
import Verif.Model.Startup
import Verif.Props.Startup
import Verif.Model.Tlsf
import Verif.Spec.Tlsf
import Verif.Lemmas.Tlsf
import Verif.Lemmas.TlsfInv
import Verif.Props.Tlsf
import Verif.Model.CharDisplay
import Verif.Spec.CharDisplay
import Verif.Props.CharDisplay
import Verif.Model.SpiStm32
import Verif.Spec.SpiStm32
import Verif.Lemmas.SpiStm32
import Verif.Props.SpiStm32
import Verif.Model.Dataflash
import Verif.Spec.Dataflash
import Verif.Props.Dataflash
import Verif.Model.AvrUart
import Verif.Spec.AvrUart
import Verif.Props.AvrUart
import Verif.Model.Nrf24
import Verif.Lemmas.Nrf24
import Verif.Spec.Nrf24
import Verif.Props.Nrf24
import Verif.Model.Panel
import Verif.Lemmas.Panel
import Verif.Props.Panel
import Verif.Model.Rtt
import Verif.Lemmas.Rtt
import Verif.Props.Rtt
import Verif.Model.Touch
import Verif.Props.Touch
import Verif.Model.BusDevices
import Verif.Props.BusDevices
import Verif.Model.Gui
import Verif.Props.Gui
import Verif.Model.I2cTiming
import Verif.Props.I2cTiming
import Verif.Model.Location
import Verif.Props.Location
import Verif.Model.CycleCounter
import Verif.Props.CycleCounter
import Verif.Model.ThreadSemaphore
import Verif.Props.ThreadSemaphore
import Verif.Model.Exti
import Verif.Props.Exti
import Verif.Model.Dma
import Verif.Props.Dma
import Verif.Model.RpInt
import Verif.Props.RpInt
import Verif.Model.SCurve
import Verif.Props.SCurve
import Verif.Model.Ixm42
import Verif.Props.Ixm42
import Verif.Model.Drv832x
import Verif.Props.Drv832x
import Verif.Model.Ft245
import Verif.Props.Ft245
import Verif.Model.Spartan3
import Verif.Props.Spartan3
import Verif.Model.DynamicPostman
import Verif.Props.DynamicPostman
import Verif.Model.GpioSampler
import Verif.Props.GpioSampler
import Verif.Model.SpiRam
import Verif.Props.SpiRam
import Verif.Model.Itm
import Verif.Props.Itm
import Verif.Model.Is31fl3733
import Verif.Props.Is31fl3733
import Verif.Model.Lp503x
import Verif.Props.Lp503x
import Verif.Model.Lis3dsh
import Verif.Props.Lis3dsh
import Verif.Model.Ltc2984
import Verif.Props.Ltc2984
import Verif.Model.Spartan6
import Verif.Props.Spartan6
import Verif.Model.Cat24aa
import Verif.Props.Cat24aa
import Verif.Model.Mcp23s08
import Verif.Props.Mcp23s08
import Verif.Model.Tcs3414
import Verif.Props.Tcs3414
import Verif.Model.Tcs3472
import Verif.Props.Tcs3472
import Verif.Model.Hmc6343
import Verif.Props.Hmc6343
