import Verif.Basic
import Verif.Sched.Model
import Verif.Sched.Spec
import Verif.Sched.Lemmas
import Verif.Sched.Inv
import Verif.Sched.Boot
import Verif.Sched.Boot2
import Verif.Sched.Demo
import Verif.Sched.Props1
import Verif.Sched.Props2
import Verif.Sched.Props3
import Verif.Sched.Prio
import Verif.Sched.Props4
import Verif.Sched.AbsSpec
import Verif.Sched.Refine
import Verif.Misc.TaskInit
import Verif.Misc.Delay
import Verif.Lite.Model
import Verif.Lite.Lemmas
import Verif.Lite.Props
import Verif.Lite.Refine
import Verif.SMP.Model
import Verif.SMP.Spec
import Verif.SMP.Lemmas
import Verif.SMP.Step
import Verif.SMP.Step2
import Verif.SMP.Boot
import Verif.SMP.Boot2
import Verif.SMP.Demo
import Verif.SMP.Props1
import Verif.SMP.Props2
import Verif.Ipc.MutexModel
import Verif.Ipc.MutexSpec
import Verif.Ipc.MutexInv
import Verif.Ipc.MutexStep
import Verif.Ipc.MutexLocal
import Verif.Ipc.MutexProps
import Verif.Ipc.CondInv
import Verif.Ipc.CondProps
import Verif.Ipc.FutexModel
import Verif.Ipc.FutexProps
import Verif.Ipc.Ring
import Verif.Ipc.QueueModel
import Verif.Ipc.QueueProps
import Verif.Ipc.Count
import Verif.Ipc.QueueConc
import Verif.Ipc.QueueConcProps
import Verif.Ipc.QueueConcWitness
import Verif.Drivers.Fifo
import Verif.Drivers.FifoProps
import Verif.SMP.AbsSpec
import Verif.SMP.Refine
import Verif.SMP.Api
import Verif.SMP.Prio
import Verif.Arch.Cas
import Verif.Arch.CasLock
import Verif.Arch.Ctx
import Verif.Arch.RiscVBoot
import Verif.Arch.MipsBoot
import Verif.Arch.PpcBoot
import Verif.Arch.ArmBoot
import Verif.Arch.Intc
import Verif.Arch.IntcProps
import Verif.Arch.Cache
import Verif.Arch.MipsCache
import Verif.Arch.Counter
import Verif.Arch.Byte
import Verif.Arch.Avr
import Verif.Arch.AvrProps
import Verif.Arch.AvrBoot
import Verif.Arch.Stm8
import Verif.Arch.Stm8Props
import Verif.Arch.Hcs08
import Verif.Arch.Hcs08Props
import Verif.Arch.IsrTable
import Verif.Arch.Mask
import Verif.Arch.SpinLock
import Verif.Arch.TickPeriod
import Verif.Arch.Host
import Verif.Arch.Mcs51
import Verif.Arch.Mcs51Props
import Verif.Arch.Mcs51Port
import Verif.Arch.Mcs51Boot
import Verif.Arch.C28x
import Verif.Arch.C28xProps
import Verif.Arch.C28xPort
import Verif.Arch.C28xSound
import Verif.Arch.C28xBoot
import Verif.Drivers.UartTxProps
import Verif.Drivers.UartRxProps
import Verif.Drivers.SpiOverrun
import Verif.Drivers.FlashExtQuad
import Verif.Drivers.CanTimingProps
import Verif.Drivers.CanMcanProps
import Verif.Drivers.CanFlexcanProps
import Verif.Drivers.CanSam3xProps
import Verif.Drivers.CanDcanProps
import Verif.Drivers.FlashIntProps
import Verif.Drivers.RngProps
import Verif.Drivers.EepromAvrProps
import Verif.Drivers.GpioProps
import Verif.Drivers.TwiAvrProps
import Verif.Drivers.TwiDwProps
import Verif.Drivers.PwmProps
import Verif.Drivers.UartRateProps
import Verif.Drivers.UartFmtProps
import Verif.Drivers.UartPollProps
import Verif.Drivers.WdProps3
import Verif.Drivers.WdPic
import Verif.Drivers.UartTight
import Verif.Drivers.AdcProps
import Verif.Drivers.AdcScaleProps
import Verif.Drivers.AdcSetupProps
import Verif.Drivers.SpiSetupProps4
import Verif.Drivers.DmaMem
import Verif.Drivers.DmaProps
import Verif.Drivers.DmaProps2
import Verif.Drivers.DmaProps3
import Verif.Drivers.DmaProps4
import Verif.Drivers.DmaProps5
import Verif.Drivers.DmaProps6
import Verif.Drivers.MuxProps4
import Verif.Drivers.AdcTight
import Verif.Drivers.ClockProps5
import Verif.Drivers.ClockProps8
import Verif.Arch.SoftProps
import Verif.Arch.StartupProps4
import Verif.Arch.Startup8Props3
import Verif.Drivers.TwiRateProps2
import Verif.Drivers.FramProps4
import Verif.Drivers.ClockProps9
import Verif.Drivers.ClockProps15
import Verif.Drivers.Spi1Props
import Verif.Drivers.Spi1Usart
import Verif.Drivers.Spi1UsartProps
import Verif.Drivers.Spi1Irq
import Verif.Drivers.IpwmProps2
import Verif.Arch.Core1Props2
import Verif.Drivers.SpiDmaProps
import Verif.Sched.Clocked
import Verif.SMP.Stats
import Verif.SMP.Turns
import Verif.SMP.Noncoh
import Verif.SMP.NoncohProps
import Verif.SMP.NoncohProps2
import Verif.SMP.NoncohProps3
import Verif.Arch.TickSoft
import Verif.Drivers.PwmRun
import Verif.Drivers.PwmRunProps
import Verif.Drivers.PwmRunProps2
import Verif.Drivers.PwmRunProps3
import Verif.Sched.Period
import Verif.Lite.Period
import Verif.SMP.Period
import Verif.Ipc.MutexCache
import Verif.Ipc.MutexCacheProps
import Verif.Ipc.MutexCacheProps2
import Verif.Ipc.FutexCache
import Verif.Drivers.C55fmc
import Verif.Drivers.C55fmcProps
import Verif.Drivers.C55fmcProps2
import Verif.Drivers.W1
import Verif.Drivers.W1Props
import Verif.Drivers.Lin
import Verif.Drivers.LinProps
import Verif.Drivers.LinProps2
import Verif.Drivers.Dmasg
import Verif.Drivers.DmasgProps
import Verif.Drivers.DmasgProps2
import Verif.Drivers.DmasgProps3
import Verif.Drivers.TwiSam
import Verif.Drivers.TwiSamProps
import Verif.Drivers.TwiSamProps2
import Verif.Drivers.TwiSamProps3
import Verif.Drivers.TwiF28
import Verif.Drivers.TwiF28Props
import Verif.Drivers.TwiF28Props2
import Verif.Drivers.TwiSercom
import Verif.Drivers.TwiSercomProps
import Verif.Drivers.TwiSercomProps2
import Verif.Drivers.TwiPic
import Verif.Drivers.TwiPicProps
import Verif.Drivers.Trng
import Verif.Drivers.TrngProps
import Verif.Drivers.CanSame
import Verif.Drivers.CanSameProps
import Verif.Drivers.MiscCfg
import Verif.Drivers.MiscCfgProps
