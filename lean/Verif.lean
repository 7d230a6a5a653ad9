import Verif.Lemmas.Address
import Verif.Lemmas.Bits
import Verif.Lemmas.Checksum
import Verif.Lemmas.Datagram
import Verif.Lemmas.Independence
import Verif.Lemmas.Post
import Verif.Lemmas.Repl
import Verif.Lemmas.Rmt
import Verif.Lemmas.RmtSend
import Verif.Lemmas.RxAddr
import Verif.Lemmas.RxAddrRange
import Verif.Lemmas.RxAttend
import Verif.Lemmas.RxChan2
import Verif.Lemmas.RxConfig
import Verif.Lemmas.RxCv
import Verif.Lemmas.RxCvCalls
import Verif.Lemmas.RxCvCount
import Verif.Lemmas.RxCvExec
import Verif.Lemmas.RxCvShort
import Verif.Lemmas.RxCvWrites
import Verif.Lemmas.RxDecoder
import Verif.Lemmas.RxDecoderRun
import Verif.Lemmas.RxDecoderTotal
import Verif.Lemmas.RxDeframe
import Verif.Lemmas.RxDisturb
import Verif.Lemmas.RxDrive
import Verif.Lemmas.RxEffect
import Verif.Lemmas.RxEngine
import Verif.Lemmas.RxEngineTotal
import Verif.Lemmas.RxFault
import Verif.Lemmas.RxFaultExec
import Verif.Lemmas.RxFrame
import Verif.Lemmas.RxGap
import Verif.Lemmas.RxGuest
import Verif.Lemmas.RxHeard
import Verif.Lemmas.RxHeardTime
import Verif.Lemmas.RxInstr
import Verif.Lemmas.RxInv
import Verif.Lemmas.RxLate
import Verif.Lemmas.RxLife
import Verif.Lemmas.RxLink
import Verif.Lemmas.RxLinkRun
import Verif.Lemmas.RxLogonCase
import Verif.Lemmas.RxLogonFrame
import Verif.Lemmas.RxMain
import Verif.Lemmas.RxMainTalk
import Verif.Lemmas.RxMode
import Verif.Lemmas.RxOrderly
import Verif.Lemmas.RxOverlong
import Verif.Lemmas.RxPaged
import Verif.Lemmas.RxPolling
import Verif.Lemmas.RxPom
import Verif.Lemmas.RxPomExact
import Verif.Lemmas.RxProgramming
import Verif.Lemmas.RxQueue
import Verif.Lemmas.RxRecover
import Verif.Lemmas.RxRecv
import Verif.Lemmas.RxRecvCase
import Verif.Lemmas.RxRegister
import Verif.Lemmas.RxSafe
import Verif.Lemmas.RxSeveral
import Verif.Lemmas.RxStep
import Verif.Lemmas.RxStop
import Verif.Lemmas.RxSync
import Verif.Lemmas.RxTalk
import Verif.Lemmas.RxThread
import Verif.Lemmas.RxThrottle
import Verif.Lemmas.RxTos
import Verif.Lemmas.RxTosExact
import Verif.Lemmas.RxTotal
import Verif.Lemmas.RxTrack
import Verif.Lemmas.RxTruth
import Verif.Lemmas.RxVisit
import Verif.Lemmas.Serial
import Verif.Lemmas.SerialExec
import Verif.Lemmas.Stm32
import Verif.Lemmas.Tx
import Verif.Lemmas.TxDelay
import Verif.Lemmas.TxIdle
import Verif.Lemmas.TxPreempt
import Verif.Lemmas.TxSame
import Verif.Lemmas.Utility
import Verif.Model.Address
import Verif.Model.Backoff
import Verif.Model.Basic
import Verif.Model.BidiTiming
import Verif.Model.Checksum
import Verif.Model.Datagram
import Verif.Model.Esp32
import Verif.Model.Instruction
import Verif.Model.Repl
import Verif.Model.Rmt
import Verif.Model.RxBidi
import Verif.Model.RxCv
import Verif.Model.RxExec
import Verif.Model.RxLink
import Verif.Model.RxLogon
import Verif.Model.RxMachine
import Verif.Model.RxPreempt
import Verif.Model.RxThread
import Verif.Model.RxTiming
import Verif.Model.RxTypes
import Verif.Model.Stm32
import Verif.Model.Tx
import Verif.Model.TxPreempt
import Verif.Model.Utility
import Verif.Props.Address
import Verif.Props.Announce
import Verif.Props.Assign
import Verif.Props.Async
import Verif.Props.Backoff
import Verif.Props.Batch
import Verif.Props.Checksum
import Verif.Props.Clean
import Verif.Props.Collide
import Verif.Props.Datagram
import Verif.Props.Decoder
import Verif.Props.DecoderTrack
import Verif.Props.Deframe
import Verif.Props.Delay
import Verif.Props.Detector
import Verif.Props.Disturb
import Verif.Props.Engine
import Verif.Props.Esp32
import Verif.Props.EveryConsist
import Verif.Props.Final
import Verif.Props.Gap
import Verif.Props.Guest
import Verif.Props.GuestStays
import Verif.Props.Independence
import Verif.Props.Late
import Verif.Props.Layout
import Verif.Props.LeadLoco
import Verif.Props.LogonAgain
import Verif.Props.Main
import Verif.Props.Overlong
import Verif.Props.Paged
import Verif.Props.Polling
import Verif.Props.Programming
import Verif.Props.Readdress
import Verif.Props.Recover
import Verif.Props.Refresh
import Verif.Props.Reinit
import Verif.Props.Release
import Verif.Props.Remember
import Verif.Props.Repl
import Verif.Props.RepoTests
import Verif.Props.Report
import Verif.Props.Restart
import Verif.Props.RestartAgain
import Verif.Props.Rmt
import Verif.Props.RmtLink
import Verif.Props.RxBidi
import Verif.Props.RxConfig
import Verif.Props.RxCv
import Verif.Props.RxDrive
import Verif.Props.RxDyn
import Verif.Props.RxDynQueue
import Verif.Props.RxExec
import Verif.Props.RxFaults
import Verif.Props.RxInvalid
import Verif.Props.RxLink
import Verif.Props.RxLock
import Verif.Props.RxLogon
import Verif.Props.RxLogonExact
import Verif.Props.RxLogonQueue
import Verif.Props.RxLogonStore
import Verif.Props.RxPom
import Verif.Props.RxPreempt
import Verif.Props.RxQuality
import Verif.Props.RxRace
import Verif.Props.RxRegister
import Verif.Props.RxShort
import Verif.Props.RxThread
import Verif.Props.RxTos
import Verif.Props.RxWire
import Verif.Props.Serial
import Verif.Props.SerialEngine
import Verif.Props.Settle
import Verif.Props.Several
import Verif.Props.ShortCv
import Verif.Props.ShortPacket
import Verif.Props.Stm32
import Verif.Props.Stop
import Verif.Props.Switches
import Verif.Props.TakeBack
import Verif.Props.Talk
import Verif.Props.Throttle
import Verif.Props.TipOff
import Verif.Props.Track
import Verif.Props.Truth
import Verif.Props.Tx
import Verif.Props.TxPreempt
import Verif.Props.Utility
import Verif.Props.Visit
import Verif.Props.Whole
import Verif.Props.Window
import Verif.Props.WrongWay
import Verif.Spec.Async
import Verif.Spec.Backoff
import Verif.Spec.Batch
import Verif.Spec.Bidi
import Verif.Spec.Builders
import Verif.Spec.Codec
import Verif.Spec.Collide
import Verif.Spec.Config
import Verif.Spec.Cv
import Verif.Spec.CvShort
import Verif.Spec.Decoder
import Verif.Spec.Deframe
import Verif.Spec.Detector
import Verif.Spec.Disturb
import Verif.Spec.Engine
import Verif.Spec.Esp32
import Verif.Spec.Exec
import Verif.Spec.Fault
import Verif.Spec.Final
import Verif.Spec.Guest
import Verif.Spec.Independence
import Verif.Spec.Layout
import Verif.Spec.Logon
import Verif.Spec.Main
import Verif.Spec.Memory
import Verif.Spec.Overlong
import Verif.Spec.Paged
import Verif.Spec.Polling
import Verif.Spec.Preempt
import Verif.Spec.Programming
import Verif.Spec.Quality
import Verif.Spec.Readdress
import Verif.Spec.Reinit
import Verif.Spec.Repl
import Verif.Spec.Report
import Verif.Spec.Rmt
import Verif.Spec.Rx
import Verif.Spec.Serial
import Verif.Spec.Several
import Verif.Spec.Stm32
import Verif.Spec.Stop
import Verif.Spec.Thread
import Verif.Spec.Throttle
import Verif.Spec.TipOff
import Verif.Spec.Track
import Verif.Spec.Tx
import Verif.Spec.TxPreempt
import Verif.Spec.Visit
import Verif.Spec.Whole
import Verif.Spec.Window
