import Verif.Props.HandleMgr
import Verif.Props.LpmTrie
import Verif.Props.Lookup
import Verif.Props.MatchUnit
import Verif.Props.KeyBuilder
import Verif.Props.ActionProfile
import Verif.Props.Pre
import Verif.Props.Meter
import Verif.Props.Queueing
import Verif.Props.Learning
import Verif.Props.Ageing
import Verif.Props.Extract
import Verif.Props.Field
import Verif.Props.Header
import Verif.Props.Data
import Verif.Props.Union
import Verif.Props.Stack
import Verif.Props.Expr
import Verif.Props.Cksum
import Verif.Props.Crc
import Verif.Props.Hash
import Verif.Props.Calc
import Verif.Props.ParseVSet
import Verif.Props.Parser
import Verif.Props.Deparser
import Verif.Props.PacketId
import Verif.Props.ParserStep
import Verif.Props.Register
import Verif.Props.Flags
import Verif.Props.SimpleSwitch
import Verif.Props.SSEgress
import Verif.Props.SSClone
import Verif.Props.InBuf
import Verif.Props.Sessions
import Verif.Props.SSPrims
import Verif.Spec.MatchTable
import Verif.Model.MatchTable
import Verif.Lemmas.MatchTable
import Verif.Props.MatchTable
import Verif.Model.Save
import Verif.Lemmas.Save
import Verif.Lemmas.SaveUnit
import Verif.Lemmas.SaveTab
import Verif.Props.Save
import Verif.Model.IndirectApply
import Verif.Props.IndirectApply
import Verif.Props.SSQueue
import Verif.Spec.Action
import Verif.Model.Action
import Verif.Lemmas.Action
import Verif.Lemmas.ActionRun
import Verif.Lemmas.ActionLoad
import Verif.Props.Action
import Verif.Spec.Pipeline
import Verif.Model.Pipeline
import Verif.Lemmas.Pipeline
import Verif.Lemmas.PipelineLoad
import Verif.Props.Pipeline
import Verif.Props.Psa
import Verif.Model.PsaCksum
import Verif.Spec.PsaCksum
import Verif.Lemmas.PsaCksum
import Verif.Props.PsaCksum
import Verif.Model.PsaHash
import Verif.Props.PsaHash
import Verif.Model.Monitor
import Verif.Spec.Monitor
import Verif.Lemmas.Monitor
import Verif.Props.Monitor
import Verif.Model.Swap
import Verif.Spec.Swap
import Verif.Lemmas.Swap
import Verif.Props.Swap
import Verif.Model.Ports
import Verif.Spec.Ports
import Verif.Lemmas.Ports
import Verif.Props.Ports
import Verif.Model.Md5
import Verif.Spec.Md5
import Verif.Lemmas.Md5
import Verif.Model.StateFile
import Verif.Lemmas.StateFile
import Verif.Props.StateFile
import Verif.Model.SaveProfile
import Verif.Lemmas.SaveCursor
import Verif.Lemmas.SaveProfile
import Verif.Lemmas.SaveSys
import Verif.Props.SaveProfile
import Verif.Model.PacketBuffer
import Verif.Spec.PacketBuffer
import Verif.Lemmas.PacketBuffer
import Verif.Props.PacketBuffer
import Verif.Props.DeparserCalls
import Verif.Model.Pcap
import Verif.Spec.Pcap
import Verif.Lemmas.Pcap
import Verif.Props.Pcap
import Verif.Model.Periodic
import Verif.Spec.Periodic
import Verif.Lemmas.Periodic
import Verif.Props.Periodic
import Verif.Model.Counters
import Verif.Spec.Counters
import Verif.Lemmas.Counters
import Verif.Props.Counters
import Verif.Model.Targets
import Verif.Spec.Targets
import Verif.Lemmas.Targets
import Verif.Props.Targets
import Verif.Model.PiMc
import Verif.Spec.PiMc
import Verif.Lemmas.PiMc
import Verif.Props.PiMc
import Verif.Model.PiSel
import Verif.Spec.PiSel
import Verif.Lemmas.PiSel
import Verif.Props.PiSel
import Verif.Model.PiEntry
import Verif.Spec.PiEntry
import Verif.Lemmas.PiEntry
import Verif.Props.PiEntry
import Verif.Model.Dbl
import Verif.Lemmas.Dbl
import Verif.Props.MeterDouble
import Verif.Model.PiRes
import Verif.Spec.PiRes
import Verif.Lemmas.PiRes
import Verif.Props.PiRes
import Verif.Model.ArithCfg
import Verif.Spec.Assign
import Verif.Lemmas.Assign
import Verif.Props.Assign
import Verif.Model.LogMsg
import Verif.Spec.LogMsg
import Verif.Lemmas.LogMsg
import Verif.Props.LogMsg
import Verif.Model.PiAct
import Verif.Spec.PiAct
import Verif.Lemmas.PiAct
import Verif.Props.PiAct
import Verif.Model.Debugger
import Verif.Spec.Debugger
import Verif.Lemmas.Debugger
import Verif.Props.Debugger
import Verif.Model.Thrift
import Verif.Spec.Thrift
import Verif.Lemmas.ThriftKeys
import Verif.Lemmas.Thrift
import Verif.Props.Thrift
import Verif.Model.ThriftExt
import Verif.Spec.ThriftExt
import Verif.Lemmas.ThriftExt
import Verif.Props.ThriftExt
import Verif.Model.Bmi
import Verif.Spec.Bmi
import Verif.Lemmas.Bmi
import Verif.Lemmas.BmiThread
import Verif.Lemmas.BmiRecv
import Verif.Props.Bmi
import Verif.Model.McRt
import Verif.Spec.McRt
import Verif.Lemmas.McRt
import Verif.Lemmas.McRtStep
import Verif.Lemmas.McRtClient
import Verif.Props.McRt
import Verif.Model.Cli
import Verif.Spec.Cli
import Verif.Lemmas.Cli
import Verif.Lemmas.CliValue
import Verif.Lemmas.CliCmd
import Verif.Lemmas.CliMeaning
import Verif.Props.Cli
import Verif.Model.Elog
import Verif.Spec.Elog
import Verif.Lemmas.Elog
import Verif.Lemmas.ElogPipe
import Verif.Lemmas.ElogRun
import Verif.Props.Elog
import Verif.Model.ThriftProf
import Verif.Spec.ThriftProf
import Verif.Lemmas.ThriftProfSim
import Verif.Lemmas.ThriftProf
import Verif.Lemmas.ThriftProfReq
import Verif.Lemmas.ThriftProfTab
import Verif.Lemmas.ThriftProfRun
import Verif.Props.ThriftProf
import Verif.Model.QueueingRL
import Verif.Lemmas.QueueingRL
import Verif.Props.QueueingRL
import Verif.Model.EgressThreads
import Verif.Spec.EgressThreads
import Verif.Lemmas.EgressThreads
import Verif.Props.EgressThreads
import Verif.Model.Notify
import Verif.Spec.Notify
import Verif.Lemmas.Notify
import Verif.Lemmas.NotifyRun
import Verif.Props.Notify
import Verif.Model.DpGrpc
import Verif.Spec.DpGrpc
import Verif.Lemmas.DpGrpc
import Verif.Lemmas.DpGrpcTables
import Verif.Lemmas.DpGrpcRun
import Verif.Props.DpGrpc
import Verif.Model.Shutdown
import Verif.Spec.Shutdown
import Verif.Lemmas.Shutdown
import Verif.Lemmas.ShutdownRun
import Verif.Lemmas.ShutdownStuck
import Verif.Props.Shutdown
import Verif.Model.RegLocks
import Verif.Spec.RegLocks
import Verif.Lemmas.RegLocks
import Verif.Props.RegLocks
import Verif.Model.P4dbg
import Verif.Spec.P4dbg
import Verif.Lemmas.P4dbgWire
import Verif.Lemmas.P4dbgNames
import Verif.Lemmas.P4dbgStep
import Verif.Lemmas.P4dbgCmd
import Verif.Lemmas.P4dbgRx
import Verif.Lemmas.P4dbg
import Verif.Props.P4dbg
import Verif.Model.ByteCont
import Verif.Spec.ByteCont
import Verif.Lemmas.ByteCont
import Verif.Lemmas.ByteContOps
import Verif.Lemmas.ByteContStep
import Verif.Lemmas.ByteContMore
import Verif.Lemmas.ByteContStable
import Verif.Props.ByteCont
import Verif.Model.Algo
import Verif.Spec.Algo
import Verif.Lemmas.Algo
import Verif.Props.Algo
import Verif.Model.SsMgmt
import Verif.Spec.SsMgmt
import Verif.Lemmas.SsMgmt
import Verif.Props.SsMgmt
import Verif.Model.PsaExt
import Verif.Spec.PsaExt
import Verif.Lemmas.PsaExt
import Verif.Props.PsaExt
import Verif.Model.Const
import Verif.Spec.Const
import Verif.Lemmas.Const
import Verif.Props.Const
import Verif.Model.QueueLogic
import Verif.Spec.QueueLogic
import Verif.Lemmas.QueueLogic
import Verif.Props.QueueLogic
import Verif.Model.Options
import Verif.Spec.Options
import Verif.Lemmas.Options
import Verif.Props.Options
import Verif.Model.TargetOpts
import Verif.Spec.TargetOpts
import Verif.Lemmas.TargetOpts
import Verif.Props.TargetOpts
import Verif.Model.PktMove
import Verif.Spec.PktMove
import Verif.Props.PktMove
