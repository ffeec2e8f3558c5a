import Verif.Basic.Bytes
import Verif.Basic.Lts
import Verif.Conformance.Async
import Verif.Conformance.Bridge
import Verif.Conformance.Client
import Verif.Conformance.Fmq
import Verif.Conformance.Ipc
import Verif.Conformance.Life
import Verif.Conformance.Manager
import Verif.Conformance.Messages
import Verif.Conformance.Object
import Verif.Conformance.Protocol
import Verif.Conformance.Reader
import Verif.Conformance.Services
import Verif.Conformance.ServicesHidl
import Verif.Conformance.Writer
import Verif.Lemmas.Android
import Verif.Lemmas.AndroidHidl
import Verif.Lemmas.AndroidObjects
import Verif.Lemmas.AndroidServices
import Verif.Lemmas.Async
import Verif.Lemmas.AsyncFacts
import Verif.Lemmas.AsyncMove
import Verif.Lemmas.Bridge
import Verif.Lemmas.BridgeAll
import Verif.Lemmas.BridgeBook
import Verif.Lemmas.BridgeStep
import Verif.Lemmas.Bridged
import Verif.Lemmas.BridgedMove
import Verif.Lemmas.Buffers
import Verif.Lemmas.Call
import Verif.Lemmas.CallCheck
import Verif.Lemmas.ClientCalls
import Verif.Lemmas.ClientCallsFrame
import Verif.Lemmas.ClientCallsMove
import Verif.Lemmas.ClientCallsStep
import Verif.Lemmas.Commands
import Verif.Lemmas.Config
import Verif.Lemmas.Copy
import Verif.Lemmas.Counted
import Verif.Lemmas.Custody
import Verif.Lemmas.Delivered
import Verif.Lemmas.Device
import Verif.Lemmas.DeviceCalls
import Verif.Lemmas.DeviceLife
import Verif.Lemmas.DeviceStep
import Verif.Lemmas.Driver
import Verif.Lemmas.DriverStream
import Verif.Lemmas.Duties
import Verif.Lemmas.EventLoop
import Verif.Lemmas.EventLoopLog
import Verif.Lemmas.EventLoopStep
import Verif.Lemmas.Exit
import Verif.Lemmas.Fixup
import Verif.Lemmas.Fmq
import Verif.Lemmas.FmqDesc
import Verif.Lemmas.FmqPeer
import Verif.Lemmas.FmqRes
import Verif.Lemmas.FmqUnsync
import Verif.Lemmas.Grows
import Verif.Lemmas.HandleRefs
import Verif.Lemmas.Handles
import Verif.Lemmas.HandlesReg
import Verif.Lemmas.HidlWatch
import Verif.Lemmas.IpcTable
import Verif.Lemmas.Junk
import Verif.Lemmas.Layout
import Verif.Lemmas.LocalObj
import Verif.Lemmas.LocalObjLog
import Verif.Lemmas.LocalObjMove
import Verif.Lemmas.LocalObjWeak
import Verif.Lemmas.Locks
import Verif.Lemmas.LooperPoll
import Verif.Lemmas.LooperThreads
import Verif.Lemmas.LooperTx
import Verif.Lemmas.LooperTxLive
import Verif.Lemmas.Loopers
import Verif.Lemmas.Manager
import Verif.Lemmas.Mem
import Verif.Lemmas.Mutual
import Verif.Lemmas.MutualEnd
import Verif.Lemmas.NativeHandles
import Verif.Lemmas.Nested
import Verif.Lemmas.NestedBuf
import Verif.Lemmas.Notify
import Verif.Lemmas.Oneway
import Verif.Lemmas.Owns
import Verif.Lemmas.Parcels
import Verif.Lemmas.Plain
import Verif.Lemmas.Proxy
import Verif.Lemmas.ProxyHold
import Verif.Lemmas.ProxyLog
import Verif.Lemmas.Races
import Verif.Lemmas.Reader
import Verif.Lemmas.ReferencesCheck
import Verif.Lemmas.RemoteObj
import Verif.Lemmas.RemoteObjDeath
import Verif.Lemmas.RemoteObjLog
import Verif.Lemmas.RemoteObjMove
import Verif.Lemmas.Safe
import Verif.Lemmas.SendOrder
import Verif.Lemmas.ServiceName
import Verif.Lemmas.ServiceNamePhase
import Verif.Lemmas.Sharing
import Verif.Lemmas.SharingMove
import Verif.Lemmas.SmCalls
import Verif.Lemmas.SmCallsMove
import Verif.Lemmas.SmCallsStep
import Verif.Lemmas.SmTable
import Verif.Lemmas.Start
import Verif.Lemmas.StartMore
import Verif.Lemmas.Status
import Verif.Lemmas.Strcmp
import Verif.Lemmas.StringVec
import Verif.Lemmas.StructReads
import Verif.Lemmas.StructWalk
import Verif.Lemmas.Structs
import Verif.Lemmas.Text
import Verif.Lemmas.Transfer
import Verif.Lemmas.TransferCheck
import Verif.Lemmas.Tx
import Verif.Lemmas.TxFlags
import Verif.Lemmas.Unrefs
import Verif.Lemmas.Utf
import Verif.Lemmas.Waits
import Verif.Lemmas.Writer
import Verif.Model.Async
import Verif.Model.Autorelease
import Verif.Model.Bridge
import Verif.Model.Bridged
import Verif.Model.Buffers
import Verif.Model.Client
import Verif.Model.ClientCalls
import Verif.Model.Config
import Verif.Model.Device
import Verif.Model.DeviceCalls
import Verif.Model.Dispatch
import Verif.Model.Driver
import Verif.Model.DriverCmds
import Verif.Model.EventFlag
import Verif.Model.EventLoop
import Verif.Model.Exit
import Verif.Model.Fds
import Verif.Model.Fmq
import Verif.Model.FmqDesc
import Verif.Model.FmqLayout
import Verif.Model.FmqRes
import Verif.Model.HandleRefs
import Verif.Model.HidlWatch
import Verif.Model.Io
import Verif.Model.IpcTable
import Verif.Model.Lists
import Verif.Model.LocalObj
import Verif.Model.Locks
import Verif.Model.LooperPoll
import Verif.Model.LooperThreads
import Verif.Model.LooperTx
import Verif.Model.Loopers
import Verif.Model.Manager
import Verif.Model.Mem
import Verif.Model.Messages
import Verif.Model.Mutual
import Verif.Model.Names
import Verif.Model.Nested
import Verif.Model.NestedBuf
import Verif.Model.Notify
import Verif.Model.Oneway
import Verif.Model.Parcels
import Verif.Model.Poll
import Verif.Model.Proxy
import Verif.Model.Races
import Verif.Model.Reader
import Verif.Model.RemoteObj
import Verif.Model.Rpc
import Verif.Model.SendOrder
import Verif.Model.ServiceName
import Verif.Model.Services
import Verif.Model.Sharing
import Verif.Model.SmCalls
import Verif.Model.SmTable
import Verif.Model.Tx
import Verif.Model.Utf
import Verif.Model.Wait
import Verif.Model.Writer
import Verif.Model.WriterOps
import Verif.Props.C01
import Verif.Props.C02
import Verif.Props.C03
import Verif.Props.C04
import Verif.Props.C05
import Verif.Props.C06
import Verif.Props.C07
import Verif.Props.C08
import Verif.Props.C09
import Verif.Props.C10
import Verif.Props.C11
import Verif.Props.C12
import Verif.Props.C13
import Verif.Props.C14
import Verif.Props.C15
import Verif.Props.C16
import Verif.Props.C17
import Verif.Props.C18
import Verif.Props.C19
import Verif.Props.C19Android
import Verif.Props.C20
import Verif.Props.C21
import Verif.Props.C22
import Verif.Props.C23
import Verif.Props.C24
import Verif.Props.C25
import Verif.Props.C26
import Verif.Props.C27
import Verif.Props.C28
import Verif.Props.C29
import Verif.Props.C30
import Verif.Props.C31
import Verif.Props.C32
import Verif.Props.C33
import Verif.Props.C34
import Verif.Props.C35
import Verif.Props.C36
import Verif.Props.C37
import Verif.Props.C38
import Verif.Props.C39
import Verif.Props.C40
import Verif.Props.C41
import Verif.Props.C42
import Verif.Props.C43
import Verif.Props.C44
import Verif.Props.C45
import Verif.Props.C46
import Verif.Props.C47
import Verif.Props.C48
import Verif.Props.C49
import Verif.Props.C50
import Verif.Props.C51
import Verif.Props.C52
import Verif.Props.C53
import Verif.Props.C54
import Verif.Props.C55
import Verif.Props.C56
import Verif.Props.C57
import Verif.Props.C58
import Verif.Props.C59
import Verif.Props.C60
import Verif.Props.C61
import Verif.Props.C62
import Verif.Props.C63
import Verif.Props.C64
import Verif.Props.C65
import Verif.Props.C66
import Verif.Props.C67
import Verif.Props.C68
import Verif.Props.C69
import Verif.Props.C70
import Verif.Props.C71
import Verif.Props.C72
import Verif.Props.C73
import Verif.Props.C74
import Verif.Props.C75
import Verif.Props.C76
import Verif.Props.C77
import Verif.Props.C78
import Verif.Props.C79
import Verif.Props.C80
import Verif.Props.C81
import Verif.Props.C82
import Verif.Props.C83
import Verif.Props.C84
import Verif.Props.C85
import Verif.Props.C86
import Verif.Props.C87
import Verif.Props.C88
import Verif.Props.C89
import Verif.Props.C90
import Verif.Props.C90Buf
import Verif.Props.C90Driver
import Verif.Props.C91
import Verif.Spec.Android
import Verif.Spec.AndroidCalls
import Verif.Spec.AndroidFmq
import Verif.Spec.AndroidHandle
import Verif.Spec.AndroidHidl
import Verif.Spec.AndroidObjects
import Verif.Spec.AndroidQuestions
import Verif.Spec.AndroidServices
import Verif.Spec.Async
import Verif.Spec.Bridge
import Verif.Spec.Bridged
import Verif.Spec.Buffers
import Verif.Spec.Call
import Verif.Spec.Calls
import Verif.Spec.ClientCalls
import Verif.Spec.Codes
import Verif.Spec.Commands
import Verif.Spec.Config
import Verif.Spec.Copy
import Verif.Spec.Custody
import Verif.Spec.Demo
import Verif.Spec.Device
import Verif.Spec.Driver
import Verif.Spec.Duties
import Verif.Spec.EventFlag
import Verif.Spec.EventLoop
import Verif.Spec.Exit
import Verif.Spec.Fmq
import Verif.Spec.FmqPeer
import Verif.Spec.HandleRefs
import Verif.Spec.Handles
import Verif.Spec.HidlWatch
import Verif.Spec.Installed
import Verif.Spec.IpcTable
import Verif.Spec.Kernel
import Verif.Spec.KernelCmds
import Verif.Spec.LocalObj
import Verif.Spec.Locks
import Verif.Spec.LooperPoll
import Verif.Spec.LooperTx
import Verif.Spec.Loopers
import Verif.Spec.Manager
import Verif.Spec.Mutual
import Verif.Spec.Nested
import Verif.Spec.Oneway
import Verif.Spec.Parcels
import Verif.Spec.Plain
import Verif.Spec.Poll
import Verif.Spec.Proxy
import Verif.Spec.Races
import Verif.Spec.ReaderOps
import Verif.Spec.References
import Verif.Spec.RemoteObj
import Verif.Spec.SendOrder
import Verif.Spec.ServiceName
import Verif.Spec.Sharing
import Verif.Spec.SmCalls
import Verif.Spec.SmTable
import Verif.Spec.Status
import Verif.Spec.Structs
import Verif.Spec.Transfer
import Verif.Spec.Unrefs
import Verif.Spec.Waits
