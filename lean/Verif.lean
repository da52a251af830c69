import Verif.Go.Base
import Verif.Go.Lemmas
import Verif.Go.Loop
import Verif.Go.Heap
import Verif.Spec.Netlink
import Verif.Common.Model
import Verif.Common.Lemmas
import Verif.Common.AttrLemmas
import Verif.Spec.Lemmas
import Verif.Props.Common
import Verif.Sys.Model
import Verif.Props.Sys
import Verif.NfQueue.Model
import Verif.NfQueue.Lemmas
import Verif.NfQueue.Spec
import Verif.NfQueue.Config
import Verif.NfQueue.Start
import Verif.Props.NfQueueConfig
import Verif.Props.NfQueueFail
import Verif.Go.HeapLemmas
import Verif.NfQueue.Verdict
import Verif.Props.NfQueueVerdict
import Verif.NfQueue.Receive
import Verif.Props.NfQueueReceive
import Verif.NfQueue.Concurrent
import Verif.NfQueue.Interleave
import Verif.Props.NfQueueConcurrent
import Verif.Props.NfQueueLock
import Verif.Props.NfQueueMixing
import Verif.Spec.Packet
import Verif.Packet.Model
import Verif.Packet.Lemmas
import Verif.Packet.Parse
import Verif.Packet.New
import Verif.Props.PacketParse
import Verif.Packet.Checksum
import Verif.Packet.Mem
import Verif.Packet.Ops
import Verif.Packet.TcpOps
import Verif.Packet.Valid
import Verif.Props.PacketChecksum
import Verif.Packet.Sync
import Verif.Packet.TcpInv
import Verif.Props.PacketTcp
import Verif.Packet.Split
import Verif.Props.PacketSplit
import Verif.Props.PacketAdjust
import Verif.Props.PacketAlias
import Verif.Props.PacketExamples
import Verif.Sys.Lemmas
import Verif.NfLog.Model
import Verif.NfLog.Spec
import Verif.NfLog.Config
import Verif.Props.NfLogConfig
import Verif.Props.PacketAccept
import Verif.NfLog.ReadSpec
import Verif.NfLog.Read
import Verif.NfLog.ReadLog
import Verif.NfLog.ReadLoop
import Verif.Props.NfLogRead
import Verif.Props.NfLogFate
import Verif.Props.NfLogLate
import Verif.Props.NfLogStays
import Verif.Props.NfLogCapture
import Verif.Props.NfLogEndToEnd
import Verif.Props.NfLogHandle
import Verif.Props.NfQueueLifecycle
import Verif.Conntrack.Model
import Verif.Conntrack.Spec
import Verif.Conntrack.Lemmas
import Verif.Conntrack.Exec
import Verif.Props.Conntrack
import Verif.Props.ConntrackAny
import Verif.Props.ConntrackFlows
import Verif.Packet.Udp
import Verif.Props.PacketUdp
import Verif.Props.PacketUdpSeq
import Verif.Props.PacketUdpPeer
import Verif.Spec.PacketTcp
import Verif.Props.PacketTcpPeer
import Verif.Props.PacketTcpSeq
import Verif.Props.ComposeUdp
import Verif.Props.ComposeTcp
import Verif.Packet.Hash
import Verif.Props.PacketHash
import Verif.Packet.Diag
import Verif.Props.PacketMore
import Verif.Props.PacketHashExact
import Verif.Props.PacketDiag
import Verif.NfQueue.Example
import Verif.Props.NfQueueEcho
import Verif.Props.NfQueueLimits
import Verif.Props.NfLogLimits
import Verif.Props.NfQueueStale
import Verif.Props.NfQueueLate
import Verif.NfQueue.Reader
import Verif.Props.NfQueueServe
import Verif.Props.NfQueueServeLock
import Verif.Packet.Copy
import Verif.Props.PacketFrame
import Verif.Props.PacketTeam
import Verif.Props.PacketMoved
import Verif.Props.PacketPlaced
import Verif.Props.PacketCopy
import Verif.Props.Compose
import Verif.Props.Reasons
import Verif.NfQueue.Many
import Verif.NfQueue.Answer
import Verif.Props.NfQueueMany
import Verif.Props.NfQueueManyStart
import Verif.Props.NfQueueManyLock
import Verif.Props.NfQueueReuse
import Verif.Props.AddressText
import Verif.Props.NfQueueAnswer
import Verif.Sys.Prog
import Verif.Conntrack.Prog
import Verif.Props.ConntrackConcurrent
import Verif.Conform.PacketTests
import Verif.Conform.NfQueueTests
import Verif.Conform.NfLogTests
import Verif.Conntrack.Table
import Verif.Conntrack.TableLemmas
import Verif.Props.ConntrackTable
import Verif.Props.ConntrackTableWorks
import Verif.Spec.Kernel
import Verif.Sys.Genuine
import Verif.NfQueue.Records
import Verif.NfQueue.Queues
import Verif.NfQueue.QueuesLemmas
import Verif.NfQueue.Fine
import Verif.NfQueue.QueueKernel
import Verif.NfQueue.Tally
import Verif.NfQueue.Native
import Verif.Props.NfQueueKernel
import Verif.Props.NfQueueKernelWorks
import Verif.Props.NfQueueDeliver
import Verif.Props.NfQueueDeliverWorks
import Verif.Props.NfQueueNative
import Verif.NfLog.Groups
import Verif.NfLog.GroupsLemmas
import Verif.NfLog.Boot
import Verif.NfLog.Records
import Verif.Props.NfLogKernel
import Verif.NfLog.GroupKernel
import Verif.Props.NfLogKernelWorks
import Verif.Props.NfLogKernelLost
import Verif.NfLog.Shown
import Verif.NfLog.Calm
import Verif.Props.NfLogKernelRead
import Verif.NfQueue.Beside
import Verif.Props.NfQueueBeside
import Verif.Props.NfQueueBesideKernel
import Verif.Props.NfQueueBesideMixed
import Verif.NfLog.Many
import Verif.Props.NfLogMany
import Verif.Props.ConntrackMixed
import Verif.NfLog.Elsewhere
import Verif.Props.NfLogManyKernel
import Verif.NfQueue.Elsewhere
import Verif.Props.NfQueueAnswerAccount
import Verif.Props.NfQueueAnswerKernel
import Verif.Props.NfQueueAnswerKernelWorks
import Verif.Sys.Placed
import Verif.Conntrack.SharedTable
import Verif.Props.ConntrackShared
import Verif.Props.ConntrackSharedWorks
import Verif.Props.ConntrackUdp
import Verif.Props.NfLogExample
import Verif.Props.NfQueueExample
import Verif.Props.NfQueueHandle
import Verif.Props.BoundedCalls
import Verif.Props.NfQueueNotify
import Verif.NfLog.Within
import Verif.Props.NfLogLife
