import Verif.Props.C01
import Verif.Props.C02
import Verif.Props.C06
import Verif.Props.C09
import Verif.Props.C07
import Verif.Props.C08
import Verif.Props.C11
import Verif.Props.C15
import Verif.Props.C16
import Verif.Props.C13
import Verif.Props.C17
import Verif.Props.C18
import Verif.Props.C21
import Verif.Props.C26
import Verif.Props.C37
import Verif.Props.C38
import Verif.Props.C33
import Verif.Props.C34
import Verif.Props.C36
import Verif.Model.Builder
import Verif.Spec.Builder
import Verif.Lemmas.Builder
import Verif.Lemmas.BuilderTree
import Verif.Lemmas.BuilderCache
import Verif.Lemmas.BuilderSound
import Verif.Lemmas.BuilderSpec
import Verif.Props.C32
import Verif.Props.C48
import Verif.Model.Stats
import Verif.Props.C43
import Verif.Model.SigBus
import Verif.Props.C44
import Verif.Model.Conn
import Verif.Props.C40
import Verif.Model.Uri
import Verif.Props.C39
import Verif.Props.C49
import Verif.Model.Hub
import Verif.Lemmas.Hub
import Verif.Props.C42
import Verif.Lemmas.Replay
import Verif.Lemmas.Chunk
import Verif.Lemmas.TcpLink
import Verif.Lemmas.Decent
import Verif.Lemmas.TcpRefine
import Verif.Props.C15Tcp
import Verif.Model.TraMgr
import Verif.Spec.Hub
import Verif.Lemmas.TraMgr
import Verif.Lemmas.TraMgrWorld
import Verif.Props.C50
import Verif.Model.HubWire
import Verif.Lemmas.HubWire
import Verif.Lemmas.ChunkHub
import Verif.Props.C51
import Verif.Model.Allow
import Verif.Model.Registry
import Verif.Spec.Allow
import Verif.Lemmas.Registry
import Verif.Lemmas.Allow
import Verif.Props.C52
import Verif.Props.C53
import Verif.Model.NodeAttr
import Verif.Spec.NodeAttr
import Verif.Lemmas.NodeAttr
import Verif.Props.C54
import Verif.Model.PagedProg
import Verif.Lemmas.PagedLink
import Verif.Lemmas.PagedDev
import Verif.Props.C15Paged
import Verif.Model.HubFirst
import Verif.Lemmas.HubFirst
import Verif.Props.C55
import Verif.Props.C55World
import Verif.Props.C56
import Verif.Props.C56Order
import Verif.Model.Threads
import Verif.Props.C57
import Verif.Props.C57Transports
import Verif.Model.AddrDesc
import Verif.Props.C58
import Verif.Model.Hw
import Verif.Props.C59
import Verif.Model.HwProg
import Verif.Props.C60
import Verif.Model.Decode
import Verif.Props.C61
import Verif.Spec.Shared
import Verif.Lemmas.Shared
import Verif.Lemmas.SharedHub
import Verif.Lemmas.SharedWorld
import Verif.Lemmas.TcpWhole
import Verif.Props.C62
import Verif.Lemmas.UdpWhole
import Verif.Spec.Net
import Verif.Lemmas.UdpNet
import Verif.Props.C63
import Verif.Model.ExcText
import Verif.Props.C64
import Verif.Model.Fmt
import Verif.Props.C65
import Verif.Model.Log
import Verif.Props.C66
import Verif.Model.Make
import Verif.Spec.Make
import Verif.Props.C67
import Verif.Model.HubApp
import Verif.Spec.HubApp
import Verif.Lemmas.HubApp
import Verif.Lemmas.HubMgr
import Verif.Props.C68
import Verif.Model.Device
import Verif.Props.C69
import Verif.Props.C70
import Verif.Model.Dummy
import Verif.Spec.Dummy
import Verif.Lemmas.Dummy
import Verif.Lemmas.DummyRef
import Verif.Props.C71
import Verif.Props.C71World
import Verif.Model.Files
import Verif.Spec.Files
import Verif.Props.C72
import Verif.Model.Hub13
import Verif.Lemmas.Hub13
import Verif.Props.C73
import Verif.Model.HubProc
import Verif.Lemmas.HubProc
import Verif.Props.C74
import Verif.Props.C74Stuck
import Verif.Props.C69Hub13
import Verif.Model.DevPaged
import Verif.Props.C69Paged
import Verif.Model.PcieDummy
import Verif.Lemmas.PcieDummy
import Verif.Lemmas.PcieProg
import Verif.Props.C75
import Verif.Model.Soak
import Verif.Spec.Soak
import Verif.Lemmas.Soak
import Verif.Lemmas.SoakRam
import Verif.Lemmas.SoakSteps
import Verif.Lemmas.SoakRun
import Verif.Props.C76
import Verif.Model.TargetTest
import Verif.Spec.TargetTest
import Verif.Lemmas.TargetTest
import Verif.Props.C77
import Verif.Model.Overlap
import Verif.Props.C78
import Verif.Model.Stream
import Verif.Props.C79
import Verif.Model.Hall
import Verif.Spec.Common
import Verif.Lemmas.Common
import Verif.Props.C80
import Verif.Model.Gui
import Verif.Lemmas.Gui
import Verif.Props.C81
import Verif.Model.PyVal
import Verif.Props.C82
import Verif.Model.Era
import Verif.Props.C83
import Verif.Model.Derived
import Verif.Props.C84
import Verif.Model.PcieFile
import Verif.Props.C85
import Verif.Model.Classes
import Verif.Spec.Classes
import Verif.Props.C86
import Verif.Model.Robust
import Verif.Spec.Robust
import Verif.Props.C87
import Verif.Model.Pool
import Verif.Spec.Pool
import Verif.Lemmas.Pool
import Verif.Lemmas.PoolUdp
import Verif.Lemmas.PoolPaged
import Verif.Model.PoolTcp
import Verif.Lemmas.PoolTcp
import Verif.Lemmas.PoolTcpLike
import Verif.Lemmas.PoolTcpSim
import Verif.Props.C88
import Verif.Props.C88Tcp
import Verif.Model.HandlerSteps
import Verif.Lemmas.HandlerSteps
import Verif.Props.C89
import Verif.Model.HubText
import Verif.Spec.HubText
import Verif.Lemmas.HubText
import Verif.Lemmas.HubTextHex
import Verif.Props.C90
import Verif.Spec.PoolKept
import Verif.Lemmas.PoolKept
import Verif.Lemmas.PoolKeptTcp
import Verif.Props.C91
import Verif.Model.Dump
import Verif.Spec.Dump
import Verif.Lemmas.Dump
import Verif.Props.C92
import Verif.Model.Perf
import Verif.Spec.Perf
import Verif.Lemmas.Perf
import Verif.Props.C93
import Verif.Model.PerfPackets
import Verif.Props.C94
import Verif.Model.HwStruct
import Verif.Spec.HwStruct
import Verif.Lemmas.HwStruct
import Verif.Props.C95
import Verif.Model.Bandwidth
import Verif.Props.C96
import Verif.Model.Latency
import Verif.Props.C97
import Verif.Model.Emulator
import Verif.Props.C98
import Verif.Model.Echo
import Verif.Props.C99
import Verif.Model.Suite
import Verif.Props.C100
import Verif.Model.HubCtl
import Verif.Props.C101
import Verif.Model.ChkConfig
import Verif.Props.C102
import Verif.Model.GuiLoad
import Verif.Props.C103
