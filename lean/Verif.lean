import Verif.Spec.GhostMap
import Verif.Spec.IndexPool
import Verif.Env.IndexPool
import Verif.Env.IndexPoolProofs
import Verif.Props.IndexPool
import Verif.Env.Memory
import Verif.Env.MemoryProofs
import Verif.Props.Memory
import Verif.Env.MemoryAlloc
import Verif.Props.MemoryAlloc
import Verif.Spec.HashMap
import Verif.Env.HashMap
import Verif.Env.HashMapProofs
import Verif.Props.HashMap
import Verif.Env.Cht
import Verif.Env.ChtProofs
import Verif.Props.Cht
import Verif.Nf.Table
import Verif.Nf.TableProofs
import Verif.Spec.Expiring
import Verif.Nf.ExpiringProofs
import Verif.Nf.Packet
import Verif.Spec.Packet
import Verif.Nf.PacketProofs
import Verif.Nf.Firewall
import Verif.Props.Firewall
import Verif.Nf.Checksum
import Verif.Nf.Nat
import Verif.Nf.NatProofs
import Verif.Spec.Nat
import Verif.Props.Nat
import Verif.Props.NatRewrite
import Verif.Nf.Policer
import Verif.Props.Policer
import Verif.Nf.Bridge
import Verif.Spec.Bridge
import Verif.Props.Bridge
import Verif.Nf.Maglev
import Verif.Props.Maglev
import Verif.Spec.Lpm
import Verif.Nf.Router
import Verif.Props.Router
import Verif.Nf.Runtime
import Verif.Props.Runtime
import Verif.Env.Endian
import Verif.Props.Endian
import Verif.Tool.Structs
import Verif.Props.Structs
import Verif.Tool.Merging
import Verif.Props.Merging
import Verif.Tool.Pci
import Verif.Tool.Pipeline
import Verif.Props.Pci
import Verif.Props.Pipeline
import Verif.Tool.Clock
import Verif.Props.Clock
import Verif.Tool.Structural
import Verif.Props.Structural
import Verif.Tool.Expr
import Verif.Props.Expr
import Verif.Tool.Symbex
import Verif.Props.Symbex
import Verif.Props.SymbexChoose
import Verif.Tool.SpecValue
import Verif.Props.SpecValue
import Verif.Tool.GhostMap
import Verif.Tool.GhostMapSem
import Verif.Tool.GhostMapProg
import Verif.Props.GhostMapBase
import Verif.Props.GhostMapGet
import Verif.Props.GhostMapSet
import Verif.Props.GhostMap
import Verif.Props.GhostMapEval
import Verif.Props.GhostMapWrong
import Verif.Props.GhostMapForall
import Verif.Props.GhostMapWrong2
import Verif.Tool.GhostMapCross
import Verif.Props.GhostMapCross
import Verif.Props.GhostMapReads
import Verif.Props.GhostMapForallCross
import Verif.Props.GhostMapOld
import Verif.Props.GhostMapVersions
import Verif.Props.GhostMapCons
import Verif.Props.GhostMapExact
import Verif.Tool.GhostMapMerge
import Verif.Props.GhostMapMerge
import Verif.Tool.Heap
import Verif.Props.Heap
import Verif.Props.HeapOwn
import Verif.Tool.Infer
import Verif.Props.InferWiden
import Verif.Props.InferRelax
import Verif.Props.Infer
import Verif.Props.InferWrong
import Verif.Tool.Registers
import Verif.Props.RegField
import Verif.Props.RegWrite
import Verif.Props.RegAddr
import Verif.Env.Ixgbe
import Verif.Env.IxgbeProofs
import Verif.Props.Ixgbe
import Verif.Env.IxgbeRegs
import Verif.Env.IxgbeSetup
import Verif.Env.MemoryBoot
import Verif.Props.IxgbeRegs
import Verif.Props.IxgbeSetup
import Verif.Props.MemoryBoot
import Verif.Props.GhostMapNew
import Verif.Props.InferMore
import Verif.Spec.TokenBucket
import Verif.Props.PolicerExact
import Verif.Env.Dpdk
import Verif.Props.Dpdk
import Verif.Env.IxgbeDevice
import Verif.Props.IxgbeDevice
import Verif.Tool.NfSpec
import Verif.Props.NfSpec
import Verif.Nf.Dhcp
import Verif.Nf.RustPolicer
import Verif.Props.DhcpProofs
import Verif.Props.Dhcp
import Verif.Props.RustPolicer
import Verif.Spec.ProofLib
import Verif.Props.ProofLib
import Verif.Tool.Fullstack
import Verif.Props.Fullstack
import Verif.Tool.CardSpec
import Verif.Props.CardCheck
import Verif.Props.CardAccess
import Verif.Props.CardSpec
import Verif.Props.CardRules
import Verif.Props.CardDriver
import Verif.Tool.InitExternals
import Verif.Props.InitExternals
import Verif.Props.InitDevices
import Verif.Env.Boot
import Verif.Props.Boot
import Verif.Props.BootStart
import Verif.Nf.Low
import Verif.Nf.LowProofs
import Verif.Nf.LowNfProofs
import Verif.Nf.LowFrame
import Verif.Props.Low
import Verif.Env.Machine
import Verif.Env.MachineProofs
import Verif.Nf.Machine
import Verif.Props.Machine
import Verif.Nf.BridgeNet
import Verif.Spec.BridgeNet
import Verif.Props.BridgeNetProofs
import Verif.Props.BridgeNetRoutes
import Verif.Props.BridgeNetTrace
import Verif.Props.BridgeNetDelivery
import Verif.Props.BridgeNet
import Verif.Tool.ObjectsMemory
import Verif.Props.ObjectsMemory
import Verif.Tool.Guess
import Verif.Props.Guess
import Verif.Spec.Buckets
import Verif.Spec.BucketsProofs
import Verif.Props.Buckets
import Verif.Spec.MapPred
import Verif.Env.MapPredProofs
import Verif.Props.MapPred
import Verif.Spec.PoolPred
import Verif.Props.PoolPred
import Verif.Spec.SpanningTree
import Verif.Props.SpanningTree
import Verif.Env.Frequency
import Verif.Props.Frequency
import Verif.Env.DpdkMemory
import Verif.Props.DpdkMemory
import Verif.Nf.LowDhcp
import Verif.Nf.LowDhcpProofs
import Verif.Props.LowDhcp
import Verif.Nf.DpdkMachine
import Verif.Props.DpdkMachine
import Verif.Bench.Devices
import Verif.Bench.Moongen
import Verif.Props.Bench
import Verif.Props.BenchMore
import Verif.Props.Devices
import Verif.Props.BenchRun
import Verif.Props.InferEnds
import Verif.Props.InferEndless
import Verif.Spec.ListLib
import Verif.Props.ListLib
import Verif.Props.StdLib
import Verif.Tool.Graph
import Verif.Props.Graph
import Verif.Tool.Statistics
import Verif.Props.Statistics
import Verif.Bench.Latency
import Verif.Props.Latency
import Verif.Tool.Checks
import Verif.Props.Checks
import Verif.Nf.Start
import Verif.Props.Start
import Verif.Env.Build
import Verif.Props.Build
import Verif.Tool.Texts
import Verif.Props.Texts
