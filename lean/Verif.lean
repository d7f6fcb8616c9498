import Verif.Props.AddrInfo
import Verif.Props.Analyzer
import Verif.Props.AstKeywords
import Verif.Props.Base32
import Verif.Props.Birthday
import Verif.Props.CallGraph
import Verif.Props.Chance
import Verif.Props.Checks
import Verif.Props.Connect
import Verif.Props.Construct
import Verif.Props.CrashPath
import Verif.Props.Dates
import Verif.Props.DecoText
import Verif.Props.Describe
import Verif.Props.Drain
import Verif.Props.DrainScan
import Verif.Props.ErrReport
import Verif.Props.Events
import Verif.Props.ExecText
import Verif.Props.Faults
import Verif.Props.FaultsJoin
import Verif.Props.FaultsLive
import Verif.Props.FirstEntry
import Verif.Props.FrameFail
import Verif.Props.FrameThreads
import Verif.Props.HashAddr
import Verif.Props.Lifecycle
import Verif.Props.Logging
import Verif.Props.Mixed
import Verif.Props.MultiDict
import Verif.Props.Mutable
import Verif.Props.Namespace
import Verif.Props.NodeSig
import Verif.Props.Normalizer
import Verif.Props.Noticing
import Verif.Props.Once
import Verif.Props.Ordinarity
import Verif.Props.OutThreads
import Verif.Props.Output
import Verif.Props.Packages
import Verif.Props.PortalAware
import Verif.Props.PortalStack
import Verif.Props.ProcessTree
import Verif.Props.PureArgs
import Verif.Props.PureBatch
import Verif.Props.PureCalls
import Verif.Props.PureGuards
import Verif.Props.Registry
import Verif.Props.RegistryAug
import Verif.Props.RegistryChange
import Verif.Props.RegistryRestore
import Verif.Props.RegistryRun
import Verif.Props.RegistryStored
import Verif.Props.RunRecords
import Verif.Props.SharedDirs
import Verif.Props.SourceText
import Verif.Props.Swarm
import Verif.Props.SwarmChecks
import Verif.Props.SwarmDone
import Verif.Props.SwarmJoin
import Verif.Props.SwarmKeep
import Verif.Props.SwarmLive
import Verif.Props.SwarmParts
import Verif.Props.SwarmValues
import Verif.Props.Threads
import Verif.Props.TypedGet
import Verif.Props.Uncaught
import Verif.Props.UniqueNames
import Verif.Props.ValueAddr
import Verif.Props.Waiting
import Verif.Props.WorkerScan
import Verif.Props.Workers
import Verif.Props.Wrap
