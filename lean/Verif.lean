import Verif.Props.Sizing
import Verif.Props.Collection
import Verif.Props.Group
import Verif.Props.GroupLimits
import Verif.Props.Container
import Verif.Props.ContainerHistory
import Verif.Props.ContainerTx
import Verif.Props.Connection
import Verif.Props.Database
import Verif.Props.Legacy
import Verif.Props.Modules
import Verif.Props.Context
import Verif.Props.Validate
import Verif.Props.Duration
import Verif.Props.Stamp
import Verif.Props.Url
import Verif.Props.Data
import Verif.Props.Docloader
import Verif.Props.Intake
import Verif.Props.Package
import Verif.Props.Clone
import Verif.Props.Link
import Verif.Props.Property
import Verif.Props.Model
import Verif.Props.Construct
import Verif.Props.Construct2
import Verif.Props.AsPackage
import Verif.Props.AsEngine
import Verif.Props.AsLoad
import Verif.Props.Members
import Verif.Props.Change
import Verif.AS.Change
import Verif.Props.AsChange
import Verif.AS.Output
import Verif.Props.Construct3
import Verif.Props.RoundTrip
import Verif.Props.RoundTrip2
import Verif.Props.RoundTrip3
import Verif.Props.RoundTrip4
import Verif.Props.NewContainer
import Verif.Props.DurableMap
import Verif.Props.StampExact
import Verif.Props.Ranges
import Verif.Db.Concurrent
import Verif.Spec.Snapshot
import Verif.Lemmas.Concurrent
import Verif.Props.Concurrent
import Verif.Props.ConcurrentMany
import Verif.Props.Linearizable
import Verif.Props.Blocks
import Verif.Props.ConcurrentLimits
import Verif.Jsonld.Threads
import Verif.Props.Threads
import Verif.Props.CacheThreads
import Verif.Props.Usage
import Verif.Props.StrictMode
import Verif.Props.ConcurrentStrict
import Verif.Props.Serial
import Verif.Props.Assemble
import Verif.Props.Pool
import Verif.Props.Stubs
import Verif.Props.Defaults
import Verif.Props.Open
import Verif.Props.Setup
import Verif.Props.Cluster
import Verif.Props.Graph
import Verif.Props.Items
import Verif.Props.Relink
import Verif.Storage.Float
import Verif.Props.Float
import Verif.Props.Recover
import Verif.Db.Pickle
import Verif.Props.Pickle
import Verif.Db.Live
import Verif.Props.Live
import Verif.Props.Falsy
import Verif.Db.Crew
import Verif.Props.Crew
import Verif.Db.Figures
import Verif.Props.Figures
import Verif.Jsonld.Mem
import Verif.Props.Mem
import Verif.Props.Reads
import Verif.AS.Alias
import Verif.Props.Alias
import Verif.Props.AliasBuild
import Verif.Props.AliasSame
import Verif.Jsonld.MemData
import Verif.Props.MemData
import Verif.Db.Program
import Verif.Spec.Program
import Verif.Props.Program
import Verif.AS.Walk
import Verif.Props.Walk
import Verif.Props.Readme
import Verif.Jsonld.Get
import Verif.Props.Get
import Verif.Jsonld.Text
import Verif.Spec.Json
import Verif.AS.Text
import Verif.Props.JsonRead
import Verif.Props.JsonWrite
import Verif.Props.JsonSound
import Verif.Props.JsonText
import Verif.Props.ReadmeText
import Verif.Props.JsonArgs
import Verif.Props.Listing
import Verif.Props.Changing
import Verif.Jsonld.Stringify
import Verif.Props.Stringify
import Verif.Props.Commits
import Verif.Props.UnitTests
import Verif.Db.ModuleSize
import Verif.Props.ModuleSize
import Verif.Db.Amid
import Verif.Props.Amid
import Verif.Props.Progress
import Verif.Db.Crash
import Verif.Props.Crash
import Verif.Props.CrashBlocks
import Verif.Props.Starve
import Verif.Props.Archive
import Verif.Props.EngineAttrs
import Verif.Props.Limited
import Verif.Props.Client
import Verif.Props.SharedLimits
import Verif.Props.Overshoot
import Verif.Props.Parties
