import Verif.Model.TypeInfo
import Verif.Model.Buffer
import Verif.Tests
import Verif.Samples
import Verif.SamplesWF
import Verif.Proofs.FileNew
import Verif.Proofs.Build
import Verif.Proofs.Prog
import Verif.Proofs.SafeNew
import Verif.Props.Offset
import Verif.Props.Path
import Verif.Props.Queries
import Verif.Props.OffsetOf
import Verif.Props.Lookup
import Verif.Proofs.Buffer
import Verif.Props.Source
import Verif.Props.Cache
import Verif.Props.Parse
import Verif.Props.Record
import Verif.Proofs.FileSame
import Verif.Proofs.Ints
import Verif.SamplesFull
import Verif.Proofs.Version
import Verif.Props.Same
import Verif.Props.Buffer
import Verif.Props.Parsed
import Verif.RepoTests
import Verif.Props.Builds
import Verif.Props.Renumber
import Verif.Props.Examples
import Verif.Props.Encode
import Verif.Props.Prefix
import Verif.Props.Narrow
import Verif.Props.Compose
import Verif.Props.Declared
import Verif.Props.Cost
import Verif.Model.Message
import Verif.Spec.Message
import Verif.Proofs.Message
import Verif.Proofs.MessageSem
import Verif.Proofs.MessagePath
import Verif.Proofs.MessageRun
import Verif.Props.Message
import Verif.Spec.Disjoint
import Verif.Props.Disjoint
import Verif.Proofs.Requests
import Verif.Spec.RequestCount
import Verif.Proofs.RequestCount
import Verif.Props.Requests
import Verif.Spec.Reserved
import Verif.Proofs.Reserved
import Verif.Props.Reserved
import Verif.Spec.LoadMessage
import Verif.Proofs.LoadMessage
import Verif.Spec.FirstFlaw
import Verif.Proofs.FirstFlaw
import Verif.Props.LoadMessage
import Verif.Model.Debug
import Verif.Spec.Debug
import Verif.Proofs.Debug
import Verif.Proofs.DebugTypes
import Verif.Proofs.DebugText
import Verif.Props.Debug
import Verif.Spec.Search
import Verif.Proofs.Search
import Verif.Proofs.SearchPath
import Verif.Props.Search
import Verif.Spec.Short
import Verif.Proofs.Short
import Verif.Props.Short
import Verif.Spec.Obstacle
import Verif.Proofs.Obstacle
import Verif.Proofs.ObstacleText
import Verif.Props.Obstacle
import Verif.Props.Hidden
import Verif.Props.Witness
import Verif.Props.WitnessFile
import Verif.Spec.Changing
import Verif.Proofs.March
import Verif.Proofs.Blank
import Verif.Props.Changing
import Verif.Spec.Fill
import Verif.Proofs.Fill
import Verif.Props.Fill
import Verif.Spec.Keep
import Verif.Proofs.Keep
import Verif.Props.Keep
import Verif.Spec.Schedule
import Verif.Props.CacheWork
import Verif.Spec.Reader
import Verif.Props.Reader
import Verif.Spec.Trail
import Verif.Proofs.Trail
import Verif.Props.Trail
import Verif.Spec.Added
import Verif.Props.Added
import Verif.Spec.Relabel
import Verif.Proofs.Relabel
import Verif.Props.Relabel
import Verif.Spec.Grid
import Verif.Props.Grid
import Verif.Spec.Regroup
import Verif.Proofs.Regroup
import Verif.Props.Regroup
import Verif.Spec.Restring
import Verif.Proofs.Restring
import Verif.Props.Restring
import Verif.Spec.CacheSize
import Verif.Props.CacheSize
import Verif.Spec.Spelling
import Verif.Props.Spelling
import Verif.Spec.CTypes
import Verif.Proofs.CTypes
import Verif.Props.CTypes
import Verif.Spec.Places
import Verif.Props.Places
import Verif.Model.Complaint
import Verif.Spec.Complaint
import Verif.Props.Complaint
import Verif.Spec.CHeader
import Verif.Props.CHeader
import Verif.Props.CPrograms
import Verif.Props.Split
import Verif.Props.Amplify
import Verif.Props.CModule
import Verif.Props.CWalk
import Verif.Props.CIncomplete
import Verif.Props.CAmong
import Verif.Props.CTrail
import Verif.Props.CSame
import Verif.Props.CLayout
import Verif.Props.CLayoutRuns
import Verif.Props.CGrow
import Verif.Props.CPortable
import Verif.Props.CPrefix
import Verif.Props.COrder
