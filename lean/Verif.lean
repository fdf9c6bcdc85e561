import Verif.Model.Outcome
import Verif.Model.Bytes
import Verif.Model.MemoryMap
import Verif.Model.Types
import Verif.Model.Reader
import Verif.Model.Writer
import Verif.Spec.Alloc
import Verif.Spec.Format
import Verif.Proofs.SkipList
import Verif.Proofs.SkipListOps
import Verif.Proofs.SkipListRemove
import Verif.Proofs.AllocSpec
import Verif.Proofs.Bytes
import Verif.Proofs.ReaderSim
import Verif.Proofs.ReaderEntries
import Verif.Proofs.ReaderTail
import Verif.Proofs.ReaderPoints
import Verif.Props.MemoryMap
import Verif.Spec.Representable
import Verif.Proofs.Format
import Verif.Proofs.Header
import Verif.Proofs.Cut
import Verif.Proofs.ReaderAll
import Verif.Proofs.HeaderCut
import Verif.Proofs.Limit
import Verif.Model.Api
import Verif.Proofs.RoundTrip
import Verif.Proofs.Rewrite
import Verif.Props.Reader
import Verif.Props.Crash
import Verif.Props.RoundTrip
import Verif.Model.Equality
import Verif.Model.Predicate
import Verif.Model.Query
import Verif.Model.PredicateCache
import Verif.Spec.Query
import Verif.Proofs.Equality
import Verif.Proofs.Predicate
import Verif.Proofs.Cartesian
import Verif.Proofs.Query
import Verif.Proofs.PredicateCache
import Verif.Proofs.Decides
import Verif.Proofs.Canonical
import Verif.Props.Predicate
import Verif.Props.Query
import Verif.Model.Export
import Verif.Model.Database
import Verif.Spec.Export
import Verif.Spec.Database
import Verif.Proofs.Export
import Verif.Proofs.Database
import Verif.Props.Export
import Verif.Props.Database
import Verif.Model.Hash
import Verif.Model.Flyweight
import Verif.Spec.Sharing
import Verif.Spec.Order
import Verif.Proofs.Hash
import Verif.Proofs.Flyweight
import Verif.Proofs.Sharing
import Verif.Proofs.Order
import Verif.Props.Sharing
import Verif.Props.Equality
import Verif.Model.Archive
import Verif.Spec.Archive
import Verif.Proofs.Archive
import Verif.Proofs.Distinct
import Verif.Proofs.ArchiveDb
import Verif.Proofs.SameAnswers
import Verif.Props.Archive
import Verif.Model.OpenFile
import Verif.Spec.OpenFile
import Verif.Proofs.OpenFile
import Verif.Props.OpenFile
import Verif.Model.PredicateMemory
import Verif.Spec.PredicateMemory
import Verif.Proofs.PredicateMemory
import Verif.Proofs.PredicateBuild
import Verif.Props.PredicateMemory
import Verif.Model.Concurrent
import Verif.Spec.Concurrent
import Verif.Proofs.Concurrent
import Verif.Proofs.ConcurrentRun
import Verif.Props.Concurrent
import Verif.Model.Runtime
import Verif.Spec.Runtime
import Verif.Proofs.Runtime
import Verif.Proofs.RuntimeThreads
import Verif.Props.Runtime
import Verif.Model.LispDb
import Verif.Spec.LispDb
import Verif.Proofs.LispIds
import Verif.Proofs.LispDb
import Verif.Props.LispDb
import Verif.Model.NameTable
import Verif.Spec.NameTable
import Verif.Proofs.NameTable
import Verif.Props.NameTable
import Verif.Model.Collect
import Verif.Spec.Collect
import Verif.Proofs.Collect
import Verif.Props.Collect
import Verif.Proofs.LispQuery
import Verif.Props.LispQuery
import Verif.Model.TypeString
import Verif.Spec.TypeString
import Verif.Proofs.TypeString
import Verif.Props.TypeString
import Verif.Model.Instrument
import Verif.Spec.Instrument
import Verif.Proofs.InstrumentTypes
import Verif.Proofs.Instrument
import Verif.Proofs.InstrumentRun
import Verif.Props.Instrument
import Verif.Model.LispAdd
import Verif.Spec.LispPoints
import Verif.Proofs.LispPoints
import Verif.Props.LispPoints
import Verif.Model.Statements
import Verif.Spec.Statements
import Verif.Proofs.StatementEdits
import Verif.Proofs.Statements
import Verif.Proofs.StatementRuns
import Verif.Props.Statements
import Verif.Model.Project
import Verif.Spec.Project
import Verif.Proofs.Project
import Verif.Props.Project
import Verif.Model.LispObjects
import Verif.Spec.LispObjects
import Verif.Proofs.LispObjects
import Verif.Props.LispObjects
import Verif.Model.Uninstrument
import Verif.Spec.Uninstrument
import Verif.Proofs.Uninstrument
import Verif.Props.Uninstrument
import Verif.Model.Handshake
import Verif.Spec.Handshake
import Verif.Proofs.Handshake
import Verif.Proofs.HandshakeSmooth
import Verif.Proofs.HandshakeLive
import Verif.Props.Handshake
import Verif.Model.GenText
import Verif.Spec.GenText
import Verif.Proofs.GenText
import Verif.Proofs.GenTextRead
import Verif.Proofs.GenTextSetup
import Verif.Proofs.GenTextTables
import Verif.Props.GenText
import Verif.Model.ConcurrentQuery
import Verif.Spec.ConcurrentQuery
import Verif.Proofs.ConcurrentQuery
import Verif.Proofs.ConcurrentQueryApart
import Verif.Proofs.ConcurrentQueryRace
import Verif.Proofs.ConcurrentQuerySound
import Verif.Props.ConcurrentQuery
import Verif.Model.QueryMemory
import Verif.Spec.QueryMemory
import Verif.Proofs.QueryMemoryConvert
import Verif.Proofs.QueryMemory
import Verif.Proofs.QueryMemoryPred
import Verif.Proofs.QueryMemoryRun
import Verif.Props.QueryMemory
import Verif.Model.SexpObjects
import Verif.Spec.SexpObjects
import Verif.Proofs.SexpObjects
import Verif.Props.SexpObjects
import Verif.Model.PrintPredicate
import Verif.Spec.PrintPredicate
import Verif.Proofs.PrintPredicate
import Verif.Props.PrintPredicate
import Verif.Model.VectorRace
import Verif.Spec.VectorRace
import Verif.Proofs.VectorRace
import Verif.Props.VectorRace
import Verif.Model.SetupCode
import Verif.Spec.SetupCode
import Verif.Proofs.SetupCode
import Verif.Props.SetupCode
import Verif.Model.VarSelect
import Verif.Spec.VarSelect
import Verif.Proofs.VarSelect
import Verif.Props.VarSelect
import Verif.Spec.EndToEnd
import Verif.Proofs.EndToEnd
import Verif.Proofs.EndToEndTables
import Verif.Props.EndToEnd
import Verif.Model.ValueMemory
import Verif.Spec.ValueMemory
import Verif.Proofs.ValueMemory
import Verif.Props.ValueMemory
import Verif.Proofs.ThreadCrash
import Verif.Props.ThreadCrash
import Verif.Model.LispGc
import Verif.Spec.LispGc
import Verif.Proofs.LispGc
import Verif.Props.LispGc
import Verif.Model.ReadTrace
import Verif.Spec.ReadTrace
import Verif.Proofs.ReadTrace
import Verif.Props.ReadTrace
import Verif.Spec.ArchiveCut
import Verif.Proofs.ArchiveCut
import Verif.Props.ArchiveCut
import Verif.Model.Groups
import Verif.Spec.Groups
import Verif.Proofs.GroupEdits
import Verif.Proofs.Groups
import Verif.Proofs.GroupKept
import Verif.Props.Groups
import Verif.Tests.UnitTest
import Verif.Tests.CCpp
import Verif.Spec.IndexSafety
import Verif.Proofs.IndexSafety
import Verif.Props.IndexSafety
import Verif.Model.Fork
import Verif.Spec.Fork
import Verif.Proofs.Fork
import Verif.Props.Fork
import Verif.Model.WriteFail
import Verif.Spec.WriteFail
import Verif.Proofs.WriteFail
import Verif.Props.WriteFail
import Verif.Model.OpenTimeout
import Verif.Spec.OpenTimeout
import Verif.Proofs.OpenTimeout
import Verif.Props.OpenTimeout
import Verif.Model.Signals
import Verif.Spec.Signals
import Verif.Proofs.Signals
import Verif.Props.Signals
import Verif.Model.TraceMemory
import Verif.Spec.TraceMemory
import Verif.Proofs.TraceMemory
import Verif.Props.TraceMemory
import Verif.Spec.Size
import Verif.Proofs.Size
import Verif.Props.Size
import Verif.Model.ForkThreads
import Verif.Spec.ForkThreads
import Verif.Proofs.ForkThreads
import Verif.Props.ForkThreads
import Verif.Model.AddMemory
import Verif.Spec.AddMemory
import Verif.Proofs.AddMemory
import Verif.Props.AddMemory
import Verif.Model.LispPick
import Verif.Spec.LispPick
import Verif.Proofs.LispPick
import Verif.Props.LispPick
import Verif.Spec.Documented
import Verif.Proofs.Documented
import Verif.Props.Documented
import Verif.Spec.QueryCost
import Verif.Proofs.QueryCost
import Verif.Props.QueryCost
import Verif.Model.CollectFiles
import Verif.Spec.CollectFiles
import Verif.Proofs.CollectFiles
import Verif.Props.CollectFiles
import Verif.Model.Process
import Verif.Spec.Process
import Verif.Proofs.Process
import Verif.Props.Process
import Verif.Model.Programs
import Verif.Spec.Programs
import Verif.Proofs.Programs
import Verif.Props.Programs
import Verif.Model.ProjectText
import Verif.Spec.ProjectText
import Verif.Proofs.ProjectText
import Verif.Props.ProjectText
import Verif.Model.ParallelInstrument
import Verif.Spec.ParallelInstrument
import Verif.Proofs.ProjectTold
import Verif.Proofs.ParallelInstrument
import Verif.Props.ParallelInstrument
import Verif.Proofs.ProjectThreads
import Verif.Props.ProjectThreads
import Verif.Spec.RunDatabase
import Verif.Proofs.RunDatabase
import Verif.Props.RunDatabase
import Verif.Spec.CollectRuns
import Verif.Proofs.CollectRuns
import Verif.Props.CollectRuns
import Verif.Spec.BestAnswers
import Verif.Proofs.BestAnswers
import Verif.Proofs.RunQuery
import Verif.Props.RunQuery
import Verif.Spec.ForkProject
import Verif.Proofs.ForkProject
import Verif.Props.ForkProject
import Verif.Spec.SignalProject
import Verif.Proofs.SignalProject
import Verif.Props.SignalProject
import Verif.Model.DataRace
import Verif.Spec.DataRace
import Verif.Spec.DataRaceAdd
import Verif.Proofs.DataRace
import Verif.Proofs.DataRaceQuery
import Verif.Proofs.DataRaceAsks
import Verif.Proofs.DataRaceTrail
import Verif.Proofs.DataRaceAdd
import Verif.Props.DataRace
import Verif.Model.ForeignBytes
import Verif.Model.ForeignPoints
import Verif.Spec.ForeignBytes
import Verif.Proofs.ForeignBytes
import Verif.Proofs.ForeignPoints
import Verif.Proofs.ForeignNames
import Verif.Proofs.ForeignCalls
import Verif.Props.ForeignBytes
import Verif.Model.ForeignQuery
import Verif.Proofs.ForeignPreds
import Verif.Proofs.ForeignVars
import Verif.Proofs.ForeignQuery
import Verif.Props.ForeignQuery
import Verif.Model.ForeignAdd
import Verif.Proofs.ForeignAdd
import Verif.Props.ForeignAdd
import Verif.Spec.StoredSize
import Verif.Proofs.StoredSize
import Verif.Props.StoredSize
import Verif.Spec.ForeignQuery
import Verif.Model.ForeignSession
import Verif.Spec.ForeignSession
import Verif.Proofs.ForeignSession
import Verif.Props.ForeignSession
import Verif.Spec.Floats
import Verif.Proofs.Floats
import Verif.Props.Floats
import Verif.Model.QueryFail
import Verif.Spec.QueryFail
import Verif.Proofs.QueryFail
import Verif.Props.QueryFail
import Verif.Spec.FailProject
import Verif.Proofs.FailProject
import Verif.Props.FailProject
import Verif.Model.FailThreads
import Verif.Spec.FailThreads
import Verif.Proofs.FailThreads
import Verif.Props.FailThreads
import Verif.Model.Scripts
import Verif.Spec.Scripts
import Verif.Proofs.Scripts
import Verif.Props.Scripts
import Verif.Spec.AnyRuns
import Verif.Proofs.AnyRuns
import Verif.Props.AnyRuns
import Verif.Model.FunctionNames
import Verif.Spec.FunctionNames
import Verif.Proofs.FunctionNames
import Verif.Props.FunctionNames
import Verif.Proofs.RunPrograms
import Verif.Spec.RunPrograms
import Verif.Props.RunPrograms
import Verif.Proofs.ArchiveAny
import Verif.Props.ArchiveAny
import Verif.Spec.QueryLaws
import Verif.Proofs.QueryLaws
import Verif.Props.QueryLaws
import Verif.Spec.QueryVariables
import Verif.Proofs.QueryVariables
import Verif.Props.QueryVariables
import Verif.Spec.QueryOrder
import Verif.Proofs.QueryOrder
import Verif.Props.QueryOrder
import Verif.Spec.QueryDistinct
import Verif.Proofs.QueryDistinct
import Verif.Props.QueryDistinct
import Verif.Spec.QueryRewrite
import Verif.Proofs.QueryRewrite
import Verif.Props.QueryRewrite
import Verif.Spec.RewriteSession
import Verif.Proofs.RewriteSession
import Verif.Props.RewriteSession
import Verif.Spec.QueryUnused
import Verif.Proofs.QueryUnused
import Verif.Props.QueryUnused
