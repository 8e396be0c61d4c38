import Verif.Conformance
import Verif.KernelRfl
import Verif.Model.Dest
import Verif.Model.Eval
import Verif.Model.Flat
import Verif.Model.Funcs
import Verif.Model.GoStr
import Verif.Model.Jobs
import Verif.Model.JoinCache
import Verif.Model.Kept
import Verif.Model.Memory
import Verif.Model.NilContext
import Verif.Model.Position
import Verif.Model.Properties
import Verif.Model.Refused
import Verif.Model.Scan
import Verif.Model.SharedContext
import Verif.Model.Sqlb
import Verif.Model.Syntax
import Verif.Model.Taken
import Verif.Model.Threads
import Verif.Model.Types
import Verif.Model.UsedFlags
import Verif.Model.Util
import Verif.Model.Val
import Verif.Proofs.Again
import Verif.Proofs.AnyCalls
import Verif.Proofs.AnyCtx
import Verif.Proofs.Api
import Verif.Proofs.Between
import Verif.Proofs.Blame
import Verif.Proofs.BuiltAgain
import Verif.Proofs.Calls
import Verif.Proofs.CheckWF
import Verif.Proofs.CommitRel
import Verif.Proofs.Cond
import Verif.Proofs.CutAtNul
import Verif.Proofs.Debug
import Verif.Proofs.Denote
import Verif.Proofs.Deps
import Verif.Proofs.Dest
import Verif.Proofs.Dfs
import Verif.Proofs.Digits
import Verif.Proofs.DocText
import Verif.Proofs.Effects
import Verif.Proofs.Emitted
import Verif.Proofs.EncodeText
import Verif.Proofs.Ev
import Verif.Proofs.Finish
import Verif.Proofs.Flat
import Verif.Proofs.Footprint
import Verif.Proofs.Fuel
import Verif.Proofs.GoEq
import Verif.Proofs.GoEqual
import Verif.Proofs.Grown
import Verif.Proofs.Halting
import Verif.Proofs.HeapSim
import Verif.Proofs.History
import Verif.Proofs.Interpolate
import Verif.Proofs.InterpolateStyles
import Verif.Proofs.Jobs
import Verif.Proofs.JoinEv
import Verif.Proofs.Kept
import Verif.Proofs.Lexer
import Verif.Proofs.ListClause
import Verif.Proofs.ListSem
import Verif.Proofs.Literals
import Verif.Proofs.Lockstep
import Verif.Proofs.Loops
import Verif.Proofs.Malformed
import Verif.Proofs.Marks
import Verif.Proofs.Meaning
import Verif.Proofs.Memory
import Verif.Proofs.Mention
import Verif.Proofs.Needed
import Verif.Proofs.NilContext
import Verif.Proofs.NoHash
import Verif.Proofs.NoPanic
import Verif.Proofs.OpenArgs
import Verif.Proofs.Owned
import Verif.Proofs.ParseToks
import Verif.Proofs.Passed
import Verif.Proofs.Plain
import Verif.Proofs.Pointers
import Verif.Proofs.PositionErase
import Verif.Proofs.PositionParse
import Verif.Proofs.PositionPlace
import Verif.Proofs.PositionTokens
import Verif.Proofs.QbSim
import Verif.Proofs.Query
import Verif.Proofs.QueryApi
import Verif.Proofs.QueryCalls
import Verif.Proofs.QueryRel
import Verif.Proofs.QuerySim
import Verif.Proofs.QueryTidy
import Verif.Proofs.Reader
import Verif.Proofs.ReaderArgs
import Verif.Proofs.ReaderLoops
import Verif.Proofs.Refused
import Verif.Proofs.Reorder
import Verif.Proofs.RoundTrip
import Verif.Proofs.SameCalls
import Verif.Proofs.Scan
import Verif.Proofs.Schedules
import Verif.Proofs.Scope
import Verif.Proofs.Segments
import Verif.Proofs.SemRel
import Verif.Proofs.SharedContext
import Verif.Proofs.Short
import Verif.Proofs.Sim
import Verif.Proofs.SimAt
import Verif.Proofs.Store
import Verif.Proofs.Styles
import Verif.Proofs.StylesCalls
import Verif.Proofs.StylesRun
import Verif.Proofs.Swap
import Verif.Proofs.SwapRun
import Verif.Proofs.Tables
import Verif.Proofs.Taken
import Verif.Proofs.Threads
import Verif.Proofs.Tidy
import Verif.Proofs.Trim
import Verif.Proofs.Under
import Verif.Proofs.Usage
import Verif.Proofs.UsedFlags
import Verif.Props.Again
import Verif.Props.AnyCalls
import Verif.Props.Args
import Verif.Props.Blame
import Verif.Props.Build
import Verif.Props.BuiltAgain
import Verif.Props.Calls
import Verif.Props.Columns
import Verif.Props.Context
import Verif.Props.Debug
import Verif.Props.Deps
import Verif.Props.Derived
import Verif.Props.Dest
import Verif.Props.Emitted
import Verif.Props.Finish
import Verif.Props.Flat
import Verif.Props.Funcs
import Verif.Props.Halting
import Verif.Props.Interpolate
import Verif.Props.InterpolateStyles
import Verif.Props.Jobs
import Verif.Props.Join
import Verif.Props.JoinCache
import Verif.Props.Kept
import Verif.Props.Literals
import Verif.Props.Marks
import Verif.Props.Memory
import Verif.Props.Names
import Verif.Props.NilContext
import Verif.Props.NulBuild
import Verif.Props.Options
import Verif.Props.OwnContext
import Verif.Props.Panic
import Verif.Props.Passed
import Verif.Props.Position
import Verif.Props.Properties
import Verif.Props.Pure
import Verif.Props.Query
import Verif.Props.QueryArgs
import Verif.Props.QueryDoc
import Verif.Props.Reader
import Verif.Props.Refused
import Verif.Props.Scan
import Verif.Props.SharedContext
import Verif.Props.Store
import Verif.Props.Styles
import Verif.Props.Subqueries
import Verif.Props.Swap
import Verif.Props.Syntax
import Verif.Props.Taken
import Verif.Props.Threads
import Verif.Props.Usage
import Verif.Props.UsedFlags
import Verif.Props.Util
import Verif.Props.Values
import Verif.Props.Where
import Verif.Spec.Again
import Verif.Spec.AnyCalls
import Verif.Spec.Blame
import Verif.Spec.BuiltAgain
import Verif.Spec.Complete
import Verif.Spec.Cond
import Verif.Spec.Debug
import Verif.Spec.Denote
import Verif.Spec.Dest
import Verif.Spec.Emitted
import Verif.Spec.Finish
import Verif.Spec.Flat
import Verif.Spec.Funcs
import Verif.Spec.GoEqual
import Verif.Spec.Halting
import Verif.Spec.History
import Verif.Spec.Interpolate
import Verif.Spec.Jobs
import Verif.Spec.JoinCache
import Verif.Spec.Kept
import Verif.Spec.Literals
import Verif.Spec.Memory
import Verif.Spec.NilContext
import Verif.Spec.Outcome
import Verif.Spec.Passed
import Verif.Spec.Position
import Verif.Spec.Query
import Verif.Spec.QueryDoc
import Verif.Spec.QueryShape
import Verif.Spec.QueryTidy
import Verif.Spec.Reader
import Verif.Spec.Refs
import Verif.Spec.Segments
import Verif.Spec.Shape
import Verif.Spec.SharedContext
import Verif.Spec.Sqlb
import Verif.Spec.Styles
import Verif.Spec.Swap
import Verif.Spec.Taken
import Verif.Spec.Template
import Verif.Spec.Threads
import Verif.Spec.Tidy
import Verif.Spec.UsedFlags
import Verif.Spec.Util
import Verif.Spec.Written
