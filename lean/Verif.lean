import Verif.Conformance.Upstream
import Verif.KernelRfl
import Verif.Lemmas.Amid
import Verif.Lemmas.AmidSum
import Verif.Lemmas.BFS
import Verif.Lemmas.Basic
import Verif.Lemmas.CSC
import Verif.Lemmas.CSR
import Verif.Lemmas.CSR2
import Verif.Lemmas.CSRExt
import Verif.Lemmas.CSRIter
import Verif.Lemmas.Caller
import Verif.Lemmas.CallerReduce
import Verif.Lemmas.CancelCompare
import Verif.Lemmas.Cancelled
import Verif.Lemmas.Clear
import Verif.Lemmas.Conc
import Verif.Lemmas.Count
import Verif.Lemmas.DVec
import Verif.Lemmas.Dense
import Verif.Lemmas.Dims
import Verif.Lemmas.DimsConc
import Verif.Lemmas.DimsOps
import Verif.Lemmas.EMul
import Verif.Lemmas.EWise
import Verif.Lemmas.Ext
import Verif.Lemmas.Float
import Verif.Lemmas.FloatLimits
import Verif.Lemmas.FloatOps
import Verif.Lemmas.Frame
import Verif.Lemmas.Fused
import Verif.Lemmas.History
import Verif.Lemmas.InPlace
import Verif.Lemmas.InPlaceEnds
import Verif.Lemmas.IntoSVec
import Verif.Lemmas.Keeps
import Verif.Lemmas.LateIter
import Verif.Lemmas.LiveIter
import Verif.Lemmas.Locks
import Verif.Lemmas.Locks2
import Verif.Lemmas.Look
import Verif.Lemmas.LookCells
import Verif.Lemmas.LookCount
import Verif.Lemmas.MapBy
import Verif.Lemmas.MapByEnds
import Verif.Lemmas.MapDrive
import Verif.Lemmas.MapZero
import Verif.Lemmas.Mat
import Verif.Lemmas.Meth
import Verif.Lemmas.Mul
import Verif.Lemmas.Mutex
import Verif.Lemmas.Mutex2
import Verif.Lemmas.Mutex3
import Verif.Lemmas.MutexArith
import Verif.Lemmas.MutexCSC
import Verif.Lemmas.MutexTable
import Verif.Lemmas.Ops
import Verif.Lemmas.Ops2
import Verif.Lemmas.Ops3
import Verif.Lemmas.Ordered
import Verif.Lemmas.Pointer
import Verif.Lemmas.Power
import Verif.Lemmas.Quit
import Verif.Lemmas.Race
import Verif.Lemmas.Race2
import Verif.Lemmas.Ragged
import Verif.Lemmas.Readers
import Verif.Lemmas.Recover
import Verif.Lemmas.Recover2
import Verif.Lemmas.Reduce
import Verif.Lemmas.Reduce2
import Verif.Lemmas.Reduced
import Verif.Lemmas.Reenter
import Verif.Lemmas.Registry
import Verif.Lemmas.Rel
import Verif.Lemmas.Replay
import Verif.Lemmas.ReplayOps
import Verif.Lemmas.Retry
import Verif.Lemmas.RetryNeg
import Verif.Lemmas.RowEnd
import Verif.Lemmas.Rref
import Verif.Lemmas.Rune
import Verif.Lemmas.SVec
import Verif.Lemmas.SVecEntries
import Verif.Lemmas.SVecWeakOps
import Verif.Lemmas.Safe
import Verif.Lemmas.Scatter
import Verif.Lemmas.Sched
import Verif.Lemmas.Sched2
import Verif.Lemmas.SearchCut
import Verif.Lemmas.Share
import Verif.Lemmas.Share2
import Verif.Lemmas.Share3
import Verif.Lemmas.Share4
import Verif.Lemmas.Share5
import Verif.Lemmas.ShareRow
import Verif.Lemmas.Size
import Verif.Lemmas.Solve
import Verif.Lemmas.Sort
import Verif.Lemmas.Steer
import Verif.Lemmas.Steps
import Verif.Lemmas.Strassen
import Verif.Lemmas.StrassenPanic
import Verif.Lemmas.StrassenRing
import Verif.Lemmas.World
import Verif.Model.Amid
import Verif.Model.BFS
import Verif.Model.Basic
import Verif.Model.CSC
import Verif.Model.CSR
import Verif.Model.Caller
import Verif.Model.CallerReduce
import Verif.Model.Context
import Verif.Model.DVec
import Verif.Model.Dense
import Verif.Model.Float
import Verif.Model.Fused
import Verif.Model.Locks
import Verif.Model.MapBy
import Verif.Model.Mat
import Verif.Model.MathPkg
import Verif.Model.Mutex
import Verif.Model.Nil
import Verif.Model.NilPtr
import Verif.Model.OpPkg
import Verif.Model.Operators
import Verif.Model.Recover
import Verif.Model.Reduce
import Verif.Model.Reduced
import Verif.Model.Reenter
import Verif.Model.Registry
import Verif.Model.Rune
import Verif.Model.SVec
import Verif.Model.Share
import Verif.Model.Signed
import Verif.Model.Steer
import Verif.Model.Steps
import Verif.Model.Strassen
import Verif.Model.World
import Verif.Props.Access
import Verif.Props.AddSub
import Verif.Props.AliasIff
import Verif.Props.Amid
import Verif.Props.AmidSum
import Verif.Props.AnyMask
import Verif.Props.Arith
import Verif.Props.BFS
import Verif.Props.Basics
import Verif.Props.Caller
import Verif.Props.CallerReduce
import Verif.Props.CancelCompare
import Verif.Props.Cancelled
import Verif.Props.CancelledSparse
import Verif.Props.Canonical
import Verif.Props.Clear
import Verif.Props.Conc
import Verif.Props.Dims
import Verif.Props.Distance
import Verif.Props.EWise
import Verif.Props.EWiseIff
import Verif.Props.Effects
import Verif.Props.EqualRel
import Verif.Props.Exact
import Verif.Props.Expr
import Verif.Props.ExprAny
import Verif.Props.Float
import Verif.Props.FloatLimits
import Verif.Props.FloatOrder
import Verif.Props.FloatReduce
import Verif.Props.FloatScalar
import Verif.Props.FloatSparse
import Verif.Props.FloatSum
import Verif.Props.FormatsAny
import Verif.Props.Fused
import Verif.Props.Handout
import Verif.Props.Iff
import Verif.Props.InPlace
import Verif.Props.InPlaceZero
import Verif.Props.IntoSVec
import Verif.Props.LiveIter
import Verif.Props.Local
import Verif.Props.Locks
import Verif.Props.Look
import Verif.Props.MapBy
import Verif.Props.MapZero
import Verif.Props.MaskKeeps
import Verif.Props.Masks
import Verif.Props.Multiply
import Verif.Props.Mutex
import Verif.Props.MutexArith
import Verif.Props.MutexTable
import Verif.Props.Nil
import Verif.Props.NilPtr
import Verif.Props.Pointer
import Verif.Props.Power
import Verif.Props.Quit
import Verif.Props.Race
import Verif.Props.Ragged
import Verif.Props.Readers
import Verif.Props.Recover
import Verif.Props.Reduce
import Verif.Props.ReduceAny
import Verif.Props.Reduced
import Verif.Props.Reenter
import Verif.Props.Replay
import Verif.Props.Rune
import Verif.Props.SearchCut
import Verif.Props.Share
import Verif.Props.Signed
import Verif.Props.Size
import Verif.Props.Solve
import Verif.Props.Sort
import Verif.Props.SortCanon
import Verif.Props.SparseArith
import Verif.Props.SparseEnum
import Verif.Props.SparseVec
import Verif.Props.SparseVecIff
import Verif.Props.Steer
import Verif.Props.Storage
import Verif.Props.Strassen
import Verif.Props.Symm
import Verif.Props.SymmExact
import Verif.Props.Total
import Verif.Spec
import Verif.SpecCaller
import Verif.SpecCallerReduce
import Verif.SpecClear
import Verif.SpecExpr
import Verif.SpecExprAny
import Verif.SpecFloat
import Verif.SpecGraph
import Verif.SpecLin
import Verif.SpecLive
import Verif.SpecLocal
import Verif.SpecLocks
import Verif.SpecLook
import Verif.SpecMapBy
import Verif.SpecMat
import Verif.SpecMutex
import Verif.SpecOps
import Verif.SpecRace
import Verif.SpecRecover
import Verif.SpecReplay
import Verif.SpecRetry
import Verif.SpecShare
import Verif.SpecSteer
import Verif.SpecStrassen
import Verif.SpecTable
