import Verif.Model.Uniform
import Verif.Model.Float
import Verif.Model.Variable
import Verif.Model.Category
import Verif.Model.Axes
import Verif.Model.Hist
import Verif.Spec
import Verif.Props.UniformInt
import Verif.Props.Variable
import Verif.Props.Category
import Verif.Props.BinInterval
import Verif.Props.Axes
import Verif.Props.Fill
import Verif.Props.Value
import Verif.Props.Merge
import Verif.Props.MergeFill
import Verif.Props.Access
import Verif.Props.AxisEq
import Verif.Props.Parallel
import Verif.Props.UniformFloat
import Verif.Props.UniformFloatBins
import Verif.Props.UniformFloatExact
import Verif.Props.CyclicFloat
import Verif.Props.Display
import Verif.Model.Default
import Verif.Props.Default
import Verif.Props.AxisDisplay
import Verif.Props.Serde
import Verif.SpecContent
import Verif.Props.Content
import Verif.SpecEqual
import Verif.Props.EqualAxes
import Verif.Props.MergeTree
import Verif.Props.MergeTreeSparse
import Verif.SpecReach
import Verif.Props.Reachable
import Verif.Props.FloatSum
import Verif.Model.FloatConv
import Verif.Props.FloatValue
import Verif.Props.Checked
import Verif.Props.FloatVar
import Verif.Model.Order
import Verif.Props.Order
import Verif.SpecProject
import Verif.Props.Project
import Verif.Model.Macros
import Verif.Props.Macros
import Verif.Examples.UniformInt
import Verif.Examples.Fill
import Verif.Examples.Access
import Verif.Examples.Merge
import Verif.Examples.Variable
import Verif.Examples.Axes
import Verif.Examples.Content
import Verif.Examples.Float
import Verif.Examples.Value
import Verif.Examples.Rest
import Verif.SpecProfile
import Verif.Props.Profile
import Verif.Props.ProfileHist
import Verif.Props.ProfileIter
import Verif.Examples.Profile
import Verif.Examples.ProfileIter
import Verif.SpecHalf
import Verif.Props.HalfFill
import Verif.Examples.HalfFill
import Verif.SpecRead
import Verif.Props.Read
import Verif.Examples.Read
import Verif.Model.Hash
import Verif.SpecHash
import Verif.Props.Hash
import Verif.Examples.Hash
import Verif.Model.Iter
import Verif.SpecIter
import Verif.Props.Iter
import Verif.Examples.Iter
import Verif.SpecDisplay
import Verif.Props.DisplayExact
import Verif.Examples.Display
import Verif.SpecRelease
import Verif.Props.Release
import Verif.Examples.Release
import Verif.Model.ErrorText
import Verif.Props.Labels
import Verif.Examples.Labels
import Verif.SpecProg
import Verif.Props.Prog
import Verif.Props.ProgNum
import Verif.Examples.Prog
import Verif.Props.OrderFloat
import Verif.Examples.OrderFloat
import Verif.Conformance.Uniform
import Verif.Conformance.Axes
import Verif.Conformance.Hist
import Verif.Conformance.Value
import Verif.Model.FloatSqrt
import Verif.Lemmas.FloatSqrt
import Verif.SpecRoot
import Verif.Props.FloatSqrt
import Verif.Examples.FloatSqrt
import Verif.Model.Wrapping
import Verif.Props.Wrap
import Verif.Examples.Wrap
import Verif.Conformance.Docs
import Verif.Props.FloatExact
import Verif.Examples.FloatExact
import Verif.Props.IntMean
import Verif.Examples.IntMean
import Verif.Props.FloatGrid
import Verif.Examples.FloatGrid
import Verif.Props.CyclicNear
import Verif.Examples.CyclicNear
import Verif.Props.OrderWhich
import Verif.Props.Near
import Verif.Props.NearStep
import Verif.Examples.Near
import Verif.Props.BadWeights
import Verif.Examples.BadWeights
import Verif.Props.SparseFill
import Verif.Props.WrapOps
import Verif.Examples.SparseFill
import Verif.Examples.WrapOps
import Verif.Model.Reduce
import Verif.Props.Reduce
import Verif.Examples.Reduce
import Verif.SpecHasher
import Verif.Props.Hasher
import Verif.Examples.Hasher
import Verif.SpecRebin
import Verif.Props.Rebin
import Verif.Props.RebinAxes
import Verif.Examples.Rebin
import Verif.Props.RebinCyclic
import Verif.Examples.RebinCyclic
import Verif.Props.PlanSparse
import Verif.Examples.PlanSparse
import Verif.Props.DivisionWrap
import Verif.Examples.DivisionWrap
import Verif.Props.Interchange
import Verif.Examples.Interchange
import Verif.SpecRescale
import Verif.Props.Rescale
import Verif.Examples.Rescale
import Verif.SpecScale
import Verif.Props.Scale
import Verif.Props.ScaleFill
import Verif.Examples.Scale
import Verif.Props.CyclicStep
import Verif.Examples.CyclicStep
import Verif.Props.AccessSparse
import Verif.Examples.AccessSparse
import Verif.Props.LabelsInt
import Verif.Examples.LabelsInt
import Verif.Props.Ratio
import Verif.Examples.Ratio
import Verif.SpecArith
import Verif.Props.Arith
import Verif.Props.Division
import Verif.Examples.Arith
import Verif.Examples.Division
import Verif.Props.NewValue
import Verif.Examples.NewValue
import Verif.SpecStats
import Verif.Props.Stats
import Verif.Props.StatsFloat
import Verif.Examples.Stats
import Verif.Examples.StatsFloat
import Verif.SpecBatch
import Verif.Props.Batch
import Verif.Props.BatchMean
import Verif.Examples.Batch
import Verif.SpecCheckpoint
import Verif.Props.Checkpoint
import Verif.Examples.Checkpoint
import Verif.SpecThreads
import Verif.Props.Threads
import Verif.Props.ThreadsValue
import Verif.Examples.Threads
import Verif.Model.FloatText
import Verif.SpecText
import Verif.Props.FloatText
import Verif.Props.FloatTextMore
import Verif.Props.FloatTextPrec
import Verif.Examples.FloatText
import Verif.Props.Snapshots
import Verif.Examples.Snapshots
import Verif.Model.FloatTextExp
import Verif.Props.FloatTextExp
import Verif.Examples.FloatTextExp
import Verif.SpecGroup
import Verif.Props.Group
import Verif.Examples.Group
import Verif.Model.Debug
import Verif.SpecDebug
import Verif.Props.Debug
import Verif.Props.DebugEq
import Verif.Examples.Debug
import Verif.SpecReorder
import Verif.Props.Reorder
import Verif.Props.ReorderMore
import Verif.Examples.Reorder
import Verif.SpecWithin
import Verif.Props.Within
import Verif.Examples.Within
import Verif.Props.IntWMean
import Verif.Examples.IntWMean
import Verif.SpecCyclic
import Verif.Props.Cyclic
import Verif.Examples.Cyclic
import Verif.SpecMirror
import Verif.Props.Mirror
import Verif.Examples.Mirror
import Verif.Props.AnyAxis
import Verif.Examples.AnyAxis
import Verif.Props.SparseMore
import Verif.Examples.SparseMore
import Verif.Props.Refill
import Verif.Examples.Refill
import Verif.SpecLayout
import Verif.Props.DebugLayout
import Verif.Examples.DebugLayout
import Verif.Props.Between
import Verif.Examples.Between
import Verif.Props.Affine
import Verif.Examples.Affine
import Verif.SpecBlame
import Verif.Props.Blame
import Verif.Props.BlameNum
import Verif.Examples.Blame
import Verif.SpecStability
import Verif.Props.Stability
import Verif.Props.StabilityMore
import Verif.Examples.Stability
import Verif.Examples.StabilityMore
import Verif.Props.ReduceFill
import Verif.Examples.ReduceFill
import Verif.Props.ReduceWeights
import Verif.Examples.ReduceWeights
import Verif.Props.Bounds
import Verif.Examples.Bounds
import Verif.SpecMore
import Verif.Props.More
import Verif.Examples.More
import Verif.SpecGrow
import Verif.Props.Grow
import Verif.Examples.Grow
