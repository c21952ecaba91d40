import Verif.Model.Algorithms
import Verif.Model.Alias
import Verif.Model.Clone
import Verif.Model.Composite
import Verif.Model.Derived
import Verif.Model.Describe
import Verif.Model.F
import Verif.Model.IntKernels
import Verif.Model.Iterate
import Verif.Model.KernelMatrix
import Verif.Model.KernelSet
import Verif.Model.Kernels
import Verif.Model.Labels
import Verif.Model.Missing
import Verif.Model.NpIndex
import Verif.Model.OpWarnings
import Verif.Model.Operations
import Verif.Model.Overflow
import Verif.Model.OverflowAlign
import Verif.Model.OverflowComposite
import Verif.Model.OverflowNorm
import Verif.Model.OverflowRanking
import Verif.Model.Package
import Verif.Model.Params
import Verif.Model.Py
import Verif.Model.Ranking
import Verif.Model.RoundAlign
import Verif.Model.RoundComposite
import Verif.Model.Rounding
import Verif.Model.Sampling
import Verif.Model.Scale
import Verif.Model.Session
import Verif.Model.Slice
import Verif.Model.Store
import Verif.Model.Tags
import Verif.Model.Threads
import Verif.Model.Utils
import Verif.Model.Warnings
import Verif.Spec.Algorithms
import Verif.Spec.Alias
import Verif.Spec.Alternatives
import Verif.Spec.Batch
import Verif.Spec.BinaryFloat
import Verif.Spec.Broken
import Verif.Spec.Choice
import Verif.Spec.Clone
import Verif.Spec.Coerce
import Verif.Spec.Composite
import Verif.Spec.Demo
import Verif.Spec.DemoReal
import Verif.Spec.DemoSet
import Verif.Spec.Derived
import Verif.Spec.Describe
import Verif.Spec.Distance
import Verif.Spec.Distinct
import Verif.Spec.Families
import Verif.Spec.Feature
import Verif.Spec.History
import Verif.Spec.Index
import Verif.Spec.IntKernels
import Verif.Spec.Invariance
import Verif.Spec.Iterate
import Verif.Spec.KernelMatrix
import Verif.Spec.KernelSet
import Verif.Spec.Kernels
import Verif.Spec.Labels
import Verif.Spec.Matrix
import Verif.Spec.Missing
import Verif.Spec.NpIndex
import Verif.Spec.OpWarnings
import Verif.Spec.Operations
import Verif.Spec.Overflow
import Verif.Spec.OverflowAlign
import Verif.Spec.OverflowComposite
import Verif.Spec.OverflowNorm
import Verif.Spec.OverflowRanking
import Verif.Spec.Package
import Verif.Spec.Params
import Verif.Spec.PosDef
import Verif.Spec.Ranking
import Verif.Spec.Resample
import Verif.Spec.RoundAlign
import Verif.Spec.RoundComposite
import Verif.Spec.Rounding
import Verif.Spec.Sampling
import Verif.Spec.Session
import Verif.Spec.Store
import Verif.Spec.Tags
import Verif.Spec.Threads
import Verif.Spec.Warnings
import Verif.Lemmas.Access
import Verif.Lemmas.Algorithms
import Verif.Lemmas.Alias
import Verif.Lemmas.Alternatives
import Verif.Lemmas.Attrs
import Verif.Lemmas.Batch
import Verif.Lemmas.BinaryFloat
import Verif.Lemmas.Broken
import Verif.Lemmas.BrokenComposite
import Verif.Lemmas.Choice
import Verif.Lemmas.Clean
import Verif.Lemmas.Clock
import Verif.Lemmas.Clone
import Verif.Lemmas.Coerce
import Verif.Lemmas.Composite
import Verif.Lemmas.Cost
import Verif.Lemmas.Count
import Verif.Lemmas.Custom
import Verif.Lemmas.Defaults
import Verif.Lemmas.Derived
import Verif.Lemmas.Describe
import Verif.Lemmas.Distinct
import Verif.Lemmas.FailedFit
import Verif.Lemmas.Families
import Verif.Lemmas.FaultFreeOn
import Verif.Lemmas.Feature
import Verif.Lemmas.Fill
import Verif.Lemmas.Fits
import Verif.Lemmas.FloatEnv
import Verif.Lemmas.Fresh
import Verif.Lemmas.Gives
import Verif.Lemmas.History
import Verif.Lemmas.Index
import Verif.Lemmas.Inputs
import Verif.Lemmas.IntKernels
import Verif.Lemmas.Invariance
import Verif.Lemmas.Iterate
import Verif.Lemmas.KMExec
import Verif.Lemmas.KMExt
import Verif.Lemmas.KMFaultFree
import Verif.Lemmas.KMGood
import Verif.Lemmas.KMInv
import Verif.Lemmas.KernelPSD
import Verif.Lemmas.KernelSet
import Verif.Lemmas.Kernels
import Verif.Lemmas.Keyed
import Verif.Lemmas.Labels
import Verif.Lemmas.Leaf
import Verif.Lemmas.Leftover
import Verif.Lemmas.Lipschitz
import Verif.Lemmas.Missing
import Verif.Lemmas.MissingKM
import Verif.Lemmas.NpIndex
import Verif.Lemmas.OpWarnings
import Verif.Lemmas.Operations
import Verif.Lemmas.Operations2
import Verif.Lemmas.OptMachine
import Verif.Lemmas.OptMachineOk
import Verif.Lemmas.Overflow
import Verif.Lemmas.OverflowAlign
import Verif.Lemmas.OverflowComposite
import Verif.Lemmas.OverflowKM
import Verif.Lemmas.OverflowNorm
import Verif.Lemmas.OverflowRanking
import Verif.Lemmas.PSD
import Verif.Lemmas.Package
import Verif.Lemmas.PackageStates
import Verif.Lemmas.Params
import Verif.Lemmas.Pipeline
import Verif.Lemmas.PosDef
import Verif.Lemmas.PyM
import Verif.Lemmas.Ranking
import Verif.Lemmas.Rely
import Verif.Lemmas.Resample
import Verif.Lemmas.RoundAlign
import Verif.Lemmas.RoundComposite
import Verif.Lemmas.RoundCompositeErr
import Verif.Lemmas.RoundExact
import Verif.Lemmas.RoundKernels
import Verif.Lemmas.RoundOps
import Verif.Lemmas.RoundPipeline
import Verif.Lemmas.RoundRank
import Verif.Lemmas.Rounding
import Verif.Lemmas.Sampling
import Verif.Lemmas.Scale
import Verif.Lemmas.Separate
import Verif.Lemmas.Session
import Verif.Lemmas.SessionComp
import Verif.Lemmas.SessionHeap
import Verif.Lemmas.SessionRun
import Verif.Lemmas.SessionSets
import Verif.Lemmas.Shape
import Verif.Lemmas.Sparse
import Verif.Lemmas.Store
import Verif.Lemmas.Tags
import Verif.Lemmas.Threads
import Verif.Lemmas.ThreadsKM
import Verif.Lemmas.ThreadsOps
import Verif.Lemmas.ThreadsRun
import Verif.Lemmas.ThreadsSettled
import Verif.Lemmas.Unattached
import Verif.Lemmas.Warning
import Verif.Lemmas.Warnings
import Verif.Lemmas.World
import Verif.Props.Access
import Verif.Props.Alias
import Verif.Props.Alternatives
import Verif.Props.Attach
import Verif.Props.Batch
import Verif.Props.Broken
import Verif.Props.BrokenComposite
import Verif.Props.Choice
import Verif.Props.Clone
import Verif.Props.Composite
import Verif.Props.Cost
import Verif.Props.Count
import Verif.Props.Custom
import Verif.Props.Defaults
import Verif.Props.Derived
import Verif.Props.Describe
import Verif.Props.Distinct
import Verif.Props.FailedFit
import Verif.Props.Families
import Verif.Props.Feature
import Verif.Props.FullMatrix
import Verif.Props.Inputs
import Verif.Props.IntKernels
import Verif.Props.Invariance
import Verif.Props.Iterate
import Verif.Props.KernelSet
import Verif.Props.Kernels
import Verif.Props.Labels
import Verif.Props.Leftover
import Verif.Props.Lipschitz
import Verif.Props.Machine
import Verif.Props.Missing
import Verif.Props.NpIndex
import Verif.Props.OpWarnings
import Verif.Props.Operations
import Verif.Props.OptMachine
import Verif.Props.Overflow
import Verif.Props.OverflowAlign
import Verif.Props.OverflowComposite
import Verif.Props.OverflowNorm
import Verif.Props.OverflowRanking
import Verif.Props.Package
import Verif.Props.Params
import Verif.Props.Pipeline
import Verif.Props.Ranking
import Verif.Props.RankingErrors
import Verif.Props.Resample
import Verif.Props.RoundAlign
import Verif.Props.RoundComposite
import Verif.Props.RoundPsd
import Verif.Props.Rounding
import Verif.Props.Sampling
import Verif.Props.Separate
import Verif.Props.Session
import Verif.Props.SessionCost
import Verif.Props.SessionHeap
import Verif.Props.SessionSets
import Verif.Props.Storage
import Verif.Props.Store
import Verif.Props.Tags
import Verif.Props.Threads
import Verif.Props.Utils
import Verif.Props.Warning
import Verif.Props.Warnings
