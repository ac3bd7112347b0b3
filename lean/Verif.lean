import Verif.Model.Acceptance
import Verif.Model.Adjust
import Verif.Model.Aggregate
import Verif.Model.Bntr
import Verif.Model.BntrNp
import Verif.Model.BuiltinComponents
import Verif.Model.BuiltinRun
import Verif.Model.Components
import Verif.Model.ConjugateGradient
import Verif.Model.Exploration
import Verif.Model.Fallback
import Verif.Model.Filter
import Verif.Model.FitModels
import Verif.Model.Gqtpar
import Verif.Model.History
import Verif.Model.Infinity
import Verif.Model.LinearTrsbox
import Verif.Model.Log
import Verif.Model.MainLoop
import Verif.Model.MainLoopRaise
import Verif.Model.Models
import Verif.Model.NoiseVariance
import Verif.Model.Num
import Verif.Model.Plots
import Verif.Model.Poisedness
import Verif.Model.ProcessArgs
import Verif.Model.Region
import Verif.Model.SampleSize
import Verif.Model.Samplers
import Verif.Model.SlowSolvers
import Verif.Model.Small
import Verif.Model.Subproblem
import Verif.Model.TranquiloCall
import Verif.Model.Trsbox
import Verif.Model.Visualize
import Verif.Model.Volume
import Verif.Model.WrapCriterion
import Verif.Spec.Acceptance
import Verif.Spec.Batches
import Verif.Spec.BestPoint
import Verif.Spec.Bntr
import Verif.Spec.BuiltinRun
import Verif.Spec.CallOptions
import Verif.Spec.CallUses
import Verif.Spec.Components
import Verif.Spec.Convergence
import Verif.Spec.Exploration
import Verif.Spec.Fallback
import Verif.Spec.Fit
import Verif.Spec.Gqtpar
import Verif.Spec.Gradient
import Verif.Spec.History
import Verif.Spec.MainLoop
import Verif.Spec.MainLoopRaise
import Verif.Spec.Mirror
import Verif.Spec.MirrorBuiltin
import Verif.Spec.MirrorCall
import Verif.Spec.Mix
import Verif.Spec.Models
import Verif.Spec.Nearby
import Verif.Spec.NoiseVariance
import Verif.Spec.OnlyEvaluated
import Verif.Spec.OptionBundles
import Verif.Spec.Permute
import Verif.Spec.PermuteBuiltin
import Verif.Spec.PermuteCall
import Verif.Spec.Poised
import Verif.Spec.Region
import Verif.Spec.Relocate
import Verif.Spec.RelocateBuiltin
import Verif.Spec.Reorder
import Verif.Spec.Rescale
import Verif.Spec.Rotate
import Verif.Spec.RotateBuiltin
import Verif.Spec.RunsLonger
import Verif.Spec.Samplers
import Verif.Spec.Samples
import Verif.Spec.SaneCall
import Verif.Spec.StateDocs
import Verif.Spec.Stationary
import Verif.Spec.StepReport
import Verif.Spec.StopsInTime
import Verif.Spec.Subsolver
import Verif.Lemmas.Acceptance
import Verif.Lemmas.Bntr
import Verif.Lemmas.Budget
import Verif.Lemmas.CallUses
import Verif.Lemmas.Clip
import Verif.Lemmas.Components
import Verif.Lemmas.ConjugateGradient
import Verif.Lemmas.Det
import Verif.Lemmas.Dot
import Verif.Lemmas.Filter
import Verif.Lemmas.FitCoef
import Verif.Lemmas.FitModels
import Verif.Lemmas.Gqtpar
import Verif.Lemmas.GqtparAll
import Verif.Lemmas.GqtparBracket
import Verif.Lemmas.GqtparConvex
import Verif.Lemmas.GqtparEnds
import Verif.Lemmas.GqtparExists
import Verif.Lemmas.GqtparLoop
import Verif.Lemmas.History
import Verif.Lemmas.HistoryReads
import Verif.Lemmas.InOrder
import Verif.Lemmas.LagrangeBasis
import Verif.Lemmas.LinearTrsbox
import Verif.Lemmas.Log
import Verif.Lemmas.Lstsq
import Verif.Lemmas.MainLoop
import Verif.Lemmas.MainLoopRaise
import Verif.Lemmas.Mirror
import Verif.Lemmas.MirrorBuiltin
import Verif.Lemmas.MirrorFeatures
import Verif.Lemmas.MirrorFit
import Verif.Lemmas.MirrorRun
import Verif.Lemmas.Mix
import Verif.Lemmas.Models
import Verif.Lemmas.NoRaise
import Verif.Lemmas.NoiseVariance
import Verif.Lemmas.OnlyEvaluated
import Verif.Lemmas.OptionBundles
import Verif.Lemmas.Permute
import Verif.Lemmas.PermuteBuiltin
import Verif.Lemmas.PermuteFeatures
import Verif.Lemmas.PermuteFit
import Verif.Lemmas.PermuteRun
import Verif.Lemmas.PermuteSolvers
import Verif.Lemmas.Powell
import Verif.Lemmas.Regions
import Verif.Lemmas.Relocate
import Verif.Lemmas.RelocateFit
import Verif.Lemmas.RelocateRun
import Verif.Lemmas.Reorder
import Verif.Lemmas.Rescale
import Verif.Lemmas.RescaleFit
import Verif.Lemmas.RescaleRun
import Verif.Lemmas.Rotate
import Verif.Lemmas.RotateBuiltin
import Verif.Lemmas.RotateFit
import Verif.Lemmas.RotateRun
import Verif.Lemmas.RotateSamplers
import Verif.Lemmas.RunsLonger
import Verif.Lemmas.Samplers
import Verif.Lemmas.SingularSmall
import Verif.Lemmas.Steps
import Verif.Lemmas.Trsbox
import Verif.Lemmas.TrsboxAlt
import Verif.Props.Acceptance
import Verif.Props.AcceptanceMore
import Verif.Props.AcceptedSteps
import Verif.Props.Adjust
import Verif.Props.Aggregate
import Verif.Props.AtMinimum
import Verif.Props.Batches
import Verif.Props.BestPoint
import Verif.Props.Bntr
import Verif.Props.BntrCenter
import Verif.Props.BntrNoFailure
import Verif.Props.BntrNp
import Verif.Props.BntrRadius
import Verif.Props.BntrWitness
import Verif.Props.BuiltinComponents
import Verif.Props.BuiltinFit
import Verif.Props.BuiltinRun
import Verif.Props.CallGuarantees
import Verif.Props.CallLimits
import Verif.Props.CallModelType
import Verif.Props.CallRadius
import Verif.Props.CallReturns
import Verif.Props.CallUses
import Verif.Props.CgHalf
import Verif.Props.CgTermination
import Verif.Props.Cluster
import Verif.Props.ClusterGreedy
import Verif.Props.Components
import Verif.Props.ConjugateGradient
import Verif.Props.Convergence
import Verif.Props.Cores
import Verif.Props.DefaultLeavesBounds
import Verif.Props.ExactModels
import Verif.Props.Exploration
import Verif.Props.FailingEvaluations
import Verif.Props.Fallback
import Verif.Props.FarBounds
import Verif.Props.Filter
import Verif.Props.Fit
import Verif.Props.Gqtpar
import Verif.Props.GqtparAlways
import Verif.Props.GqtparConvex
import Verif.Props.GqtparTotal
import Verif.Props.GqtparWitness
import Verif.Props.GradientTolerance
import Verif.Props.History
import Verif.Props.HistoryIndex
import Verif.Props.HistoryRefinement
import Verif.Props.Infinity
import Verif.Props.Limits
import Verif.Props.LinearTrsbox
import Verif.Props.MainLoop
import Verif.Props.MainLoopRaise
import Verif.Props.MainLoopWitness
import Verif.Props.Mirror
import Verif.Props.Mix
import Verif.Props.Models
import Verif.Props.Nearby
import Verif.Props.NearbyBuiltin
import Verif.Props.NewPoints
import Verif.Props.NoiseVariance
import Verif.Props.NoisyLimits
import Verif.Props.OnlyEvaluated
import Verif.Props.OptionBundles
import Verif.Props.Permute
import Verif.Props.Plots
import Verif.Props.PoisedModels
import Verif.Props.PoisedRun
import Verif.Props.Poisedness
import Verif.Props.PoisednessThree
import Verif.Props.Powell
import Verif.Props.ProcessArgs
import Verif.Props.RadiusRule
import Verif.Props.Region
import Verif.Props.Relocate
import Verif.Props.Reorder
import Verif.Props.Rescale
import Verif.Props.RhoNoise
import Verif.Props.Rotate
import Verif.Props.RotateFarBounds
import Verif.Props.RunCounts
import Verif.Props.RunRadius
import Verif.Props.RunsLonger
import Verif.Props.SampleOrder
import Verif.Props.SampleSize
import Verif.Props.Samplers
import Verif.Props.SamplersMore
import Verif.Props.SingularEstimate
import Verif.Props.SlowSolvers
import Verif.Props.SmallFunctions
import Verif.Props.StateDocs
import Verif.Props.StateEvals
import Verif.Props.Stationary
import Verif.Props.StationaryBuiltin
import Verif.Props.StepReport
import Verif.Props.StopsInTime
import Verif.Props.Subproblem
import Verif.Props.TranquiloCall
import Verif.Props.Trsbox
import Verif.Props.Visualize
import Verif.Props.Volume
import Verif.Props.WrapCriterion
import Verif.Props.ZeroStart
