import Verif.Basic.Csr
import Verif.Basic.Err
import Verif.Basic.MapE
import Verif.Basic.Mat
import Verif.Basic.Num
import Verif.Basic.Par
import Verif.Basic.Quantile
import Verif.Lemmas.Ale
import Verif.Lemmas.AleCurve
import Verif.Lemmas.Csr
import Verif.Lemmas.Kernel
import Verif.Lemmas.Moran
import Verif.Lemmas.PermMoments
import Verif.Lemmas.Rel
import Verif.Lemmas.Shrink
import Verif.Lemmas.Stacking
import Verif.Lemmas.WeightMatrix
import Verif.Lemmas.WeightModel
import Verif.Model.Ale
import Verif.Model.AlePlot
import Verif.Model.AleScripts
import Verif.Model.AleTruth
import Verif.Model.Compound
import Verif.Model.Constructor
import Verif.Model.CurveGrids
import Verif.Model.Distance
import Verif.Model.ExampleScripts
import Verif.Model.Experiments
import Verif.Model.Figures
import Verif.Model.Floats
import Verif.Model.GreatCircle
import Verif.Model.HeldOut
import Verif.Model.Importance
import Verif.Model.ImportanceLocal
import Verif.Model.Inputs
import Verif.Model.Kernel
import Verif.Model.LocalIce
import Verif.Model.LocalPd
import Verif.Model.Missing
import Verif.Model.Moran
import Verif.Model.MoranDiagram
import Verif.Model.Neighbour
import Verif.Model.NumbaImpl
import Verif.Model.NumbaRidge
import Verif.Model.Objects
import Verif.Model.PairwiseSum
import Verif.Model.Parallel
import Verif.Model.Randomised
import Verif.Model.RateCounts
import Verif.Model.Rescale
import Verif.Model.Rounded
import Verif.Model.RoundedAle
import Verif.Model.RoundedGlobalAle
import Verif.Model.RoundedGreatCircle
import Verif.Model.RoundedGrid
import Verif.Model.RoundedImportance
import Verif.Model.RoundedMoran
import Verif.Model.RoundedPd
import Verif.Model.RoundedQuantile
import Verif.Model.RoundedScore
import Verif.Model.RoundedShrink
import Verif.Model.Samples
import Verif.Model.Scenarios
import Verif.Model.SharedData
import Verif.Model.Simulation
import Verif.Model.StackInspect
import Verif.Model.StackObjects
import Verif.Model.Stacking
import Verif.Model.StackingLoop
import Verif.Model.Viz
import Verif.Model.WeightMatrix
import Verif.Model.WeightModel
import Verif.Props.Ale
import Verif.Props.AleCurve
import Verif.Props.AleLaws
import Verif.Props.AleModel
import Verif.Props.AlePlot
import Verif.Props.AleScripts
import Verif.Props.AleUnits
import Verif.Props.Backends
import Verif.Props.Bandwidth
import Verif.Props.BandwidthLimits
import Verif.Props.Baseline
import Verif.Props.Calls
import Verif.Props.Coincident
import Verif.Props.Competitors
import Verif.Props.Compound
import Verif.Props.Condensed
import Verif.Props.Constructor
import Verif.Props.CoordinateUnits
import Verif.Props.CsrModels
import Verif.Props.CurveGrids
import Verif.Props.CurveOrder
import Verif.Props.Dimensions
import Verif.Props.Distance
import Verif.Props.DistancePoints
import Verif.Props.Exactness
import Verif.Props.ExampleScripts
import Verif.Props.Experiments
import Verif.Props.FeatureCode
import Verif.Props.FeatureScores
import Verif.Props.FitSucceeds
import Verif.Props.Float32
import Verif.Props.Floats
import Verif.Props.GlobalLimit
import Verif.Props.GreatCircle
import Verif.Props.Gwr
import Verif.Props.HeldOut
import Verif.Props.Importance
import Verif.Props.ImportanceLocal
import Verif.Props.ImportancePlot
import Verif.Props.InSample
import Verif.Props.Inputs
import Verif.Props.Interaction
import Verif.Props.Kernel
import Verif.Props.KernelOrder
import Verif.Props.KernelSmoother
import Verif.Props.LeaveOneOut
import Verif.Props.LeaveOutLuck
import Verif.Props.LinePlots
import Verif.Props.LocalIce
import Verif.Props.LocalPd
import Verif.Props.Missing
import Verif.Props.MissingFit
import Verif.Props.Moran
import Verif.Props.MoranDiagram
import Verif.Props.MoranLocal
import Verif.Props.MoranP
import Verif.Props.MoranPerm
import Verif.Props.MoreData
import Verif.Props.NearbyLocations
import Verif.Props.Neighbourhoods
import Verif.Props.NumbaImpl
import Verif.Props.Objects
import Verif.Props.PairwiseSum
import Verif.Props.Parallel
import Verif.Props.Penalty
import Verif.Props.ProductKernels
import Verif.Props.Randomised
import Verif.Props.Range
import Verif.Props.RankOnly
import Verif.Props.RateCounts
import Verif.Props.Reach
import Verif.Props.ReadyMade
import Verif.Props.Refit
import Verif.Props.Refresh
import Verif.Props.Regions
import Verif.Props.Reordered
import Verif.Props.ReorderedRow
import Verif.Props.ReorderedTotal
import Verif.Props.Repeats
import Verif.Props.Replicated
import Verif.Props.Rescale
import Verif.Props.Rounded
import Verif.Props.RoundedAle
import Verif.Props.RoundedGlobalAle
import Verif.Props.RoundedGreatCircle
import Verif.Props.RoundedGrid
import Verif.Props.RoundedImportance
import Verif.Props.RoundedMoran
import Verif.Props.RoundedPd
import Verif.Props.RoundedPredict
import Verif.Props.RoundedQuantile
import Verif.Props.RoundedRow
import Verif.Props.RoundedScore
import Verif.Props.RoundedShrink
import Verif.Props.RoundedUnits
import Verif.Props.RoundedUnitsAdaptive
import Verif.Props.RoundedUnitsBound
import Verif.Props.RoundedUnitsRow
import Verif.Props.RowOrder
import Verif.Props.Sample
import Verif.Props.SampledInspect
import Verif.Props.Samples
import Verif.Props.Scatter
import Verif.Props.Scenarios
import Verif.Props.SecondOrder
import Verif.Props.Shapes
import Verif.Props.SharedData
import Verif.Props.Shrink
import Verif.Props.Similarity
import Verif.Props.Simulation
import Verif.Props.SparseInspect
import Verif.Props.Stability
import Verif.Props.StackInspect
import Verif.Props.StackObjects
import Verif.Props.StackReach
import Verif.Props.StackRegions
import Verif.Props.Stacking
import Verif.Props.StackingAttrs
import Verif.Props.StackingExamples
import Verif.Props.StackingLoop
import Verif.Props.StackingMore
import Verif.Props.StackingRidge
import Verif.Props.StackingSpec
import Verif.Props.StackingUnits
import Verif.Props.Superposition
import Verif.Props.TargetChange
import Verif.Props.TargetUnits
import Verif.Props.Threads
import Verif.Props.TrainingSets
import Verif.Props.Twins
import Verif.Props.Viz
import Verif.Props.VizDistance
import Verif.Props.WeightMatrix
import Verif.Props.WeightMatrixArgs
import Verif.Props.WeightModel
import Verif.Props.WeightModelAttrs
import Verif.Props.WeightModelPredict
import Verif.Props.WeightModelState
import Verif.Spec.Order
import Verif.Spec.WeightMatrix
