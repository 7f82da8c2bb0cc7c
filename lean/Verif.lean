import Verif.Props.UpdateInfo
import Verif.Props.CheckModel
import Verif.Props.ParamsIndex
import Verif.Props.Constraints3
import Verif.Props.ParseParams2
import Verif.Props.FilterExamples
import Verif.Props.LinearExamples
import Verif.Props.PredictSteps
import Verif.Props.TransitionFunctions
import Verif.Props.Utilities
import Verif.Props.ProcessData
import Verif.Props.DebugDataExamples
import Verif.Props.SimulateExamples
import Verif.Props.SimulationLawExamples
import Verif.Props.PipelineExamples
import Verif.Props.CorrelationExamples
import Verif.Props.CorrelationErrors
import Verif.Props.CombineErrors
import Verif.Props.TransitionPlotsExamples
import Verif.Props.DistributionPlotsExamples
import Verif.Props.FilteredStatesExamples
import Verif.Props.AnchoredExamples
import Verif.Lemmas.FilterNoise
import Verif.Lemmas.FilterOuts
import Verif.Props.AnchoringInfluence
import Verif.Props.AnchoringInfluenceExamples
import Verif.Model.SimulateDataset
import Verif.Spec.SimulatedDataset
import Verif.Lemmas.SimulateDataset
import Verif.Lemmas.SimulateDataset2
import Verif.Lemmas.SimulateDataset3
import Verif.Lemmas.SimulationNoise
import Verif.Lemmas.RoundTrip
import Verif.Props.SimulateDataset
import Verif.Props.SimulateDataset2
import Verif.Props.SimulatedLikelihood
import Verif.Props.RoundTrip
import Verif.Model.PlotKwargs
import Verif.Spec.PlotKwargs
import Verif.Props.PlotKwargs
import Verif.Props.PlotKwargsExamples
import Verif.Props.SimulateDatasetExamples
import Verif.Lemmas.SmoothQR
import Verif.Lemmas.SmoothFilter
import Verif.Model.Gradient
import Verif.Spec.Gradient
import Verif.Lemmas.SmoothLikelihood
import Verif.Props.Gradient
import Verif.Props.GradientExamples
import Verif.Spec.LikelihoodRatio
import Verif.Lemmas.LikelihoodRatio
import Verif.Lemmas.LikelihoodBounds
import Verif.Lemmas.DataMoments
import Verif.Props.LikelihoodRatio
import Verif.Props.LikelihoodRatioExamples
import Verif.Spec.SequentialDensity
import Verif.Lemmas.OneIndividual
import Verif.Props.SequentialLikelihood
import Verif.Props.SequentialLikelihoodExamples
import Verif.Spec.SameModel
import Verif.Lemmas.SameLaw
import Verif.Props.SameModel
import Verif.Props.SameModelExamples
import Verif.Spec.Rescaling
import Verif.Lemmas.Rescaling
import Verif.Props.ObservationalEquivalence
import Verif.Props.Rescaling
import Verif.Props.ConstantIsLinear
import Verif.Props.RescalingExamples
import Verif.Lemmas.BuiltData
import Verif.Props.SameLikelihood
import Verif.Props.SameLikelihoodExamples
import Verif.Lemmas.CondMean
import Verif.Lemmas.SameJoint
import Verif.Props.FilteredEquivalence
import Verif.Props.FilteredEquivalenceExamples
import Verif.Spec.SimulationUnits
import Verif.Props.SimulationUnits
import Verif.Props.SimulationUnitsExamples
import Verif.Lemmas.Affinity
import Verif.Lemmas.UniformAffinity
import Verif.Lemmas.DataTails
import Verif.Lemmas.DensityParameters
import Verif.Spec.Consistency
import Verif.Spec.Estimates
import Verif.Props.Consistency
import Verif.Props.MaximumLikelihood
import Verif.Props.MaximumLikelihoodExamples
import Verif.Spec.Renaming
import Verif.Props.Renaming
import Verif.Props.RenamingExamples
import Verif.Spec.RenamedOutput
import Verif.Props.RenamedOutput
import Verif.Props.RenamedOutputExamples
import Verif.Spec.OwnData
import Verif.Lemmas.OwnData
import Verif.Props.OwnData
import Verif.Props.OwnStates
import Verif.Props.OwnDataExamples
import Verif.Spec.Units
import Verif.Lemmas.Units
import Verif.Lemmas.UnitsData
import Verif.Props.Units
import Verif.Props.UnitsStates
import Verif.Props.UnitsExamples
import Verif.Lemmas.LazyScan
import Verif.Lemmas.EditedUpdates
import Verif.Lemmas.Edits
import Verif.Lemmas.Edits2
import Verif.Lemmas.Edits3
import Verif.Spec.Edits
import Verif.Props.Edits
import Verif.Props.Edits2
import Verif.Props.Edits3
import Verif.Props.EditsExamples
import Verif.Lemmas.Identification
import Verif.Lemmas.Moments
import Verif.Spec.Identification
import Verif.Props.Identification
import Verif.Props.IdentificationExamples
import Verif.Spec.Admissible
import Verif.Props.Admissible
import Verif.Props.ConstrainedEstimation
import Verif.Props.ConstrainedEstimationExamples
import Verif.Spec.Separation
import Verif.Lemmas.DensitySplit
import Verif.Lemmas.Separation
import Verif.Props.Separation
import Verif.Props.SeparationExamples
import Verif.Lemmas.Residuals
import Verif.Lemmas.ResidualLaw
import Verif.Props.Residuals
import Verif.Props.ResidualsExamples
import Verif.Lemmas.BestPrediction
import Verif.Props.BestPrediction
import Verif.Spec.Moments
import Verif.Lemmas.Quadratic
import Verif.Lemmas.NormalMoments
import Verif.Props.QuadraticPredict
import Verif.Spec.Contributions
import Verif.Lemmas.CondDensity
import Verif.Props.Contributions
import Verif.Props.ContributionsExamples
import Verif.Lemmas.ElementNoise
import Verif.Props.PostUpdateStates
import Verif.Props.PostUpdateStatesExamples
import Verif.Props.MixtureResiduals
import Verif.Props.MixtureResidualsExamples
import Verif.Props.DebugAgrees
import Verif.Props.DebugAgreesExamples
import Verif.Props.Restrictions
import Verif.Props.RestrictionsExamples
import Verif.Model.RawModel
import Verif.Spec.RawModel
import Verif.Lemmas.RawModel
import Verif.Props.RawModel
import Verif.Props.RawPairs
import Verif.Spec.NoLookAhead
import Verif.Lemmas.NoLookAhead
import Verif.Props.NoLookAhead
import Verif.Props.NoLookAheadExamples
import Verif.Spec.SimulationInputs
import Verif.Lemmas.SimulationUpTo
import Verif.Props.SimulationUpTo
import Verif.Props.SimulationUpToExamples
import Verif.Lemmas.ParamsUpTo
import Verif.Props.ParamsUpTo
import Verif.Props.ParamsUpToExamples
import Verif.Spec.PolicyEffects
import Verif.Props.PolicyEffects
import Verif.Props.PolicyEffectsExamples
import Verif.Spec.MixtureElements
import Verif.Lemmas.MergedElements
import Verif.Props.MixtureElements
import Verif.Props.MixtureElementsExamples
import Verif.Props.NestedModels
import Verif.Props.NestedModelsExamples
import Verif.Props.MaximumExists
import Verif.Props.MissingData
import Verif.Props.MissingDataExamples
import Verif.Spec.Signs
import Verif.Lemmas.Signs
import Verif.Props.Signs
import Verif.Props.SignsExamples
import Verif.Spec.HigherMeasurement
import Verif.Lemmas.Tweedie
import Verif.Lemmas.TweedieScan
import Verif.Lemmas.HigherMeasurement
import Verif.Lemmas.HigherMeasurementScan
import Verif.Props.HigherMeasurement
import Verif.Props.HigherMeasurementExamples
import Verif.Spec.SamePattern
import Verif.Lemmas.SamePattern
import Verif.Lemmas.SamePatternData
import Verif.Props.SamePattern
import Verif.Props.SamePatternExamples
import Verif.Spec.Combination
import Verif.Lemmas.Combination
import Verif.Lemmas.CombinationData
import Verif.Props.Combination
import Verif.Props.CombinationExamples
import Verif.Props.LogCesPhi
import Verif.Props.LogCesScale
import Verif.Spec.MovedLocations
import Verif.Lemmas.Shift
import Verif.Lemmas.Shift2
import Verif.Lemmas.Shift3
import Verif.Props.MovedLocations
import Verif.Props.PossibleMoves
import Verif.Props.PossibleMovesExamples
import Verif.Lemmas.WeightsSum
import Verif.Props.MovedStates
import Verif.Props.MovedStatesExamples
import Verif.Props.MovedSimulation
import Verif.Props.MovedSimulationExamples
import Verif.Props.SignsSimulation
import Verif.Props.SignsSimulationExamples
import Verif.Props.MixtureSimulation
import Verif.Props.MixtureSimulationExamples
import Verif.Props.EditsSimulation
import Verif.Props.ControlsSimulation
import Verif.Props.ControlsSimulationExamples
import Verif.Props.SwitchSimulation
import Verif.Props.SwitchSimulationExamples
import Verif.Props.PeriodsSimulation
import Verif.Props.PeriodsSimulationExamples
import Verif.Spec.RaisingPolicies
import Verif.Props.RaisingPolicies
import Verif.Props.RaisingPoliciesExamples
import Verif.Spec.TotalEffects
import Verif.Props.TotalEffects
import Verif.Props.TotalEffectsExamples
import Verif.Props.MeasurementsSimulation
import Verif.Props.MeasurementsSimulationExamples
import Verif.Props.FactorsSimulation
import Verif.Props.FactorsSimulationExamples
import Verif.Props.UnrelatedSimulation
import Verif.Props.UnrelatedSimulationExamples
import Verif.Props.SameModelSimulation
import Verif.Props.SameModelSimulationExamples
import Verif.Props.LastPeriodPolicy
import Verif.Props.LoweringPolicy
