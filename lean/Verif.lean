import Verif.Model.Py
import Verif.Model.ActiveSiteOrder
import Verif.Model.Event
import Verif.Model.Hop
import Verif.Model.State
import Verif.Model.Property
import Verif.Model.Tracker
import Verif.Model.Propose
import Verif.Model.KMC
import Verif.Lemmas.Py
import Verif.Spec.Basic
import Verif.Lemmas.State
import Verif.Props.StateProps
import Verif.Lemmas.Event
import Verif.Spec.Species
import Verif.Props.EventProps
import Verif.Lemmas.Hop
import Verif.Props.HopProps
import Verif.Spec.Trace
import Verif.Lemmas.KMC
import Verif.Lemmas.Table
import Verif.Props.RunProps
import Verif.Lemmas.Propose
import Verif.Props.ProposeProps
import Verif.Spec.Tracking
import Verif.Spec.HopSystem
import Verif.Lemmas.Tracker
import Verif.Lemmas.TrackerRun
import Verif.Props.TrackerProps
import Verif.Props.TrackerRunProps
import Verif.Model.Registration
import Verif.Spec.Schedule
import Verif.Spec.Plan
import Verif.Lemmas.Sampler
import Verif.Lemmas.Plan
import Verif.Lemmas.Registration
import Verif.Lemmas.SamplerRun
import Verif.Props.PlanProps
import Verif.Props.SamplerProps
import Verif.Model.Transport
import Verif.Spec.Transport
import Verif.Lemmas.Transport
import Verif.Props.TransportProps
import Verif.Model.Supercell
import Verif.Model.Generator
import Verif.Spec.Supercell
import Verif.Lemmas.Supercell
import Verif.Lemmas.Generator
import Verif.Props.StructureProps
import Verif.Props.GeneratorProps
import Verif.Model.Value
import Verif.Model.Config
import Verif.Spec.Config
import Verif.Lemmas.Config
import Verif.Props.ConfigProps
import Verif.Props.ConfigFileProps
import Verif.Model.Checkpoint
import Verif.Props.CheckpointProps
import Verif.Model.LocalBarrier
import Verif.Spec.LocalBarrier
import Verif.Lemmas.Text
import Verif.Lemmas.LocalBarrier
import Verif.Lemmas.LocalBarrierFile
import Verif.Props.LocalBarrierProps
import Verif.Model.LCE
import Verif.Spec.LCE
import Verif.Lemmas.LCE
import Verif.Lemmas.Orbits
import Verif.Props.LCEProps
import Verif.Props.LCEBuildProps
import Verif.Model.Basis
import Verif.Props.BasisProps
import Verif.Props.ChebyshevProps
import Verif.Props.LCESymmetryProps
import Verif.Model.Composite
import Verif.Spec.Balance
import Verif.Props.CompositeProps
import Verif.Model.SiteEnergy
import Verif.Spec.SiteEnergy
import Verif.Lemmas.SiteEnergy
import Verif.Props.SiteEnergyProps
import Verif.Props.SiteEnergyRunProps
import Verif.Model.Lattice
import Verif.Spec.Lattice
import Verif.Lemmas.Lattice
import Verif.Lemmas.LatticeSites
import Verif.Props.LatticeProps
import Verif.Model.Features
import Verif.Props.FeatureProps
import Verif.Model.ClusterMatcher
import Verif.Spec.ClusterMatcher
import Verif.Lemmas.ClusterMatcher
import Verif.Lemmas.ClusterNearest
import Verif.Props.ClusterMatcherProps
import Verif.Model.Enumerator
import Verif.Spec.Enumerator
import Verif.Lemmas.Enumerator
import Verif.Props.EnumeratorProps
import Verif.Spec.Endpoints
import Verif.Lemmas.Endpoints
import Verif.Props.EndpointProps
import Verif.Model.Neighbors
import Verif.Spec.Neighbors
import Verif.Props.NeighborProps
import Verif.Props.ParameterProps
import Verif.Props.NEBLoaderProps
import Verif.Props.FitterProps
import Verif.Props.ModelFileProps
import Verif.Props.SiteEnergyFileProps
import Verif.Props.ModelChoiceProps
import Verif.Props.ResultsProps
import Verif.Props.LocalSitesProps
import Verif.Props.GeneratorInputsProps
import Verif.Props.ProgressProps
import Verif.Props.LocalBarrierMakeProps
import Verif.Props.ModelProgressProps
import Verif.Model.FromConfig
import Verif.Spec.FromConfig
import Verif.Props.FromConfigProps
import Verif.Model.Cli
import Verif.Spec.Cli
import Verif.Props.CliProps
import Verif.Model.FitTable
import Verif.Spec.FitTable
import Verif.Props.FitTableProps
import Verif.Spec.Equilibrium
import Verif.Lemmas.Equilibrium
import Verif.Props.EquilibriumProps
import Verif.Spec.LongRun
import Verif.Lemmas.LongRun
import Verif.Props.LongRunProps
import Verif.Props.RestartProps
import Verif.Spec.SpeciesNames
import Verif.Props.SpeciesNamesProps
import Verif.Spec.OneSimulation
import Verif.Lemmas.Ergodic
import Verif.Lemmas.OneSimulation
import Verif.Props.OneSimulationProps
import Verif.Spec.Path
import Verif.Lemmas.Path
import Verif.Props.PathProps
import Verif.Model.Cif
import Verif.Spec.Cif
import Verif.Lemmas.Cif
import Verif.Lemmas.CifSites
import Verif.Props.CifProps
import Verif.Spec.Homogeneous
import Verif.Lemmas.Homogeneous
import Verif.Props.HomogeneousProps
import Verif.Props.EnumeratorTransformProps
import Verif.Props.RandomWalkProps
import Verif.Spec.Speed
import Verif.Lemmas.Speed
import Verif.Props.SpeedProps
import Verif.Props.EventOrderProps
import Verif.Model.Callable
import Verif.Spec.Callable
import Verif.Props.CallableProps
import Verif.Model.Shared
import Verif.Spec.Shared
import Verif.Lemmas.Shared
import Verif.Props.SharedProps
import Verif.Spec.Reversal
import Verif.Lemmas.Reversal
import Verif.Lemmas.Drift
import Verif.Props.ReversalProps
import Verif.Model.Tools
import Verif.Spec.Tools
import Verif.Props.ToolsProps
import Verif.Spec.Frequency
import Verif.Props.FrequencyProps
import Verif.Model.EnvironmentLabel
import Verif.Spec.EnvironmentLabel
import Verif.Props.EnvironmentLabelProps
import Verif.Model.EventStats
import Verif.Spec.EventStats
import Verif.Props.EventStatsProps
import Verif.Model.FitterRegistry
import Verif.Spec.FitterRegistry
import Verif.Props.FitterRegistryProps
import Verif.Model.LiveCallbacks
import Verif.Spec.LiveCallbacks
import Verif.Lemmas.LiveCallbacks
import Verif.Props.LiveCallbacksProps
import Verif.Spec.ExternalEnergy
import Verif.Lemmas.Forget
import Verif.Props.ExternalEnergyProps
import Verif.Spec.SiteEnergyRead
import Verif.Props.SiteEnergyReadProps
import Verif.Props.ModelFileReadProps
import Verif.Spec.EnergyScale
import Verif.Props.EnergyScaleProps
import Verif.Spec.IdleEvents
import Verif.Props.IdleEventsProps
import Verif.Spec.CompositeFile
import Verif.Model.CompositeFile
import Verif.Props.CompositeFileProps
import Verif.Model.Reentrant
import Verif.Spec.Reentrant
import Verif.Lemmas.Reentrant
import Verif.Props.ReentrantProps
import Verif.Spec.JumpRate
import Verif.Lemmas.JumpRate
import Verif.Props.JumpRateProps
import Verif.Model.ClusterShape
import Verif.Spec.ClusterShape
import Verif.Lemmas.ClusterShape
import Verif.Props.ClusterShapeProps
import Verif.Spec.Network
import Verif.Lemmas.Network
import Verif.Props.NetworkProps
import Verif.Spec.Description
import Verif.Lemmas.Description
import Verif.Props.DescriptionProps
import Verif.Model.Overflow
import Verif.Spec.Overflow
import Verif.Lemmas.Overflow
import Verif.Props.OverflowProps
import Verif.Model.FitUse
import Verif.Spec.FitUse
import Verif.Props.FitUseProps
import Verif.Model.LatticeSupercell
import Verif.Spec.LatticeSupercell
import Verif.Lemmas.LatticeSupercell
import Verif.Props.LatticeSupercellProps
import Verif.Spec.Scale
import Verif.Lemmas.Scale
import Verif.Props.ScaleProps
import Verif.Model.Clock
import Verif.Lemmas.Binary
import Verif.Spec.Clock
import Verif.Lemmas.Clock
import Verif.Props.ClockProps
import Verif.Spec.RoundedChoice
import Verif.Lemmas.RoundedChoice
import Verif.Lemmas.RoundedRun
import Verif.Props.RoundedChoiceProps
import Verif.Spec.CompleteExpansion
import Verif.Lemmas.TensorBasis
import Verif.Lemmas.TermCoefficients
import Verif.Lemmas.CompleteExpansion
import Verif.Props.CompleteExpansionProps
import Verif.Spec.LatticeGas
import Verif.Lemmas.LatticeGas
import Verif.Props.LatticeGasProps
import Verif.Model.FitFiles
import Verif.Spec.FitFiles
import Verif.Lemmas.FitFiles
import Verif.Props.FitFilesProps
import Verif.Spec.RunSpread
import Verif.Lemmas.RunSpread
import Verif.Props.RunSpreadProps
import Verif.Model.RunFiles
import Verif.Spec.RunFiles
import Verif.Lemmas.RunFiles
import Verif.Props.RunFilesProps
import Verif.Model.Gui
import Verif.Spec.Gui
import Verif.Props.GuiProps
import Verif.Spec.Correlation
import Verif.Lemmas.ReversibleWalk
import Verif.Lemmas.IonWalk
import Verif.Lemmas.Correlation
import Verif.Props.CorrelationProps
import Verif.Model.OrbitFunction
import Verif.Spec.OrbitFunction
import Verif.Lemmas.OrbitFunction
import Verif.Props.OrbitFunctionProps
import Verif.Model.FloatTracker
import Verif.Spec.FloatTracker
import Verif.Lemmas.FloatTracker
import Verif.Props.FloatTrackerProps
import Verif.Model.UserBasis
import Verif.Spec.UserBasis
import Verif.Lemmas.UserBasis
import Verif.Props.UserBasisProps
import Verif.Props.DiffusivityProps
import Verif.Spec.Diffusivity
import Verif.Lemmas.Diffusivity
import Verif.Model.FloatRate
import Verif.Spec.FloatRate
import Verif.Lemmas.FloatRate
import Verif.Props.FloatRateProps
import Verif.Spec.FloatRun
import Verif.Lemmas.FloatRun
import Verif.Props.FloatRunProps
import Verif.Model.FloatBarrier
import Verif.Spec.FloatBarrier
import Verif.Lemmas.FloatBarrier
import Verif.Props.FloatBarrierProps
import Verif.Model.ClusterIdentity
import Verif.Spec.ClusterIdentity
import Verif.Props.ClusterIdentityProps
import Verif.Model.DataSetFile
import Verif.Spec.DataSetFile
import Verif.Lemmas.DataSetFile
import Verif.Props.DataSetFileProps
import Verif.Model.ConstantDifference
import Verif.Spec.LoopWork
import Verif.Lemmas.LoopWork
import Verif.Props.LoopWorkProps
import Verif.Spec.InitialFile
import Verif.Lemmas.InitialFile
import Verif.Props.InitialFileProps
import Verif.Spec.RuleFile
import Verif.Lemmas.RuleFile
import Verif.Props.RuleFileProps
import Verif.Spec.CallbackFailure
import Verif.Lemmas.CallbackFailure
import Verif.Props.CallbackFailureProps
import Verif.Props.PropertyListProps
import Verif.Model.EventFile
import Verif.Spec.EventFile
import Verif.Lemmas.EventFile
import Verif.Props.EventFileProps
import Verif.Model.TransportTable
import Verif.Spec.TransportTable
import Verif.Lemmas.TransportTable
import Verif.Props.TransportTableProps
