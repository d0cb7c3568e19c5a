import Verif.Props.MatrixOps
import Verif.Props.Prior
import Verif.Props.Metrics
import Verif.Props.NoiseTransformation
import Verif.Props.Regression
import Verif.Props.Refit
import Verif.Props.LeastSquares
import Verif.Props.Eiv
import Verif.Props.EivUnweighted
import Verif.Props.Fisher
import Verif.Props.IdPriors
import Verif.Props.KnownLines
import Verif.Props.Identification
import Verif.Props.Lines
import Verif.Props.Noise
import Verif.Props.NoiseLaw
import Verif.Props.Cartesian
import Verif.Props.Kron
import Verif.Props.Network
import Verif.Props.Sampling
import Verif.Props.Reduce
import Verif.Props.Reduce3
import Verif.Model.Loads
import Verif.Model.Simulation
import Verif.Spec.Loads
import Verif.Spec.Simulation
import Verif.Lemmas.Loads
import Verif.Props.Loads
import Verif.Props.Loads2
import Verif.Props.LoadSign
import Verif.Props.Loads3
import Verif.Props.LoadsZero3
import Verif.Props.Simulation
import Verif.Model.Prog
import Verif.Model.Identification3
import Verif.Model.Stages
import Verif.Model.Simulate
import Verif.Model.Identify
import Verif.Lemmas.Prog
import Verif.Spec.Store
import Verif.Props.Store
import Verif.Spec.Phases
import Verif.Props.Phases
import Verif.Props.Interrupt
import Verif.Spec.Programs
import Verif.Props.Programs
import Verif.Props.Programs2
import Verif.Model.Script
import Verif.Spec.Script
import Verif.Props.Script
import Verif.Props.Script2
import Verif.Props.Script3
import Verif.Props.ScriptRuns
import Verif.Model.PlotResults
import Verif.Spec.PlotResults
import Verif.Props.PlotNorm
import Verif.Props.PlotResults
import Verif.Props.PlotReport
import Verif.Props.PlotSpectrum
import Verif.Props.PlotSparsity
import Verif.Props.PlotShown
import Verif.Props.PlotVoltage
import Verif.Props.NoiseSweep
import Verif.Props.NoiseLimit
import Verif.Props.NoiseLimit3
import Verif.Props.NoiseLimitHidden
import Verif.Props.PlotLog
import Verif.Props.PlotPipeline
import Verif.Props.PlotPipeline3
import Verif.Lemmas.Converge
import Verif.Props.Converge
import Verif.Props.PolarLaw
import Verif.Lemmas.Svd
import Verif.Props.Pipeline
import Verif.Props.SimulateRun
import Verif.Props.PipelineDemo
import Verif.Lemmas.Perturb
import Verif.Props.Stability
import Verif.Lemmas.EckartYoung
import Verif.Props.TlsOptimal
import Verif.Props.IsotropicNoise
import Verif.Props.Invariance
import Verif.Props.EivRun
import Verif.Props.Remove
import Verif.Props.Weights
import Verif.Props.KnownRun
import Verif.Props.IdentifyRun
import Verif.Props.NoisyPipeline
import Verif.Model.LoadsCsv
import Verif.Props.LoadsCsv
import Verif.Props.Pipeline3
import Verif.Props.SimulateRun3
import Verif.Props.IdentifyRun3
import Verif.Props.KnownIdentify
import Verif.Props.KnownFew
import Verif.Props.RepoTests
import Verif.Props.BayesWeights
import Verif.Model.Spread
import Verif.Props.Spread
import Verif.Props.NoisyPipeline3
import Verif.Props.PipelineDemo3
import Verif.Props.Uncertainty
import Verif.Props.BayesProgram
import Verif.Props.Stop
import Verif.Props.EivExact
import Verif.Props.Template
import Verif.Props.Connected
import Verif.Model.Templates
import Verif.Props.Shipped
import Verif.Props.HiddenRun
import Verif.Props.HiddenRun3
import Verif.Props.HiddenLoads
import Verif.Props.Energy
import Verif.Props.LassoExact
import Verif.Props.MissingFiles
import Verif.Props.StaleResults
import Verif.Props.LassoGram
import Verif.Props.EivSamples
import Verif.Props.EivOrder
import Verif.Props.EivOrder3
import Verif.Props.Unsynchronized
import Verif.Props.Standard3
import Verif.Lemmas.Alternate
import Verif.Props.EivConverge
import Verif.Props.EivCritical
import Verif.Props.EivUnit
import Verif.Props.EivCritical3
import Verif.Props.EivTls
import Verif.Lemmas.Transport
import Verif.Lemmas.Renum
import Verif.Props.NoisyGap
import Verif.Props.Renumber
import Verif.Props.Renumber3
import Verif.Props.FisherRank
import Verif.Props.FisherMore
import Verif.Props.SimStart
import Verif.Lemmas.Size
import Verif.Props.EivNoisy
import Verif.Props.EivNoisyRun
import Verif.Props.EivNoisyPlain
import Verif.Props.Reference
import Verif.Props.EivNoisy3
import Verif.Props.Reference3
import Verif.Props.Reference3Demo
import Verif.Props.PriorReject
import Verif.Props.RefitExact
import Verif.Model.Sparse
import Verif.Lemmas.Sparse
import Verif.Props.Sparse
import Verif.Model.Cli
import Verif.Props.Cli
import Verif.Props.CliRuns
import Verif.Props.LassoNoisy
import Verif.Props.SequencePower
import Verif.Props.SequenceNoise
import Verif.Props.Energy3
import Verif.Model.LineTypes
import Verif.Props.LineTypes
import Verif.Props.Shipped3
import Verif.Props.ShippedPrograms
import Verif.Props.ShippedDemo
import Verif.Props.ShippedDemo3
import Verif.Props.LassoExact3
import Verif.Props.ShippedConf
import Verif.Props.HiddenLoads3
import Verif.Props.HiddenDemo3
import Verif.Props.LoadSign3
import Verif.Props.Determined
import Verif.Props.PassiveTables
import Verif.Props.Determined3
import Verif.Props.DeterminedLaplacian
import Verif.Props.ShortLog
import Verif.Props.NoPrior
import Verif.Props.MoreIterations
