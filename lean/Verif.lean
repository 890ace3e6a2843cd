import Verif.Model.Collider
import Verif.Model.RealArith
import Verif.Props.FastExp
import Verif.Props.Nucleon
import Verif.Props.SamplingWidth
import Verif.Props.Thickness
import Verif.Props.GenMean
import Verif.Props.Observables
import Verif.Model.Species
import Verif.Props.Species
import Verif.Props.Nucleus
import Verif.Props.Geometry
import Verif.Props.MinDistance
import Verif.Props.Deuteron
import Verif.Lemmas.Pairs
import Verif.Props.Collider
import Verif.Props.Termination
import Verif.Props.NoUB
import Verif.Props.ExampleRun
import Verif.Props.PairRandomness
import Verif.Model.Text
import Verif.Model.Output
import Verif.Model.RealFmt
import Verif.Lemmas.Text
import Verif.Lemmas.ReadBack
import Verif.Lemmas.Stream
import Verif.Spec.Text
import Verif.Props.OutputText
import Verif.Props.OutputFiles
import Verif.Model.CrossSection
import Verif.Lemmas.CacheText
import Verif.Spec.Cache
import Verif.Props.Cache
import Verif.Props.CacheCrash
import Verif.Lemmas.Erf
import Verif.Props.CyclicNormal
import Verif.Props.MonteCarlo
import Verif.Props.CrossSectionFit
import Verif.Model.Program
import Verif.Lemmas.Store
import Verif.Props.Program
import Verif.Props.Exit
import Verif.Props.Run
import Verif.Props.RunOutput
import Verif.Props.Fluctuation
import Verif.Props.ProgramSafe
import Verif.Props.WoodsSaxon
import Verif.Props.ExampleProgram
import Verif.Model.Special
import Verif.Lemmas.Special
import Verif.Lemmas.SpecialEvent
import Verif.Props.Finite
import Verif.Props.FinitePositions
import Verif.Model.Concurrent
import Verif.Props.ConcurrentCache
import Verif.Props.ConcurrentOutput
import Verif.Props.MonteCarloFit
import Verif.Model.Rounded
import Verif.Lemmas.Rounded
import Verif.Lemmas.RoundedThickness
import Verif.Props.RoundedThickness
import Verif.Lemmas.RunInvariant
import Verif.Lemmas.RoundedSampling
import Verif.Props.RoundedRun
import Verif.Props.RoundedSafe
import Verif.Props.RoundedExample
import Verif.Lemmas.RoundedSum
import Verif.Lemmas.RoundedEcc
import Verif.Lemmas.RoundedEccSum
import Verif.Props.RoundedObservables
import Verif.Lemmas.RoundedDeposit
import Verif.Props.RoundedGrid
import Verif.Lemmas.RoundedMean
import Verif.Props.RoundedReduced
import Verif.Props.RoundedCollision
import Verif.Props.RoundedProbability
import Verif.Props.Record
import Verif.Props.GridBounds
import Verif.Lemmas.Sphere
import Verif.Lemmas.Haar
import Verif.Lemmas.Ideal
import Verif.Lemmas.Placement
import Verif.Lemmas.Rejection
import Verif.Lemmas.Body
import Verif.Lemmas.IdealTape
import Verif.Props.Isotropy
import Verif.Props.AlmostSure
import Verif.Props.Densities
import Verif.Props.MonteCarloSample
import Verif.Props.Scan
import Verif.Lemmas.MeasList
import Verif.Lemmas.MeasModel
import Verif.Lemmas.Clear
import Verif.Props.History
import Verif.Lemmas.Renew
import Verif.Lemmas.RenewModel
import Verif.Lemmas.Retry
import Verif.Lemmas.Attempt
import Verif.Lemmas.Complete
import Verif.Props.Unbiased
import Verif.Props.ImpactLaw
import Verif.Lemmas.FreshTape
import Verif.Props.ProtonCrossSection
import Verif.Lemmas.MeasEvent
import Verif.Lemmas.Iterate
import Verif.Lemmas.SampleMean
import Verif.Lemmas.Can
import Verif.Lemmas.CanSample
import Verif.Lemmas.CanAttempt
import Verif.Props.Independence
import Verif.Props.Terminates
import Verif.Props.Library
import Verif.Props.Twister
import Verif.Lemmas.LoopLaw
import Verif.Lemmas.Polar
import Verif.Lemmas.Squeeze
import Verif.Lemmas.GammaLaw
import Verif.Lemmas.LibDraw
import Verif.Lemmas.PwlLaw
import Verif.Lemmas.LemireLaw
import Verif.Lemmas.LibFresh
import Verif.Props.LibraryLaw
import Verif.Lemmas.GaussPi
import Verif.Lemmas.ConstituentLaw
import Verif.Props.Substructure
import Verif.Lemmas.Shuffle
import Verif.Props.Shuffle
import Verif.Lemmas.Equi
import Verif.Lemmas.Turn
import Verif.Lemmas.TurnCollision
import Verif.Props.Mirror
import Verif.Lemmas.Exchange
import Verif.Lemmas.ExchangeOps
import Verif.Lemmas.ExchangeLoop
import Verif.Lemmas.HalfTurn
import Verif.Lemmas.HalfTurnCollision
import Verif.Props.Exchange
import Verif.Lemmas.BinaryCount
import Verif.Lemmas.BinaryGeometry
import Verif.Lemmas.NucleonDensity
import Verif.Lemmas.GlauberIntegral
import Verif.Lemmas.GaussTurn
import Verif.Props.BinaryCollisions
import Verif.Props.BinaryLibrary
import Verif.Model.Toms748
import Verif.Lemmas.Toms748
import Verif.Props.FitAccuracy
import Verif.Props.Wounded
import Verif.Lemmas.Reweigh
import Verif.Lemmas.ReweighLaw
import Verif.Lemmas.ReweighLoop
import Verif.Lemmas.ReweighCollision
import Verif.Props.Weights
import Verif.Props.WeightMeans
import Verif.Lemmas.WeightThickness
import Verif.Props.WeightEvents
import Verif.Lemmas.WeightVariance
import Verif.Props.FluctuationOff
import Verif.Props.FluctuationLimit
import Verif.Model.CmdLine
import Verif.Spec.CommandLine
import Verif.Lemmas.CmdLine
import Verif.Lemmas.CmdLineLoop
import Verif.Lemmas.StoreOrder
import Verif.Props.CommandLine
import Verif.Props.ConfigFile
import Verif.Props.IntegerOptions
import Verif.Props.ExampleCommandLine
import Verif.Props.ConfigErrors
import Verif.Props.Witnesses
import Verif.Props.WitnessesLaws
import Verif.Props.WitnessesProgram
import Verif.Model.NumberText
import Verif.Props.RealOptions
import Verif.Props.NanOptions
import Verif.Props.LibraryRounded
import Verif.Props.InfOptions
import Verif.Props.SpecialTexts
import Verif.Props.DensityOptions
import Verif.Lemmas.LatticeGauss
import Verif.Props.GridIntegral
import Verif.Props.WoundedScaling
import Verif.Props.FluctuationMean
import Verif.Props.WitnessesNamed
import Verif.Props.ScaleInvariance
import Verif.Props.Units
import Verif.Props.GridExtension
import Verif.Props.Translation
import Verif.Props.Superposition
import Verif.Props.ImpactCuts
import Verif.Props.RunPrefix
import Verif.Props.RunPrefixProgram
