import Verif.Lemmas.Approach
import Verif.Lemmas.Atmega
import Verif.Lemmas.AtmegaDrivers
import Verif.Lemmas.AtmegaEnums
import Verif.Lemmas.Benchmark
import Verif.Lemmas.Biquad
import Verif.Lemmas.BiquadAnalysis
import Verif.Lemmas.Cascade
import Verif.Lemmas.Chebyshev
import Verif.Lemmas.ChebyshevDesign
import Verif.Lemmas.ChebyshevExample
import Verif.Lemmas.ChebyshevFloat
import Verif.Lemmas.ChebyshevFloatSections
import Verif.Lemmas.ChebyshevInfo
import Verif.Lemmas.Decoupled
import Verif.Lemmas.Design
import Verif.Lemmas.DesignFloat
import Verif.Lemmas.Filter
import Verif.Lemmas.FilterExamples
import Verif.Lemmas.FixedPoint
import Verif.Lemmas.FloatRange
import Verif.Lemmas.Ieee
import Verif.Lemmas.IeeeSpecial
import Verif.Lemmas.Isr
import Verif.Lemmas.Kalman
import Verif.Lemmas.KalmanAlgebra
import Verif.Lemmas.KalmanFixed
import Verif.Lemmas.KalmanFloat
import Verif.Lemmas.KalmanLinear
import Verif.Lemmas.KalmanRobust
import Verif.Lemmas.KalmanRun
import Verif.Lemmas.KalmanSim
import Verif.Lemmas.KalmanSimClose
import Verif.Lemmas.KalmanSimError
import Verif.Lemmas.KalmanSimEternal
import Verif.Lemmas.KalmanSimForever
import Verif.Lemmas.KalmanSimRun
import Verif.Lemmas.KalmanSimSettled
import Verif.Lemmas.KalmanSimStep
import Verif.Lemmas.KalmanSimTracking
import Verif.Lemmas.KalmanSimTrackingAny
import Verif.Lemmas.KalmanSimTrackingDouble
import Verif.Lemmas.KalmanSkew
import Verif.Lemmas.KalmanSkewRun
import Verif.Lemmas.KalmanStable
import Verif.Lemmas.KalmanStat
import Verif.Lemmas.KalmanSteady
import Verif.Lemmas.KalmanTarget
import Verif.Lemmas.KalmanTargetEternal
import Verif.Lemmas.KalmanTargetSettled
import Verif.Lemmas.KalmanUnits
import Verif.Lemmas.LeastSquares
import Verif.Lemmas.Loop
import Verif.Lemmas.Matrix
import Verif.Lemmas.MatrixMore
import Verif.Lemmas.Output
import Verif.Lemmas.OutputText
import Verif.Lemmas.Periodic
import Verif.Lemmas.Psd2
import Verif.Lemmas.Range
import Verif.Lemmas.Refine
import Verif.Lemmas.Register
import Verif.Lemmas.Riccati
import Verif.Lemmas.RiccatiExist
import Verif.Lemmas.RoundStep
import Verif.Lemmas.Rounding
import Verif.Lemmas.RoundingFilter
import Verif.Lemmas.RoundingMatrix
import Verif.Lemmas.RoundingTransposed
import Verif.Lemmas.RunLimit
import Verif.Lemmas.Trajectory
import Verif.Lemmas.Twi
import Verif.Model.Algorithm
import Verif.Model.Atmega
import Verif.Model.AtmegaDrivers
import Verif.Model.AtmegaEnums
import Verif.Model.AtmegaRegs
import Verif.Model.AvrExamples
import Verif.Model.Benchmark
import Verif.Model.Biquad
import Verif.Model.Cascade
import Verif.Model.ChebyshevFloat
import Verif.Model.ChebyshevInfo
import Verif.Model.Constants
import Verif.Model.CovarianceError
import Verif.Model.Cpp
import Verif.Model.Design
import Verif.Model.DesignFloat
import Verif.Model.DesktopExamples
import Verif.Model.FilterExamples
import Verif.Model.FixedFloat
import Verif.Model.FixedPoint
import Verif.Model.FloatRange
import Verif.Model.Ieee
import Verif.Model.IeeeSpecial
import Verif.Model.Int
import Verif.Model.Isr
import Verif.Model.Kalman
import Verif.Model.KalmanSim
import Verif.Model.KalmanSimOutput
import Verif.Model.KalmanTarget
import Verif.Model.Matlab
import Verif.Model.Matrix
import Verif.Model.OnePole
import Verif.Model.Output
import Verif.Model.Range
import Verif.Model.RealFun
import Verif.Model.Register
import Verif.Model.StdShims
import Verif.Model.TypeTraits
import Verif.Props.Algorithm
import Verif.Props.Atmega
import Verif.Props.AtmegaEnums
import Verif.Props.AtmegaRegs
import Verif.Props.AvrExamples
import Verif.Props.Benchmark
import Verif.Props.Biquad
import Verif.Props.Cascade
import Verif.Props.Chebyshev
import Verif.Props.ChebyshevFloat
import Verif.Props.ChebyshevInfo
import Verif.Props.ChebyshevOne
import Verif.Props.Constants
import Verif.Props.CovarianceError
import Verif.Props.CovarianceExample
import Verif.Props.Design
import Verif.Props.DesignFloat
import Verif.Props.FilterExamples
import Verif.Props.FixedAccurate
import Verif.Props.FixedFloat
import Verif.Props.FixedPoint
import Verif.Props.FloatRange
import Verif.Props.Ieee
import Verif.Props.IeeeEncoding
import Verif.Props.IeeeSpecial
import Verif.Props.Isr
import Verif.Props.Kalman
import Verif.Props.KalmanDecoupled
import Verif.Props.KalmanFinite
import Verif.Props.KalmanFixed
import Verif.Props.KalmanLinear
import Verif.Props.KalmanPasses
import Verif.Props.KalmanReach
import Verif.Props.KalmanRobust
import Verif.Props.KalmanSim
import Verif.Props.KalmanSimError
import Verif.Props.KalmanSimOutput
import Verif.Props.KalmanSimSettled
import Verif.Props.KalmanSimTracking
import Verif.Props.KalmanSkew
import Verif.Props.KalmanStable
import Verif.Props.KalmanStat
import Verif.Props.KalmanSteady
import Verif.Props.KalmanTarget
import Verif.Props.KalmanUnits
import Verif.Props.Matlab
import Verif.Props.Matrix
import Verif.Props.MatrixExample
import Verif.Props.OnePole
import Verif.Props.Output
import Verif.Props.OutputFixed
import Verif.Props.OutputText
import Verif.Props.Periodic
import Verif.Props.Range
import Verif.Props.RangeExample
import Verif.Props.Register
import Verif.Props.RepoRun
import Verif.Props.RepoTests
import Verif.Props.Rounding
import Verif.Props.RoundingCascade
import Verif.Props.StdShims
import Verif.Props.Twi
import Verif.Props.TypeTraits
import Verif.Spec.Accurate
import Verif.Spec.Atmega
import Verif.Spec.AtmegaEnums
import Verif.Spec.AtmegaNames
import Verif.Spec.AvrExamples
import Verif.Spec.Cascade
import Verif.Spec.Chebyshev
import Verif.Spec.ChebyshevFloat
import Verif.Spec.Constants
import Verif.Spec.Datasheet
import Verif.Spec.Decoupled
import Verif.Spec.DesignFloat
import Verif.Spec.Filter
import Verif.Spec.FixedPoint
import Verif.Spec.Ieee
import Verif.Spec.IeeeEncoding
import Verif.Spec.IeeeSpecial
import Verif.Spec.Isr
import Verif.Spec.Kalman
import Verif.Spec.KalmanLinear
import Verif.Spec.KalmanSim
import Verif.Spec.KalmanSkew
import Verif.Spec.KalmanStable
import Verif.Spec.KalmanStat
import Verif.Spec.KalmanSteady
import Verif.Spec.KalmanUnits
import Verif.Spec.Matrix
import Verif.Spec.Num
import Verif.Spec.Output
import Verif.Spec.Periodic
import Verif.Spec.Range
import Verif.Spec.Refine
import Verif.Spec.Register
import Verif.Spec.Rounding
import Verif.Spec.Twi
import Verif.Validation.CoreTests
import Verif.Validation.FilterTests
import Verif.Validation.FixedPointTests
import Verif.Validation.MatrixTests
