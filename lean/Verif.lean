import Verif.Props.Batch
import Verif.Props.IncProblem
import Verif.Props.Permute
import Verif.Props.Estimator
import Verif.Props.Grid
import Verif.Props.Histogram
import Verif.Props.Small
import Verif.Props.Stats
import Verif.Props.StatsMv
import Verif.Props.Normal
import Verif.Props.Uniform
import Verif.Props.Gamma
import Verif.Props.Geometry
import Verif.Props.Car
import Verif.Props.CarBatch
import Verif.Model.CarPredict
import Verif.Props.CarPredict
import Verif.Props.ErrorTerms
import Verif.Props.Odometry
import Verif.Props.Vision
import Verif.Props.Geodetic
import Verif.Props.GridStore
import Verif.Props.Sampling
import Verif.Model.Window
import Verif.Model.TimeDelay
import Verif.Model.Egomotion
import Verif.Lemmas.Window
import Verif.Props.TimeDelay
import Verif.Props.Egomotion
import Verif.Props.Camera
import Verif.Lemmas.Camera6
import Verif.Model.CameraReport
import Verif.Spec.CameraReport
import Verif.Lemmas.CameraReport
import Verif.Props.CameraReport
import Verif.Model.CameraMain
import Verif.Props.CameraMain
import Verif.Model.Loop
import Verif.Lemmas.Loop
import Verif.Model.SimTD
import Verif.Spec.SimTD
import Verif.Lemmas.SimTD
import Verif.Lemmas.SimMotion
import Verif.Props.SimTD
import Verif.Model.SimEgo
import Verif.Spec.SimEgo
import Verif.Lemmas.SimEgo
import Verif.Lemmas.SimEgo2
import Verif.Lemmas.SimEgo3
import Verif.Props.SimEgo
import Verif.Props.SimEgoTraj
import Verif.Model.Lrf
import Verif.Spec.Lrf
import Verif.Lemmas.Lrf
import Verif.Lemmas.LrfSim
import Verif.Lemmas.BatchBuild
import Verif.Lemmas.LrfBatch
import Verif.Props.Lrf
import Verif.Props.LrfSim
import Verif.Props.LrfOnline
import Verif.Props.LrfBatch
import Verif.Props.SplineBatch
import Verif.Props.SplineOutput
import Verif.Props.DesignVars
import Verif.Model.CarKin
import Verif.Props.CarKin
import Verif.Model.CarMain
import Verif.Spec.CarMain
import Verif.Lemmas.CarMain
import Verif.Props.CarMain
import Verif.Model.NormalMv
import Verif.Lemmas.NormalMv
import Verif.Props.NormalMv
import Verif.Model.TsvdAdapter
import Verif.Props.TsvdAdapter
import Verif.Model.Options
import Verif.Props.Options
import Verif.Model.LogGamma
import Verif.Props.LogGamma
import Verif.Model.CameraValMain
import Verif.Props.CameraValMain
import Verif.Model.SamplingIdeal
import Verif.Spec.Sampling
import Verif.Props.SamplingIdeal
import Verif.Model.GammaCdf
import Verif.Lemmas.GammaCdf
import Verif.Lemmas.GammaKl
import Verif.Props.GammaCdf
import Verif.Model.PoseTerm
import Verif.Spec.Euler
import Verif.Lemmas.Euler
import Verif.Props.PoseTerm
import Verif.Lemmas.IncAny
import Verif.Lemmas.IncIrregular
import Verif.Props.IncIrregular
import Verif.Model.SimParams
import Verif.Props.SimParams

import Verif.Model.TDMain
import Verif.Props.TDMain
import Verif.Props.EgoPredict
import Verif.Model.OnlineNew
import Verif.Spec.OnlineNew
import Verif.Lemmas.Estimator3
import Verif.Props.OnlineNew
import Verif.Lemmas.Refused
import Verif.Lemmas.Refused2
import Verif.Lemmas.Refused3
import Verif.Lemmas.Refused4
import Verif.Lemmas.Refused5
import Verif.Lemmas.Refused6
import Verif.Props.Refused
import Verif.Model.PyEstimator
import Verif.Lemmas.PyEstimator
import Verif.Props.PyEstimator
import Verif.Props.GridCtor
import Verif.Props.GridInt
import Verif.Model.CalibLib
import Verif.Spec.CalibLib
import Verif.Lemmas.CalibLib
import Verif.Lemmas.CalibLib2
import Verif.Lemmas.CalibLib3
import Verif.Props.CalibLib
import Verif.Props.Together
import Verif.Props.Outside
import Verif.Props.CameraTogether
import Verif.Props.Programs
import Verif.Props.Proper
import Verif.Props.ProperTD
import Verif.Props.ProperPrograms
import Verif.Spec.EstOutcome
import Verif.Props.EstOutcome
import Verif.Props.CameraOutcome
import Verif.Spec.SameProblem
import Verif.Props.SameProblem
import Verif.Model.Samples
import Verif.Spec.Samples
import Verif.Lemmas.Samples
import Verif.Props.Samples
import Verif.Model.ExcText
import Verif.Spec.ExcText
import Verif.Props.ExcText
import Verif.Props.SamplesLaw
import Verif.Spec.Double
import Verif.Lemmas.Double
import Verif.Model.DoubleLoops
import Verif.Lemmas.DoubleLoops
import Verif.Props.DoubleTimes
import Verif.Props.DoubleUniform
import Verif.Model.Serial
import Verif.Spec.Serial
import Verif.Props.Serial
import Verif.Model.CarFiles
import Verif.Spec.CarFiles
import Verif.Lemmas.CarFiles
import Verif.Props.CarFiles
import Verif.Model.SimFiles
import Verif.Props.SimFiles
import Verif.Model.EgoFiles
import Verif.Lemmas.EgoFiles
import Verif.Props.EgoFiles
import Verif.Model.CarResults
import Verif.Props.CarResults
import Verif.Model.DoubleSegments
import Verif.Lemmas.DoubleSegments
import Verif.Props.DoubleSegments
import Verif.Model.CarAnalysis
import Verif.Props.CarAnalysis
import Verif.Spec.Inherits
import Verif.Props.FileAborts
import Verif.Model.DoubleTimestamp
import Verif.Lemmas.DoubleTimestamp
import Verif.Props.DoubleTimestamp
import Verif.Spec.Traits
import Verif.Model.Traits
import Verif.Props.Traits
import Verif.Lemmas.DoubleStats
import Verif.Props.DoubleStats
import Verif.Props.PermuteClass
import Verif.Model.DoubleCategorical
import Verif.Props.DoubleCategorical
import Verif.Spec.SumOrder
import Verif.Model.DoubleWeighted
import Verif.Lemmas.RelativeError
import Verif.Props.DoubleWeighted
import Verif.Model.MvWeighted
import Verif.Spec.MvWeighted
import Verif.Props.MvWeighted
import Verif.Props.ChiSquare
import Verif.Spec.Double64
import Verif.Model.DoublePoisson
import Verif.Lemmas.Double64
import Verif.Props.DoublePoisson
import Verif.Model.DoubleGeometric
import Verif.Lemmas.DoubleGeometric
import Verif.Props.DoubleGeometric
import Verif.Model.Ownership
import Verif.Props.Ownership
import Verif.Props.OwnershipEst
import Verif.Model.DoubleGain
import Verif.Props.DoubleGain
import Verif.Model.DoubleGamma
import Verif.Lemmas.DoubleGamma
import Verif.Props.DoubleGamma
import Verif.Model.DoubleSumLog
import Verif.Props.DoubleSumLog
import Verif.Model.Singleton
import Verif.Props.Singleton
import Verif.Model.DoubleWindow
import Verif.Props.DoubleWindow
import Verif.Model.MvDouble
import Verif.Lemmas.MvDouble
import Verif.Props.MvDouble
import Verif.Model.DoubleNormal
import Verif.Props.DoubleNormal
import Verif.Model.VisionDouble
import Verif.Props.VisionDouble
import Verif.Model.DoubleLogFactorial
import Verif.Props.DoubleLogFactorial
import Verif.Model.NormalMvDouble
import Verif.Props.NormalMvDouble
import Verif.Model.NormalDouble
import Verif.Props.NormalDouble
import Verif.Model.NormalCdfDouble
import Verif.Props.NormalCdfDouble
import Verif.Model.NormalKLDouble
import Verif.Props.NormalKLDouble
