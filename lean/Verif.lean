import Verif.Props.NaturalSort
import Verif.Props.Likelihood
import Verif.Props.BBBLite
import Verif.Props.BBBFull
import Verif.Props.BBBGammaFull
import Verif.Props.BBBCov
import Verif.Props.FitParams
import Verif.Props.FitState
import Verif.Props.Interp
import Verif.Props.Storage
import Verif.Props.ExternalTerms
import Verif.Props.Yields
import Verif.Props.WriterTemplates
import Verif.Props.WriterLayout
import Verif.Props.WriterProcs
import Verif.Props.WriterBookings
import Verif.Props.WriterNorm
import Verif.Props.WriterCov
import Verif.Props.WriterSparse
import Verif.Props.WriterDense
import Verif.Props.Covariance
import Verif.Props.Impacts
import Verif.Props.Propagation
import Verif.Props.Spiral
import Verif.Props.Scans
import Verif.Props.FitLoop
import Verif.Props.CompositeModel
import Verif.Props.Mixture
import Verif.Props.ABCD
import Verif.Props.SmoothABCD
import Verif.Props.AxisModels
import Verif.Props.Saturated
import Verif.Props.Project
import Verif.Props.Select
import Verif.Props.Angular
import Verif.Props.CompositeMapping
import Verif.Props.Regularization
import Verif.Props.Limits
import Verif.Props.Driver
import Verif.Props.PseudoData
import Verif.Props.IoTools
import Verif.Props.UpDown
import Verif.Props.Datacard
import Verif.Props.Merge
import Verif.Props.Batched
import Verif.Props.DataMapping
import Verif.Props.LinearChi2
import Verif.Props.LinearChi2Fit
import Verif.Props.Chi2Dependent
import Verif.Props.SatTest
import Verif.Props.Expected
import Verif.Props.WarmStart
import Verif.Props.AbcdNegative
import Verif.Props.PostFit
import Verif.Props.Processes
import Verif.Props.LCurve
import Verif.Props.Shapes
import Verif.Props.MergeGroups
import Verif.Props.BatchedDense
import Verif.Props.BetaVar
import Verif.Model.FullNll
import Verif.Props.FullNll
import Verif.Props.StatCov
import Verif.Props.Ones
import Verif.Props.ImpactRows
import Verif.Props.IsoMT
import Verif.Model.LimitRun
import Verif.Props.LimitRun
import Verif.Model.DataVar
import Verif.Props.DataVar
import Verif.Model.Auxiliary
import Verif.Props.Auxiliary
import Verif.Model.DebugData
import Verif.Props.DebugData
import Verif.Model.SelText
import Verif.Lemmas.SelText
import Verif.Props.SelText
import Verif.Model.ImpactPrint
import Verif.Props.ImpactPrint
import Verif.Model.ImpactFrame
import Verif.Props.ImpactFrame
import Verif.Model.ScanPlot
import Verif.Props.ScanPlot
import Verif.Model.CovPlot
import Verif.Props.CovPlot
import Verif.Model.ResultFile
import Verif.Props.ResultFile
import Verif.Model.RunOutput
import Verif.Props.RunOutput
import Verif.Model.MergeOpts
import Verif.Props.MergeOpts
import Verif.Model.ContourEval
import Verif.Props.ContourEval
import Verif.Model.HistPlot
import Verif.Props.HistPlot
import Verif.Model.AsymTable
import Verif.Props.AsymTable
import Verif.Model.Variations
import Verif.Props.Variations
import Verif.Model.InputPlot
import Verif.Props.InputPlot
import Verif.Model.ExpectedScan
import Verif.Props.ExpectedScan
import Verif.Model.LikelihoodLimit
import Verif.Lemmas.NormalDeriv
import Verif.Props.LikelihoodLimit
import Verif.Props.WriterAtomic
import Verif.Lemmas.WriteTotal
import Verif.Props.WriterTotal
import Verif.Lemmas.Thin
import Verif.Model.ReadTensor
import Verif.Props.WriterFile
import Verif.Lemmas.SparseTotal
import Verif.Props.WriterSparseTotal
import Verif.Lemmas.Untouched
import Verif.Lemmas.Booked
import Verif.Props.WriterVariation
import Verif.Model.LinearFit
import Verif.Model.Options
import Verif.Lemmas.Quadratic
import Verif.Lemmas.LinearMapping
import Verif.Props.LinearFit
import Verif.Props.Options
import Verif.Model.Asimov
import Verif.Lemmas.Asimov
import Verif.Props.Asimov
import Verif.Props.Invariance
import Verif.Props.FileFit
import Verif.Props.FileStat
import Verif.Model.CardFile
import Verif.Lemmas.CardFile
import Verif.Props.WriterNormPair
import Verif.Props.CardFit
import Verif.Props.FileAsimov
import Verif.Props.CardAsimov
import Verif.Props.WriterAccept
import Verif.Props.FileAccept
import Verif.Props.CardAccept
import Verif.Props.StatAsimov
import Verif.Props.CardStat
import Verif.Model.UncPlot
import Verif.Props.UncPlot
import Verif.Lemmas.ChannelOrder
import Verif.Props.FileChisq
import Verif.Lemmas.Profiled
import Verif.Lemmas.Halves
import Verif.Props.CovProfile
import Verif.Lemmas.NormAdditive
import Verif.Props.FileAdditive
import Verif.Props.FileConvex
