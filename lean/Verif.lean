import Verif.Model.Fl
import Verif.Model.Np
import Verif.Model.Dataset
import Verif.Model.Corr
import Verif.Model.Preproc
import Verif.Model.Mos
import Verif.Model.Ap
import Verif.Model.Demo
import Verif.Model.Weighted
import Verif.Model.Ls
import Verif.Model.Mle
import Verif.Spec.Stats
import Verif.Spec.Dataset
import Verif.Spec.Arrays
import Verif.Spec.Reference
import Verif.Spec.Bt500
import Verif.Spec.Correlation
import Verif.Spec.Options
import Verif.Spec.Ap
import Verif.Spec.LinAlg
import Verif.Spec.Likelihood
import Verif.Lemmas.Fl
import Verif.Lemmas.Dataset
import Verif.Lemmas.Stack
import Verif.Lemmas.Mos
import Verif.Lemmas.Preproc
import Verif.Lemmas.Zscore
import Verif.Lemmas.Reject
import Verif.Lemmas.Corr
import Verif.Lemmas.Ap
import Verif.Lemmas.Ls
import Verif.Lemmas.Mle
import Verif.Lemmas.MleGrad
import Verif.Lemmas.MleMethods
import Verif.Props.Reader
import Verif.Props.Mos
import Verif.Props.Dscore
import Verif.Props.Zscore
import Verif.Props.Rejection
import Verif.Props.CorrRejection
import Verif.Props.Options
import Verif.Props.Ap
import Verif.Props.ApSym
import Verif.Props.Demo
import Verif.Props.Live
import Verif.Props.Weighted
import Verif.Props.Ls
import Verif.Props.Mle
import Verif.Props.MleGrad
import Verif.Props.MleMethods
import Verif.Model.Convert
import Verif.Spec.Convert
import Verif.Lemmas.Convert
import Verif.Lemmas.Overlap
import Verif.Props.Convert
import Verif.Props.Overlap
import Verif.Model.Pc
import Verif.Spec.Pc
import Verif.Lemmas.Pc
import Verif.Lemmas.PcLoop
import Verif.Props.Pc
import Verif.Model.PcReader
import Verif.Spec.PcArr
import Verif.Lemmas.PcReader
import Verif.Props.PcReader
import Verif.Model.Mock
import Verif.Lemmas.Mock
import Verif.Props.Mock
import Verif.Spec.Mock
import Verif.Lemmas.Corrupt
import Verif.Props.Corrupt
import Verif.Props.Synth
import Verif.Model.Bt
import Verif.Spec.Bt
import Verif.Spec.Thurstone
import Verif.Lemmas.Bt
import Verif.Lemmas.BtFl
import Verif.Lemmas.BtGrad
import Verif.Lemmas.BtNr
import Verif.Lemmas.Normal
import Verif.Props.Bt
import Verif.Props.BtNr
import Verif.Props.Thurstone
import Verif.Model.ParMap
import Verif.Lemmas.ParMap
import Verif.Props.ParMap
import Verif.Model.Memo
import Verif.Lemmas.Memo
import Verif.Props.Memo
import Verif.Model.Lookup
import Verif.Model.ModelClasses
import Verif.Spec.Lookup
import Verif.Lemmas.Lookup
import Verif.Props.Lookup
import Verif.Spec.Uniform
import Verif.Lemmas.Uniform
import Verif.Props.Uniform
import Verif.Model.Perf
import Verif.Spec.Perf
import Verif.Lemmas.Perf
import Verif.Props.Perf
import Verif.Model.Ci
import Verif.Props.Ci
import Verif.Spec.Criteria
import Verif.Props.Criteria
import Verif.Model.Format
import Verif.Spec.Format
import Verif.Lemmas.Format
import Verif.Props.Format
import Verif.Model.Write
import Verif.Spec.Write
import Verif.Lemmas.Write
import Verif.Props.Write
import Verif.Model.Legacy
import Verif.Lemmas.Legacy
import Verif.Lemmas.LegacyGrad
import Verif.Props.Legacy
import Verif.Props.LegacyEx
import Verif.Lemmas.MleNum
import Verif.Props.MleNum
import Verif.Spec.MlePass
import Verif.Lemmas.MlePass
import Verif.Props.MlePass
import Verif.Spec.Sigmoid
import Verif.Lemmas.Sigmoid
import Verif.Props.Sigmoid
import Verif.Spec.PcRandom
import Verif.Lemmas.Stopping
import Verif.Lemmas.PcRandom
import Verif.Lemmas.PcRandomLaw
import Verif.Props.PcRandom
import Verif.Model.Bstp
import Verif.Spec.Bstp
import Verif.Lemmas.Bstp
import Verif.Lemmas.BstpCi
import Verif.Lemmas.BstpRun
import Verif.Lemmas.BstpOnce
import Verif.Props.Bstp
import Verif.Props.BstpVideos
import Verif.Props.BstpEx
import Verif.Model.Csv
import Verif.Spec.Csv
import Verif.Lemmas.Csv
import Verif.Props.Csv
import Verif.Spec.PcCi
import Verif.Lemmas.PcCi
import Verif.Props.PcCi
import Verif.Model.MosTable
import Verif.Spec.MosTable
import Verif.Lemmas.MosTable
import Verif.Props.MosTable
import Verif.Model.RunModels
import Verif.Spec.RunModels
import Verif.Lemmas.RunModels
import Verif.Props.RunModels
import Verif.Spec.ThMin
import Verif.Lemmas.ThMin
import Verif.Props.ThMin
import Verif.Spec.SynthLaw
import Verif.Lemmas.SynthLaw
import Verif.Props.SynthLaw
import Verif.Model.SampleStats
import Verif.Spec.SampleStats
import Verif.Lemmas.SampleStats
import Verif.Props.SampleStats
import Verif.Model.Validate
import Verif.Spec.Validate
import Verif.Props.Validate
import Verif.Spec.BtFord
import Verif.Lemmas.BtFord
import Verif.Props.BtFord
import Verif.Model.Inverse
import Verif.Spec.Inverse
import Verif.Lemmas.Inverse
import Verif.Props.Inverse
import Verif.Model.ConvolvePdf
import Verif.Spec.ConvolvePdf
import Verif.Lemmas.ConvolvePdf
import Verif.Props.ConvolvePdf
import Verif.Spec.ApLik
import Verif.Lemmas.ApLik
import Verif.Props.ApLik
import Verif.Model.Hist
import Verif.Lemmas.Hist
import Verif.Props.Hist
import Verif.Model.Plots
import Verif.Lemmas.Plots
import Verif.Props.Plots
import Verif.Model.ObsCi
import Verif.Spec.ObsCi
import Verif.Lemmas.ObsCi
import Verif.Props.ObsCi
import Verif.Model.FileName
import Verif.Model.Life
import Verif.Spec.Life
import Verif.Lemmas.Life
import Verif.Props.Life
import Verif.Props.FileName
import Verif.Model.WinRate
import Verif.Props.WinRate
import Verif.Model.TypeVersion
import Verif.Props.TypeVersion
import Verif.Model.ScorePlots
import Verif.Spec.ScorePlots
import Verif.Lemmas.ScorePlots
import Verif.Props.ScorePlots
import Verif.Props.PlotLabels
import Verif.Props.FinalUnits
import Verif.Model.Rounded
import Verif.Spec.Rounding
import Verif.Lemmas.Rounding
import Verif.Lemmas.RoundedMos
import Verif.Props.Rounding
import Verif.Props.RoundingStd
import Verif.Props.RoundingFraction
import Verif.Model.Main
import Verif.Spec.Main
import Verif.Lemmas.Main
import Verif.Props.Main
import Verif.Props.LogLik
import Verif.Spec.Coverage
import Verif.Lemmas.NormalTable
import Verif.Lemmas.Coverage
import Verif.Lemmas.TwoNormals
import Verif.Props.Coverage
import Verif.Lemmas.UnderCoverage
import Verif.Lemmas.PanelLaw
import Verif.Props.ValidateCoverage
import Verif.Spec.ApMean
import Verif.Lemmas.ApMean
import Verif.Props.ApUnbiased
import Verif.Model.Deprecated
import Verif.Spec.Deprecated
import Verif.Props.Deprecated
import Verif.Lemmas.MleSym
import Verif.Lemmas.MleScale
import Verif.Lemmas.MleRun
import Verif.Lemmas.MleNeg
import Verif.Props.MleSym
import Verif.Props.MleLaw
import Verif.Model.Readings
import Verif.Lemmas.Readings
import Verif.Props.Readings
import Verif.Props.MleStop
import Verif.Props.MleNoiseFree
import Verif.Model.ValidatePlots
import Verif.Spec.ValidatePlots
import Verif.Lemmas.ValidatePlots
import Verif.Props.ValidatePlots
import Verif.Model.Compare
import Verif.Spec.Compare
import Verif.Props.Compare
import Verif.Model.Recovered
import Verif.Props.Recovered
import Verif.Model.RandState
import Verif.Lemmas.RandState
import Verif.Lemmas.SameVotes
import Verif.Props.RandState
import Verif.Props.RandBstp
import Verif.Props.RandEx
import Verif.Props.ApStd
import Verif.Model.CiScript
import Verif.Props.CiScript
import Verif.Props.CiReport
import Verif.Spec.Panel
import Verif.Lemmas.ApCopies
import Verif.Props.ApCopies
import Verif.Props.CiMleco
import Verif.Lemmas.MleCopies
import Verif.Props.MleCopies
import Verif.Model.MainPc
import Verif.Spec.MainPc
import Verif.Lemmas.MainPc
import Verif.Props.MainPc
import Verif.Model.JsonOut
import Verif.Spec.Json
import Verif.Lemmas.Json
import Verif.Lemmas.JsonInj
import Verif.Lemmas.JsonDict
import Verif.Props.Json
import Verif.Model.Written
import Verif.Lemmas.FormatMap
import Verif.Lemmas.Written
import Verif.Props.Written
import Verif.Props.WrittenLs
import Verif.Spec.Pareto
import Verif.Lemmas.Pareto
import Verif.Lemmas.ParetoMle
import Verif.Props.Pareto
import Verif.Spec.ApComplete
import Verif.Lemmas.ApComplete
import Verif.Props.ApComplete
import Verif.Spec.Scale
import Verif.Lemmas.Scale
import Verif.Props.Scale
import Verif.Spec.Ascii
import Verif.Lemmas.Ascii
import Verif.Props.Ascii
import Verif.Model.TestCase
import Verif.Spec.TestCase
import Verif.Lemmas.TestCase
import Verif.Props.TestCase
import Verif.Spec.Unanimous
import Verif.Lemmas.Unanimous
import Verif.Lemmas.MleDead
import Verif.Props.Unanimous
import Verif.Lemmas.Consistent
import Verif.Lemmas.StrongLaw
import Verif.Props.Consistent
import Verif.Lemmas.Erratic
import Verif.Props.Erratic
import Verif.Model.MainPlots
import Verif.Lemmas.MainPlots
import Verif.Props.MainPlots
import Verif.Spec.PairedScores
import Verif.Props.PairedScores
import Verif.Model.MainPcPlots
import Verif.Spec.MainPcPlots
import Verif.Lemmas.MainPcPlots
import Verif.Props.MainPcPlots
import Verif.Spec.BtConsistent
import Verif.Lemmas.BtConsistent
import Verif.Props.BtConsistent
import Verif.Model.Persist
import Verif.Spec.Persist
import Verif.Props.Persist
import Verif.Model.Argv
import Verif.Spec.Argv
import Verif.Lemmas.Argv
import Verif.Props.Argv
import Verif.Spec.Recast
import Verif.Lemmas.RejectSym
import Verif.Props.Recast
import Verif.Spec.Dissent
import Verif.Lemmas.Dissent
import Verif.Props.Dissent
import Verif.Spec.Reversed
import Verif.Lemmas.Reversed
import Verif.Props.Reversed
import Verif.Spec.Camps
import Verif.Lemmas.Camps
import Verif.Props.Camps
import Verif.Spec.Unbiased
import Verif.Lemmas.Unbiased
import Verif.Props.Unbiased
import Verif.Spec.OpposedCamps
import Verif.Lemmas.OpposedCamps
import Verif.Props.OpposedCamps
import Verif.Model.ArgvPc
import Verif.Lemmas.ArgvPc
import Verif.Props.ArgvPc
import Verif.Spec.Raised
import Verif.Lemmas.Raised
import Verif.Lemmas.RaisedBias
import Verif.Props.Raised
import Verif.Model.Paths
import Verif.Spec.Paths
import Verif.Lemmas.Paths
import Verif.Props.Paths
import Verif.Lemmas.AddedVote
import Verif.Props.AddedVote
import Verif.Spec.AddedWin
import Verif.Lemmas.AddedWin
import Verif.Props.AddedWin
import Verif.Lemmas.UnbiasedRepeated
import Verif.Props.UnbiasedRepeated
import Verif.Spec.AddedTie
import Verif.Lemmas.AddedTie
import Verif.Props.AddedTie
import Verif.Props.TwoVideos
import Verif.Spec.TwoPanels
import Verif.Props.TwoPanels
import Verif.Props.AddedWinNr
import Verif.Props.Twice
