import Verif.Props.IniExpand
import Verif.Props.IniFile
import Verif.Props.ParamNames
import Verif.Props.MergeRenames
import Verif.Props.Confidence
import Verif.Props.Thin
import Verif.Props.Samples
import Verif.Model.Singles
import Verif.Props.Singles
import Verif.Props.SinglesSplit
import Verif.Props.SinglesProb
import Verif.Props.Stats
import Verif.Props.Reweight
import Verif.Props.Chains
import Verif.Props.ChainNames
import Verif.Props.ChainFiles
import Verif.Props.LoadCache
import Verif.Props.ReadChains
import Verif.Props.CovMat
import Verif.Props.Bounds
import Verif.Props.JobIndex
import Verif.Props.JobSubmit
import Verif.Model.Batch
import Verif.Model.ChainGrid
import Verif.Props.BatchTags
import Verif.Props.BatchItems
import Verif.Props.BatchArgs
import Verif.Props.ChainGrid
import Verif.Props.BatchMore
import Verif.Model.Density
import Verif.Props.DensityInt
import Verif.Props.DensityLevels
import Verif.Model.Convolve
import Verif.Props.Convolve
import Verif.Props.ConvolveDFT
import Verif.Model.Kde1D
import Verif.Props.Kde1DBins
import Verif.Props.Kde1D
import Verif.Props.Kde1DFlat
import Verif.Model.NumFmt
import Verif.Props.NumFmt
import Verif.Model.Table
import Verif.Props.Table
import Verif.Model.MargeStats
import Verif.Props.MargeStats
import Verif.Model.Combine
import Verif.Props.Combine
import Verif.Model.CMBlikes
import Verif.Props.CMBlikes
import Verif.Props.CMBlikesChi
import Verif.Model.CMBlikesHL
import Verif.Props.CMBlikesHL
import Verif.Model.GridFiles
import Verif.Props.GridFiles
import Verif.Model.JobStatus
import Verif.Props.JobStatus
import Verif.Model.GelmanRubin
import Verif.Props.GelmanRubin
import Verif.Model.AutoCorr
import Verif.Props.AutoCorr
import Verif.Model.BestFit
import Verif.Props.BestFit
import Verif.Model.Kde2D
import Verif.Props.Kde2D
import Verif.Props.Kde2DLaws
import Verif.Props.Kde2DSym
import Verif.Props.Kde2DSettings
import Verif.Model.Raftery
import Verif.Props.Raftery
import Verif.Props.RafteryLoop
import Verif.Props.RafteryChains
import Verif.Props.Tight
import Verif.Props.Tight2
import Verif.Props.Tight3
import Verif.Model.Converge
import Verif.Props.Converge
import Verif.Props.ConvergeMeans
import Verif.Model.PCA
import Verif.Props.PCA
import Verif.Props.PCADefects
import Verif.Model.CommandLine
import Verif.Props.CommandLine
import Verif.Props.CommandLinePlots
import Verif.Model.Cobaya
import Verif.Props.Cobaya
import Verif.Props.CobayaLoad
import Verif.Lemmas.Gauss
import Verif.Model.GaussMix
import Verif.Props.GaussMix
import Verif.Props.GaussMixOps
import Verif.Props.GaussMixMore
import Verif.Props.GaussMixDefects
import Verif.Model.Ticks
import Verif.Props.Ticks
import Verif.Props.TicksAll
import Verif.Props.TicksDefects
import Verif.Model.SN
import Verif.Props.SN
import Verif.Props.SNCov
import Verif.Props.SNRead
import Verif.Model.DES
import Verif.Props.DES
import Verif.Props.DESTheory
import Verif.Model.Plik
import Verif.Props.Plik
import Verif.Props.PlikCoadd
import Verif.Model.CamSpec
import Verif.Props.CamSpec
import Verif.Props.CamSpecCoadd
import Verif.Model.Smooth
import Verif.Props.Smooth
import Verif.Model.PlikPost
import Verif.Props.PlikPost
import Verif.Props.PlikPostFiles
import Verif.Model.Analyser
import Verif.Props.Analyser
import Verif.Props.AnalyserSettings
import Verif.Model.PlotLayout
import Verif.Props.PlotLayout
import Verif.Model.PlotArgs
import Verif.Props.PlotArgs
import Verif.Model.PlotStyle
import Verif.Props.PlotStyle
import Verif.Props.GaussMixWeights
import Verif.Model.Rename
import Verif.Props.Rename
import Verif.Model.SampleDict
import Verif.Props.SampleDict
import Verif.Model.TexTable
import Verif.Props.TexTable
import Verif.Model.CMBFiles
import Verif.Props.CMBFiles
import Verif.Model.Bandwidth
import Verif.Props.Bandwidth
import Verif.Model.CobayaMemory
import Verif.Props.CobayaMemory
import Verif.Model.GridScripts
import Verif.Props.GridScripts
import Verif.Model.Settings
import Verif.Props.Settings
import Verif.Props.Tight4
import Verif.Model.Forecast
import Verif.Props.Forecast
import Verif.Model.MakeTables
import Verif.Props.MakeTables
import Verif.Props.Tight5
import Verif.Model.Scripts
import Verif.Props.Scripts
import Verif.Model.PlotLinks
import Verif.Props.PlotLinks
import Verif.Model.PlotGrid
import Verif.Props.PlotGrid
import Verif.Props.Tight6
import Verif.Model.StatCache
import Verif.Props.StatCache
import Verif.Props.Tight7
import Verif.Model.GridSetup
import Verif.Props.GridSetup
import Verif.Model.SubmitJob
import Verif.Props.SubmitJob
import Verif.Model.SigNoise
import Verif.Props.SigNoise
import Verif.Props.Tight8
import Verif.Model.Scatter
import Verif.Props.Scatter
import Verif.Props.ScatterCov
import Verif.Model.NumText
import Verif.Props.NumText
import Verif.Model.PlanckStyle
import Verif.Props.PlanckStyle
import Verif.Props.Tight9
import Verif.Model.NameLists
import Verif.Props.NameLists
import Verif.Model.DESFits
import Verif.Props.DESFits
import Verif.Model.MeanLikes
import Verif.Props.MeanLikes
import Verif.Model.DensityObj
import Verif.Props.DensityObj
import Verif.Model.PlotCalls
import Verif.Props.PlotCalls
import Verif.Props.Tight10
import Verif.Props.Tight11
import Verif.Model.GuiPlot
import Verif.Props.GuiPlot
import Verif.Model.GuiEdit
import Verif.Props.GuiEdit
import Verif.Model.GuiSelect
import Verif.Props.GuiSelect
import Verif.Model.SaveChains
import Verif.Props.SaveChains
import Verif.Props.Tight12
import Verif.Model.Foregrounds
import Verif.Props.Foregrounds
import Verif.Model.DESNuis
import Verif.Props.DESNuis
import Verif.Model.ChainDump
import Verif.Props.ChainDump
import Verif.Model.PlotMake
import Verif.Props.PlotMake
import Verif.Props.Tight13
import Verif.Model.PlanckGrids
import Verif.Props.PlanckGrids
import Verif.Props.Tight14
import Verif.Model.JobResults
import Verif.Props.JobResults
import Verif.Model.LoadText
import Verif.Props.LoadText
import Verif.Model.Config
import Verif.Props.Config
import Verif.Props.Tight15
import Verif.Model.TablePng
import Verif.Props.TablePng
import Verif.Model.ListGrid
import Verif.Props.ListGrid
import Verif.Model.Highlight
import Verif.Props.Highlight
import Verif.Model.SampleRanges
import Verif.Props.SampleRanges
import Verif.Model.Packaging
import Verif.Props.Packaging
import Verif.Model.OddMoments
import Verif.Props.OddMoments
import Verif.Props.Tight16
import Verif.Model.LikeTable
import Verif.Props.LikeTable
import Verif.Props.Tight17
import Verif.Props.Holds1
import Verif.Props.Holds2
import Verif.Props.Holds3
import Verif.Model.PlotArrays
import Verif.Props.PlotArrays
import Verif.Props.Tight18
