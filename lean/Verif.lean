import Verif.Props.Activations
import Verif.Props.Adam
import Verif.Props.AdamBound
import Verif.Props.AdamR
import Verif.Props.Baseline
import Verif.Props.Batches
import Verif.Props.Bayes
import Verif.Props.BayesRecode
import Verif.Props.BayesSym
import Verif.Props.BayesTwice
import Verif.Props.Bench
import Verif.Props.BoostRounded
import Verif.Props.Bootstrap
import Verif.Props.CC
import Verif.Props.CCBayes
import Verif.Props.CCHull
import Verif.Props.CCLDA
import Verif.Props.CCTarget
import Verif.Props.Calls
import Verif.Props.CallsR
import Verif.Props.Clusters
import Verif.Props.Compile
import Verif.Props.CompileExact
import Verif.Props.CompileSeed
import Verif.Props.CompileTrain
import Verif.Props.Constant
import Verif.Props.Convex
import Verif.Props.Crash
import Verif.Props.Criteria
import Verif.Props.CriteriaRounded
import Verif.Props.Csv
import Verif.Props.Dataset
import Verif.Props.DeadUnit
import Verif.Props.DensityFloor
import Verif.Props.Descent
import Verif.Props.Dispatch
import Verif.Props.DispatchMore
import Verif.Props.DispatchTables
import Verif.Props.EM
import Verif.Props.Engines
import Verif.Props.EnginesK
import Verif.Props.EnginesR
import Verif.Props.Ensemble
import Verif.Props.EnsembleMore
import Verif.Props.FailedFit
import Verif.Props.FailedFit2
import Verif.Props.FailedFit3
import Verif.Props.FailedFitR
import Verif.Props.Features
import Verif.Props.Fisher
import Verif.Props.Frames
import Verif.Props.FramesR
import Verif.Props.GMM
import Verif.Props.GMMInit
import Verif.Props.GMMRank
import Verif.Props.GMMSym
import Verif.Props.Getters
import Verif.Props.Gibbs
import Verif.Props.GradSep
import Verif.Props.History
import Verif.Props.Hull
import Verif.Props.HullRounded
import Verif.Props.HullSym
import Verif.Props.HullTwice
import Verif.Props.IO
import Verif.Props.Init
import Verif.Props.InitRBF
import Verif.Props.KMeans
import Verif.Props.KMeansRange
import Verif.Props.KMeansRounded
import Verif.Props.KMeansStart
import Verif.Props.KMeansStop
import Verif.Props.KMeansSym
import Verif.Props.KernelArr
import Verif.Props.Kernels
import Verif.Props.LDA
import Verif.Props.LDASym
import Verif.Props.LearnRow
import Verif.Props.Lifecycle
import Verif.Props.LogReg
import Verif.Props.LogRegCalibration
import Verif.Props.LogRegSym
import Verif.Props.Losses
import Verif.Props.Mahalanobis
import Verif.Props.Margin
import Verif.Props.Margins
import Verif.Props.Metrics
import Verif.Props.Moments
import Verif.Props.NBObject
import Verif.Props.Network
import Verif.Props.NetworkR
import Verif.Props.NetworkSym
import Verif.Props.Newton
import Verif.Props.OneCluster
import Verif.Props.OneQuestion
import Verif.Props.Ops
import Verif.Props.Optima
import Verif.Props.Persist
import Verif.Props.PlotTree
import Verif.Props.Plots
import Verif.Props.PlotsBayes
import Verif.Props.PlotsCluster
import Verif.Props.PlotsGrid
import Verif.Props.PlotsR
import Verif.Props.Preprocess
import Verif.Props.PreprocessSym
import Verif.Props.PreprocessTwice
import Verif.Props.Progress
import Verif.Props.Prune
import Verif.Props.PruneBest
import Verif.Props.RBF
import Verif.Props.RBFDescent
import Verif.Props.RBFFar
import Verif.Props.RBFR
import Verif.Props.RBFStrict
import Verif.Props.Regions
import Verif.Props.Reinforce
import Verif.Props.Reload
import Verif.Props.ReloadR
import Verif.Props.Repeat
import Verif.Props.RepeatMore
import Verif.Props.Rounded
import Verif.Props.RoundedExp
import Verif.Props.RoundedLoss
import Verif.Props.RoundedMore
import Verif.Props.SMO
import Verif.Props.SMORounded
import Verif.Props.SMOSchedule
import Verif.Props.SVC
import Verif.Props.SVCSym
import Verif.Props.SVMErr
import Verif.Props.SVMOpt
import Verif.Props.SVMOrigin
import Verif.Props.SVMStop
import Verif.Props.SVMSubset
import Verif.Props.Score
import Verif.Props.ScoreRounded
import Verif.Props.SmallOrder
import Verif.Props.SmallTrees
import Verif.Props.SmallTreesSym
import Verif.Props.SmallTwice
import Verif.Props.SmoothingFades
import Verif.Props.Spode
import Verif.Props.SpodeNB
import Verif.Props.Trace
import Verif.Props.TraceEnsemble
import Verif.Props.TraceFiles
import Verif.Props.TraceGMM
import Verif.Props.TraceNB
import Verif.Props.TraceNet
import Verif.Props.TraceSVC
import Verif.Props.TraceSpode
import Verif.Props.TraceTree
import Verif.Props.Training
import Verif.Props.Tree
import Verif.Props.TreeBest
import Verif.Props.TreeBoxes
import Verif.Props.TreeClash
import Verif.Props.TreeDrop
import Verif.Props.TreeMono
import Verif.Props.TreeOrder
import Verif.Props.TreeRounded
import Verif.Props.TreeSize
import Verif.Props.TreeSym
import Verif.Props.TreeTwice
import Verif.Props.Twice
import Verif.Props.TwoClasses
import Verif.Props.Votes
