import Verif.Props.Mapping
import Verif.Props.History
import Verif.Props.Crop
import Verif.Props.Evaluation
import Verif.Props.Recommend
import Verif.Props.Tensor
import Verif.Props.Tensor2
import Verif.Props.Attention
import Verif.Props.Hooi
import Verif.Props.Hooi2
import Verif.Props.RandomSvd
import Verif.Props.TDRec
import Verif.Props.TDRec2
import Verif.Props.TDRec3
import Verif.Props.Alignment
import Verif.Props.Psi
import Verif.Props.SvdUpdate
import Verif.Props.SvdBlock
import Verif.Props.PsiClass
import Verif.Props.PsiEmbed
import Verif.Props.RandomRec
import Verif.Props.TuckerIntegrator
import Verif.Props.TuckerAppend
import Verif.Props.Hosvd
import Verif.Props.TIRec
import Verif.Props.TIRows
import Verif.Model.Experiment
import Verif.Props.Experiment
import Verif.Props.ExperimentSeries
import Verif.Model.PrepareModel
import Verif.Model.ExperimentData
import Verif.Lemmas.ExperimentData
import Verif.Props.ExperimentData
import Verif.Model.LoadData
import Verif.Props.LoadData
import Verif.Model.RandomGrid
import Verif.Props.RandomGrid
import Verif.Model.HyperSearch
import Verif.Props.HyperSearch
import Verif.Props.HyperSearch2
import Verif.Model.SplitMatrix
import Verif.Props.SplitMatrix
import Verif.Model.NewEntities
import Verif.Props.NewEntities
import Verif.Props.FullExperiment
import Verif.Props.FullExperiment2
import Verif.Props.FullExperiment3
import Verif.Props.FullExperiment4
import Verif.Lemmas.BestApprox
import Verif.Props.SvdTrain
import Verif.Model.PsiExperiments
import Verif.Props.Generators
import Verif.Props.PsiExperiments
import Verif.Props.PsiExperiments2
import Verif.Props.PsiExperiments3
import Verif.Props.PsiExperiments4
import Verif.Props.PsiExperiments5
import Verif.Model.PrepareFiles
import Verif.Props.PrepareFiles
import Verif.Props.PrepareFiles2
import Verif.Model.Ablation
import Verif.Props.Ablation
import Verif.Props.TuckerError
import Verif.Props.HooiMonotone
import Verif.Props.RandomDraws
import Verif.Model.Graphs
import Verif.Lemmas.Strings
import Verif.Props.Graphs
import Verif.Props.Graphs2
import Verif.Model.ResultsTable
import Verif.Props.ResultsTable
import Verif.Props.Graphs3
import Verif.Model.StatsTable
import Verif.Props.StatsTable
import Verif.Model.Search
import Verif.Props.Search
import Verif.Props.Search2
import Verif.Model.Pipeline
import Verif.Props.Pipeline
import Verif.Props.Pipeline2
import Verif.Props.Completion
import Verif.Props.SearchCompletion
import Verif.Model.Configs
import Verif.Props.Configs
import Verif.Props.SeqTrain
import Verif.Props.SeqView
import Verif.Props.SeqWindow
import Verif.Props.SeqCompletion
import Verif.Props.RetrainCompletion
import Verif.Props.ResultFiles
import Verif.Props.RepoTests
import Verif.Props.ReinitCompletion
import Verif.Props.TdSearchCompletion
import Verif.Props.ConfigsSeq
import Verif.Props.Settings
import Verif.Props.CoreExact
import Verif.Props.LoadFiles
import Verif.Props.JsonHook
import Verif.Lemmas.Relabel
import Verif.Lemmas.RelabelModels
import Verif.Lemmas.RelabelExp
import Verif.Lemmas.RelabelData
import Verif.Props.Relabel
import Verif.Props.PsiTracks
import Verif.Props.TITracks
import Verif.Props.TIFull
import Verif.Props.Tucker2
import Verif.Props.RecommendEdges
import Verif.Lemmas.RelabelSearch
import Verif.Props.RelabelSearch
import Verif.Props.LongerLists
import Verif.Lemmas.Blind
import Verif.Lemmas.RunLength
import Verif.Props.RunLength
import Verif.Lemmas.SvdUnique
import Verif.Lemmas.Twin
import Verif.Props.SvdBackend
import Verif.Props.PsiBackend
import Verif.Props.RandomSvdBest
import Verif.Model.CommandLine
import Verif.Props.CommandLine
import Verif.Props.RowOrder
import Verif.Props.UserOrder
import Verif.Props.TuckerNext
import Verif.Lemmas.PolyNull
import Verif.Lemmas.GaussianDraws
import Verif.Props.AlmostSure
import Verif.Props.AlmostSure2
import Verif.Lemmas.TopSet
import Verif.Props.RandomUniform
import Verif.Props.RandomHitRate
import Verif.Props.Names
import Verif.Lemmas.HooiExact
import Verif.Props.HooiExact
import Verif.Props.SeqExact
import Verif.Lemmas.InverseChi
import Verif.Lemmas.NormalRotation
import Verif.Lemmas.NormalInverse
import Verif.Lemmas.SketchError
import Verif.Props.RandomSvdError
import Verif.Props.HosvdExpected
import Verif.Props.AppendExpected
import Verif.Props.BlockBest
import Verif.Props.PsiError
import Verif.Props.PsiGrow
import Verif.Props.TuckerLoss
import Verif.Props.TuckerGrow
import Verif.Props.TuckerLost
import Verif.Props.TuckerDefault
import Verif.Props.LatexText
import Verif.Props.FactorFigures
import Verif.Model.NumFigures
import Verif.Props.NumFigures
import Verif.Model.SteamLines
import Verif.Props.SteamLines
import Verif.Props.PsiDefault
import Verif.Model.KronVec
import Verif.Props.KronVec
import Verif.Props.PsiBlocks
import Verif.Props.PsiNone
import Verif.Props.PsiTable
import Verif.Props.RelScale
import Verif.Props.SwapSides
import Verif.Props.ChunkOrder
import Verif.Props.SvdRank
import Verif.Props.SameTaste
import Verif.Props.BoundLocals
