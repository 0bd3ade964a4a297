import Verif.Api.CallbackProps
import Verif.Api.ErrorProps
import Verif.Api.MetricProps
import Verif.Api.Model
import Verif.Api.ParamProps
import Verif.Api.PrintProps
import Verif.Api.RecordProps
import Verif.Base.Binary64
import Verif.Base.Binary64Add
import Verif.Base.F64
import Verif.Base.Loop
import Verif.Base.Mat
import Verif.Base.Outcome
import Verif.Base.Rand
import Verif.Base.Round
import Verif.Base.Sort
import Verif.Base.XReal
import Verif.BaseEst.ExportProps
import Verif.BaseEst.Lemmas
import Verif.BaseEst.Model
import Verif.BaseEst.Props
import Verif.Boost.Booster
import Verif.Boost.BoosterProps
import Verif.Boost.EarlyStop
import Verif.Boost.EarlyStopProps
import Verif.Boost.InitProps
import Verif.Boost.MultiProps
import Verif.Boost.NamesProps
import Verif.Boost.Objective
import Verif.Boost.ObjectiveProps
import Verif.Boost.RowOrderProps
import Verif.Boost.Session
import Verif.Boost.SessionProps
import Verif.Boost.TrainProps
import Verif.CV.Model
import Verif.CV.Props
import Verif.CV.Score
import Verif.CV.ScoreProps
import Verif.CV.Seed
import Verif.CV.SeedProps
import Verif.CV.Validate
import Verif.CV.ValidateProps
import Verif.Dataset.Model
import Verif.Dataset.Props
import Verif.Drift.ErrorCallProps
import Verif.Drift.Lemmas
import Verif.Drift.Model
import Verif.Drift.Props
import Verif.Drift.Spec
import Verif.EFB.Benefit
import Verif.EFB.BenefitProps
import Verif.EFB.Lemmas
import Verif.EFB.Model
import Verif.EFB.OrderProps
import Verif.EFB.Props
import Verif.Errors.Chain
import Verif.Errors.ChainProps
import Verif.Errors.Lemmas
import Verif.Errors.Model
import Verif.Errors.Props
import Verif.Errors.Spec
import Verif.Errors.Warn
import Verif.Errors.WarnProps
import Verif.Eval.Model
import Verif.Eval.Props
import Verif.Eval.Report
import Verif.Eval.ReportProps
import Verif.Hist.Cache
import Verif.Hist.CacheProps
import Verif.Hist.Dispatch
import Verif.Hist.DispatchProps
import Verif.Hist.EdgeProps
import Verif.Hist.GreedyProps
import Verif.Hist.Lemmas
import Verif.Hist.Merge
import Verif.Hist.MergeProps
import Verif.Hist.Model
import Verif.Hist.OptimalProps
import Verif.Hist.Props
import Verif.Hist.QuickSort
import Verif.Hist.SplitLemmas
import Verif.Hist.SplitProps
import Verif.KMeans.Lemmas
import Verif.KMeans.Model
import Verif.KMeans.PlusProps
import Verif.KMeans.Props
import Verif.KMeans.Spec
import Verif.LGB.Batch
import Verif.LGB.BatchProps
import Verif.LGB.Dump
import Verif.LGB.DumpProps
import Verif.LGB.Ensemble
import Verif.LGB.EnsembleProps
import Verif.LGB.Importance
import Verif.LGB.ImportanceProps
import Verif.LGB.Json
import Verif.LGB.JsonFiniteProps
import Verif.LGB.JsonProps
import Verif.LGB.LeafIndex
import Verif.LGB.LeafIndexProps
import Verif.LGB.Leaves
import Verif.LGB.LeavesJsonProps
import Verif.LGB.LeavesPredictProps
import Verif.LGB.LeavesProps
import Verif.LGB.LeavesSpec
import Verif.LGB.LeavesText
import Verif.LGB.LeavesTextProps
import Verif.LGB.LoadedLeafProps
import Verif.LGB.LoaderFileProps
import Verif.LGB.LoaderText
import Verif.LGB.LoaderTextProps
import Verif.LGB.LoopLemmas
import Verif.LGB.Path
import Verif.LGB.PathProps
import Verif.LGB.PredictParallel
import Verif.LGB.PredictParallelProps
import Verif.LGB.SimpleLinkProps
import Verif.LGB.Spec
import Verif.LGB.TaylorProps
import Verif.LGB.TaylorSoftmaxProps
import Verif.LGB.Text
import Verif.LGB.TextProps
import Verif.LGB.Tree
import Verif.LGB.TreeProps
import Verif.Linear.Hash
import Verif.Linear.HashProps
import Verif.Linear.Lemmas
import Verif.Linear.Model
import Verif.Linear.Props
import Verif.Linear.Spec
import Verif.Log.FieldProps
import Verif.Log.Model
import Verif.Log.Props
import Verif.Logistic.FitProps
import Verif.Logistic.Model
import Verif.Logistic.Props
import Verif.Logistic.Seed
import Verif.Logistic.SeedProps
import Verif.Logistic.SettingsProps
import Verif.Logistic.Spec
import Verif.Logistic.WarmProps
import Verif.Metrics.AucLemmas
import Verif.Metrics.AucProps
import Verif.Metrics.ClsLemmas
import Verif.Metrics.ClsProps
import Verif.Metrics.Model
import Verif.Metrics.NdcgMatrix
import Verif.Metrics.RankLemmas
import Verif.Metrics.RankProps
import Verif.Metrics.RegLemmas
import Verif.Metrics.RegProps
import Verif.Metrics.Spec
import Verif.Metrics.ValueProps
import Verif.NaiveBayes.Lemmas
import Verif.NaiveBayes.Lemmas2
import Verif.NaiveBayes.Model
import Verif.NaiveBayes.Props
import Verif.NaiveBayes.Spec
import Verif.NonFinite.AdwinProps
import Verif.NonFinite.BoostProps
import Verif.NonFinite.ClassifierProps
import Verif.NonFinite.DDMFloatProps
import Verif.NonFinite.GuardProps
import Verif.NonFinite.HistMissingProps
import Verif.NonFinite.KMeansProps
import Verif.NonFinite.LinearMissingProps
import Verif.NonFinite.LogisticMissingProps
import Verif.NonFinite.MetricsProps
import Verif.NonFinite.MissingTargetProps
import Verif.NonFinite.NaiveBayesProps
import Verif.NonFinite.OnlineProps
import Verif.NonFinite.ScalerProps
import Verif.NonFinite.StandardProps
import Verif.NonFinite.TreeMissingProps
import Verif.NonFinite.TreeProps
import Verif.Online.AdaptiveProps
import Verif.Online.ClassesProps
import Verif.Online.ClfProps
import Verif.Online.Diagnostics
import Verif.Online.EpochProps
import Verif.Online.FitProps
import Verif.Online.Lemmas
import Verif.Online.Model
import Verif.Online.PAProps
import Verif.Online.PAStep
import Verif.Online.Props
import Verif.Online.RateProps
import Verif.Online.Seed
import Verif.Online.SeedProps
import Verif.Online.SeedRefineProps
import Verif.Online.SessionClf
import Verif.Online.SessionMore
import Verif.Online.SessionPA
import Verif.Online.SessionProps
import Verif.Online.Spec
import Verif.Options.Model
import Verif.Options.Props
import Verif.Overflow.LinearProps
import Verif.Overflow.MetricsProps
import Verif.Overflow.ProbaProps
import Verif.Overflow.ScalerProps
import Verif.Own.Lemmas
import Verif.Own.Model
import Verif.Own.Props
import Verif.Parallel.Lemmas
import Verif.Parallel.Model
import Verif.Parallel.Props
import Verif.ParamMap.Builders
import Verif.ParamMap.BuildersProps
import Verif.ParamMap.Model
import Verif.ParamMap.Props
import Verif.ParamMap.TableProps
import Verif.Performance.Chunked
import Verif.Performance.GC
import Verif.Performance.Memory
import Verif.Performance.MemoryMap
import Verif.Performance.MemoryMapProps
import Verif.Performance.MemoryProps
import Verif.Performance.Pipeline
import Verif.Performance.PipelineProps
import Verif.Performance.PoolProps
import Verif.Persist.Lemmas
import Verif.Persist.Model
import Verif.Persist.Props
import Verif.Pipeline.Lemmas
import Verif.Pipeline.Model
import Verif.Pipeline.Props
import Verif.Pipeline.Spec
import Verif.Preprocessing.Lemmas
import Verif.Preprocessing.Model
import Verif.Preprocessing.Props
import Verif.Preprocessing.Spec
import Verif.Quick.Model
import Verif.Quick.Props
import Verif.Quick.Train
import Verif.Quick.TrainProps
import Verif.Round.AdwinProps
import Verif.Round.AssignProps
import Verif.Round.AucProps
import Verif.Round.BayesProps
import Verif.Round.BundleProps
import Verif.Round.CentreProps
import Verif.Round.ClassProps
import Verif.Round.ClipNormProps
import Verif.Round.ConstantProps
import Verif.Round.CountProps
import Verif.Round.DdmProps
import Verif.Round.ErrorProps
import Verif.Round.FoldScoreProps
import Verif.Round.FracProps
import Verif.Round.GainProps
import Verif.Round.GiniProps
import Verif.Round.LabelProps
import Verif.Round.LargeProps
import Verif.Round.LeafProps
import Verif.Round.LeafShareProps
import Verif.Round.LogLossProps
import Verif.Round.MetricsProps
import Verif.Round.MomentProps
import Verif.Round.ObjectiveProps
import Verif.Round.OrderProps
import Verif.Round.PassiveProps
import Verif.Round.ProbaProps
import Verif.Round.R2Props
import Verif.Round.ReportProps
import Verif.Round.RoundTripProps
import Verif.Round.ScalerProps
import Verif.Round.ScoreProps
import Verif.Round.StartProps
import Verif.Round.SubProps
import Verif.Round.TreeProps
import Verif.Scores.Model
import Verif.Scores.Props
import Verif.Settings.Model
import Verif.Settings.PipeProps
import Verif.Settings.Props
import Verif.Shap.Batch
import Verif.Shap.BatchProps
import Verif.Shap.InteractionProps
import Verif.Shap.Model
import Verif.Shap.Props
import Verif.State.Lemmas
import Verif.State.Model
import Verif.State.Nested
import Verif.State.NestedProps
import Verif.State.Props
import Verif.State.Spec
import Verif.Stream.Model
import Verif.Stream.Props
import Verif.Tensor.FilledProps
import Verif.Tensor.Model
import Verif.Tensor.Props
import Verif.Trainer.CallbackLemmas
import Verif.Trainer.CallbackProps
import Verif.Trainer.Callbacks
import Verif.Trainer.CatSplit
import Verif.Trainer.CatSplitProps
import Verif.Trainer.FinderLemmas
import Verif.Trainer.Fit
import Verif.Trainer.FitProps
import Verif.Trainer.Grow
import Verif.Trainer.GrowLemmas
import Verif.Trainer.GrowProps
import Verif.Trainer.ImportanceProps
import Verif.Trainer.LeafProps
import Verif.Trainer.Legacy
import Verif.Trainer.LegacyProps
import Verif.Trainer.MinRowsProps
import Verif.Trainer.Mono
import Verif.Trainer.MonoProps
import Verif.Trainer.NodeHist
import Verif.Trainer.NodeHistProps
import Verif.Trainer.RefitProps
import Verif.Trainer.Sample
import Verif.Trainer.SampleProps
import Verif.Trainer.Seed
import Verif.Trainer.SeedProps
import Verif.Trainer.ServeProps
import Verif.Trainer.Validate
import Verif.Trainer.ValidateProps
import Verif.Tree.Lemmas
import Verif.Tree.Lemmas2
import Verif.Tree.Model
import Verif.Tree.Props
import Verif.Tree.Spec
import Verif.Wrapper.Examples
import Verif.Wrapper.LabelProps
import Verif.Wrapper.LoglossProps
import Verif.Wrapper.Model
import Verif.Wrapper.OptionProps
import Verif.Wrapper.Props
import Verif.Wrapper.RankingProps
import Verif.Wrapper.RealProps
import Verif.Wrapper.RegLoadProps
import Verif.Wrapper.RegProps
import Verif.Wrapper.ServeProps
import Verif.Wrapper.Train
import Verif.Wrapper.TrainProps
