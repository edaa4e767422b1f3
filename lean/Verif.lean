import Verif.Props.Concurrency
import Verif.Props.Evaluator
import Verif.Props.PyEvaluator
import Verif.Props.DataFrame
import Verif.Props.Retrieval
import Verif.Props.Split
import Verif.Props.Holdout
import Verif.Props.UserHoldout
import Verif.Props.SpecificHoldout
import Verif.Props.Weighting
import Verif.Props.Similarity
import Verif.Props.Walk
import Verif.Props.Slim
import Verif.Props.Ease
import Verif.Props.IalsLoss
import Verif.Props.IalsStep
import Verif.Props.IalsCold
import Verif.Props.IalsFeature
import Verif.Props.IalsState
import Verif.Props.EarlyStop
import Verif.Props.IalsTraining
import Verif.Props.Score
import Verif.Props.MultVAE
import Verif.Props.Threads
import Verif.Props.ParamRange
import Verif.Props.Tuning
import Verif.Props.Doubling
import Verif.Props.ScoreHistory
import Verif.Props.Download
import Verif.Props.Mind
import Verif.Props.Tables
import Verif.Props.Datasets
import Verif.Props.Memory
import Verif.Props.SampleData
import Verif.Props.MindReaders
import Verif.Props.RecClasses
import Verif.Props.Workflow
import Verif.Props.Raw
import Verif.Props.FloatEval
import Verif.Props.MemoryCold
import Verif.Props.RandomState
import Verif.Props.Named
import Verif.Props.Builders
import Verif.Props.FloatIals
import Verif.Props.IalsInit
import Verif.Props.IalsConverge
import Verif.Props.SimRecommender
import Verif.Props.LibRecommender
import Verif.Props.TuneLearns
import Verif.Props.SlimDrift
import Verif.Props.RetrievalBest
import Verif.Props.IalsArgs
import Verif.Props.Validation
import Verif.Props.SlimConverge
import Verif.Props.Relabel
import Verif.Props.RelabelModels
import Verif.Props.RelabelIals
import Verif.Props.IalsConvergeFeatures
import Verif.Props.Pickle
import Verif.Props.SlimRepro
import Verif.Props.Scale
import Verif.Props.TuneTrial
import Verif.Props.Silent
import Verif.Props.Cutoff
import Verif.Props.Zeros
import Verif.Props.Twins
import Verif.Props.TwinsIals
import Verif.Props.Separate
import Verif.Props.SeparateIals
import Verif.Props.FloatSim
import Verif.Props.Influence
import Verif.Props.Aliasing
import Verif.Props.ZipParts
import Verif.Props.Catalogue
import Verif.Props.Interrupt
import Verif.Props.NanScores
import Verif.Props.NewProfile
import Verif.Props.Fair
import Verif.Props.Evidence
import Verif.Props.Direction
import Verif.Model.WorkerFaults
import Verif.Spec.WorkerFaults
import Verif.Proofs.WorkerFaults
import Verif.Props.WorkerFaults
import Verif.Props.Served
import Verif.Props.Paging
import Verif.Props.SplitTypes
import Verif.Props.NanArgs
import Verif.Props.RelabelTopK
import Verif.Props.DirectionUsers
import Verif.Props.NanServing
import Verif.Props.Groups
import Verif.Props.FewerCandidates
import Verif.Props.Overtake
import Verif.Props.MoreTruth
import Verif.Props.Sensitivity
import Verif.Props.PagingForbid
import Verif.Props.Chance
import Verif.Props.ChanceNdcg
import Verif.Props.ChanceMap
import Verif.Props.Ceiling
import Verif.Props.RaisedItem
import Verif.Axioms
