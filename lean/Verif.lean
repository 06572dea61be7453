import Verif.Props.BinarySearch
import Verif.Props.TrainLoop
import Verif.Props.TrainSaves
import Verif.Props.StateDict
import Verif.Props.CkptName
import Verif.Props.CkptDir
import Verif.Props.RestoreCfg
import Verif.Props.Sampling
import Verif.Props.TopK
import Verif.Props.Align
import Verif.Props.Masks
import Verif.Props.RelPos
import Verif.Props.Loss
import Verif.Props.LossWeights
import Verif.Props.Beam
import Verif.Props.BeamScore
import Verif.Props.Chunk
import Verif.Props.Bytes
import Verif.Props.Msgpack
import Verif.Props.TsPath
import Verif.Props.Metrics
import Verif.Props.Microbatch
import Verif.Props.TrainRun
import Verif.Props.EarlyStop
import Verif.Props.Infer
import Verif.Props.InferRestart
import Verif.Props.Executor
import Verif.Props.Schedule
import Verif.Props.GinArgs
import Verif.Props.Mesh
import Verif.Props.LocalChunk
import Verif.Props.MoeMesh
import Verif.Props.NamedTree
import Verif.Props.OptaxState
import Verif.Props.MultiOpt
import Verif.Props.Adafactor
import Verif.Props.Importer
import Verif.Props.ApplyGrad
import Verif.Props.TrainState
import Verif.Props.EvalAll
import Verif.Props.DecParams
import Verif.Props.KVCache
import Verif.Props.Score
import Verif.Props.ScoreBeam
import Verif.Props.SaveRestore
import Verif.Props.Calm
import Verif.Props.Export
import Verif.Props.Interactive
import Verif.Props.Fallback
import Verif.Props.Upcycle
import Verif.Props.OptaxAxes
import Verif.Props.AxisRules
import Verif.Props.AxesOverride
import Verif.Props.BaseMetrics
import Verif.Props.MoeLoss
import Verif.Props.ShardedArray
import Verif.Props.AsyncMetrics
import Verif.Props.AdafactorAxes
import Verif.Props.EvalData
import Verif.Props.Vocabs
import Verif.Props.InferLines
import Verif.Props.TrainerEval
import Verif.Props.WeightMetrics
import Verif.Props.LoadT5x
import Verif.Props.Orbax
import Verif.Props.BeamDims
import Verif.Props.CalmLoss
import Verif.Props.AdafactorNum
import Verif.Props.SampleToken
import Verif.Props.Transformer
import Verif.Props.T5Decode
import Verif.Props.DecoderOnly
import Verif.Props.PackedLoss
import Verif.Props.DsCkpt
import Verif.Props.OrbaxMgr
import Verif.Props.BeamOpt
import Verif.Props.ScalableT5
import Verif.Props.GpuT5
import Verif.Props.TrainJob
import Verif.Props.SampleLaw
import Verif.Props.MicroLoss
import Verif.Props.ArrayT5
import Verif.Props.InteractiveEval
import Verif.Props.ExportScore
import Verif.Props.PredictIndep
import Verif.Props.OfflineInfer
import Verif.Props.BeamIndep
import Verif.Props.LmPredict
import Verif.Props.ArrayLm
import Verif.Props.Dropout
import Verif.Props.InitT5
import Verif.Props.InitImport
import Verif.Props.AdafactorStack
import Verif.Props.InitScalable
import Verif.Props.ScanTrain
import Verif.Props.PackedTrain
import Verif.Props.MoeTrain
import Verif.Props.PackedMetrics
import Verif.Props.ExportFront
import Verif.Props.ConvertTf
import Verif.Props.StartState
import Verif.Props.HybridMesh
import Verif.Props.JobFiles
import Verif.Props.TrainedJob
import Verif.Props.TrainInfer
import Verif.Props.AdafactorJob
import Verif.Props.ModelInfo
import Verif.Props.BatchSearch
import Verif.Props.StepMetrics
import Verif.Props.InferEval
import Verif.Props.AdafactorInfer
import Verif.Props.OptaxJob
import Verif.Props.MultiRun
import Verif.Props.MultiAxes
import Verif.Props.AdhocTask
import Verif.Props.EvalOnly
import Verif.Props.Precompile
import Verif.Props.DecodeLimit
