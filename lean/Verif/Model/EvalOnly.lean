import Verif.Model.TrainLoop
/-
The configuration for evaluation that `get_gin_config_from_interactive_model` writes (`/repo/t5x/interactive_model.py`, lines 1172-1276).
-/
namespace Verif.TrainLoop

/-- The arguments of `train` for `T5XScriptType.EVALUATION`, interactive_model.py lines 1237-1275 over `/repo/t5x/configs/runs/pretrain.gin` lines 47-62:
`infer_eval_dataset_cfg` is None there, and `hasTrainEval` says whether the task has a validation split.  `period` is that of the `SaveCheckpointConfig` of the
interactive model; 0 stands for None. -/
def evalScript (period : Nat) (hasTrainEval alreadySaved : Bool) : Cfg where
  totalSteps := 0
  relativeSteps := 0
  evalPeriod := 0
  checkpointPeriod := period
  hasTrainEval := hasTrainEval
  hasInferEval := false
  alreadySaved := alreadySaved
  runEvalBeforeTraining := true

end Verif.TrainLoop
