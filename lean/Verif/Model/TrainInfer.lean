import Verif.Model.TrainedJob
import Verif.Model.Infer
/-
Inference with the checkpoints of a training job: `/repo/t5x/infer.py`, lines 495-540 (`train_state_initializer` without an optimizer,
`create_checkpoint_manager_and_restore`), and what follows with the restored parameters, lines 541-620.

Simplifications: those of `Verif.JobFiles`, `Verif.SaveRestore` and `Verif.Infer`; no state transformations and no fallback are configured, and the mode of
restoring is `latest`.
-/
namespace Verif.TrainInfer
open Verif Verif.StateDict Verif.TrainState Verif.SaveRestore
open Verif.Ckpt (Dir FS ckptName latestStep pathJoin)
open Verif.JobFiles (Content msgName diskOf)
open Verif.TsPath (Str)
open Verif.StartState (restoreWith)
open Verif.TrainedJob (whole parts)

variable {A T σ X Y Q : Type} [DecidableEq T]

/-- How an inference job reads: its `Checkpointer` (for an `InferenceState` of the shapes of `like_`: `optimizer_def=None`, infer.py:496) and its
`restore_checkpoint_cfg`. -/
structure Reader (A T : Type) where
  O : Ops A T
  /-- `restore_checkpoint_cfg.dtype`. -/
  dtype : Option T
  /-- `params_on_devices`. -/
  onDevices : Bool
  /-- `checkpoints_dir` of the checkpointer that reads. -/
  dir : Str
  /-- Which parameters have axes. -/
  axes : List Key → Bool
  like_ : IState (Option A)

/-- `Checkpointer.restore` (checkpoints.py:1026-1159) from directory `D` with files `d`, into an `InferenceState` (train_state.py:299-306).  `none`: an
exception. -/
def read (r : Reader A T) (D : Str) (d : Dir (Content A T σ)) : Option (IState (Option A)) :=
  match PyDict.get d msgName with
  | some (some (.msg f)) =>
    match restoreWith r.O r.dtype r.onDevices D (diskOf D d) [] (parameterInfos r.O r.dir r.axes (whole (iStateDict r.like_))) f none with
    | .error _ => none
    | .ok x =>
      match parts x with
      | none => none
      | some sd => (iRestore r.like_ sd).toOption
  | _ => none

/-- The state of an inference job that restores the latest checkpoint among the files `fs` of `model_dir`, which lie below `loc`. -/
def latest (r : Reader A T) (loc : Str) (fs : FS (Content A T σ)) : Option (IState (Option A)) :=
  match latestStep fs with
  | none => none
  | some n =>
    match PyDict.get fs (ckptName n) with
    | none => none
    | some d => read r (pathJoin loc (ckptName n)) d

/-- The inference job: `infer_fn(dataset, train_state.params)` with the restored state; `load` makes the arguments of the network of the nested dict of
parameters. -/
def infer (r : Reader A T) (loc : Str) (load : Dict (Option A) → Q) (shards batchSize : Nat) (step : Q → Nat → List X → List Y) (xs : List X)
    (fs : FS (Content A T σ)) : Option (List (Int × Y)) :=
  match latest r loc fs with
  | none => none
  | some t => (Infer.inferFn shards batchSize (step (load t.params)) xs).toOption

end Verif.TrainInfer
