import Verif.Model.CkptDir
/-
Model of t5x/utils.py:926-979 `get_first_valid_restore_config_and_paths`,
utils.py:1101-1202 `TrainStateInitializer.from_checkpoints/from_checkpoint`, and
t5x/train.py:306-391 (choice of the initial state in training).
-/
namespace Verif.RestoreCfg
open Verif Verif.Ckpt

/-- `RestoreCheckpointConfig.mode`; `other` is any other string (rejected by
`__post_init__`, logged by the function). -/
inductive Mode where
  | specific | latest | all | other
  deriving DecidableEq, Repr

/-- The fields of `RestoreCheckpointConfig` that the choice depends on.
`paths` is `[path]` for a single string, utils.py:944-948.  `tag` stands for the
remaining fields. -/
structure Cfg (τ : Type) where
  mode : Mode
  paths : List Name
  tag : τ

/-- The file system as seen by the choice. -/
structure World where
  /-- `gfile.isdir`. -/
  isDir : Name → Bool
  /-- `tf.train.get_checkpoint_state(d).all_model_checkpoint_paths`, if any. -/
  tfPaths : Name → Option (List Name)
  /-- `checkpoints.all_steps`. -/
  steps : Name → List Nat

inductive Err where
  | notDirectory | multiple | modeAll | multiplePaths
  deriving DecidableEq, Repr

/-- utils.py:958-967: checkpoints in one directory. -/
def dirCkpts (w : World) (d : Name) : List Name :=
  match w.tfPaths d with
  | some ps => ps
  | none => (w.steps d).map (fun s => pathJoin d ("checkpoint_".toList ++ dec s))

/-- utils.py:952-976: the loop over the directories of one configuration;
`none`: no checkpoint in any of them. -/
def scanDirs (w : World) (latestOnly : Bool) : List Name → Except Err (Option (List Name))
  | [] => .ok none
  | d :: ds =>
    if !w.isDir d then .error .notDirectory
    else
      let ps := dirCkpts w d
      if ps.isEmpty then scanDirs w latestOnly ds
      else .ok (some (if latestOnly then ps.drop (ps.length - 1) else ps))

variable {τ : Type}

/-- utils.py:926-979. -/
def firstValid (w : World) : List (Cfg τ) → Except Err (Option (Cfg τ) × List Name)
  | [] => .ok (none, [])
  | c :: cs =>
    match c.mode with
    | .specific => .ok (some c, c.paths)
    | .other => firstValid w cs
    | .latest => match scanDirs w true c.paths with
      | .error e => .error e
      | .ok (some ps) => .ok (some c, ps)
      | .ok none => firstValid w cs
    | .all => match scanDirs w false c.paths with
      | .error e => .error e
      | .ok (some ps) => .ok (some c, ps)
      | .ok none => firstValid w cs

/-- `checkpoint_cfg.restore` as seen by train.py:331-348: a single path or a
sequence of paths. -/
structure TrainRestore (τ : Type) where
  cfg : Cfg τ
  isStr : Bool

/-- train.py:315-348: the list of candidate configurations: `resume`, built for
`model_dir`, then the configured initial checkpoint. -/
def trainCfgs (resume : Cfg τ) : Option (TrainRestore τ) → Except Err (List (Cfg τ))
  | none => .ok [resume]
  | some r =>
    if r.cfg.mode = .all then .error .modeAll
    else if r.isStr then .ok [resume, r.cfg]
    else if r.cfg.paths.isEmpty then .ok [resume]
    else .error .multiplePaths

/-- train.py:306-369: the configuration and path used to initialise training;
`none` means from scratch. -/
def trainSource (w : World) (modelDir : Name) (resumeTag : τ) (restore : Option (TrainRestore τ)) :
    Except Err (Option (Cfg τ) × Option Name) :=
  match trainCfgs ⟨.latest, [modelDir], resumeTag⟩ restore with
  | .error e => .error e
  | .ok cfgs => match firstValid w cfgs with
    | .error e => .error e
    | .ok (c, ps) =>
      if ps.length > 1 then .error .multiple
      else .ok (c, ps.head?)

/-- utils.py:1171-1202 `from_checkpoint`: restores at most one checkpoint; `none`
is "no checkpoint". -/
def fromCheckpoint (w : World) (cfgs : List (Cfg τ)) : Except Err (Option (Cfg τ × Name)) :=
  match firstValid w cfgs with
  | .error e => .error e
  | .ok (none, _) => .ok none
  | .ok (some c, ps) =>
    if ps.length > 1 then .error .multiple
    else .ok (ps.head?.map (fun p => (c, p)))

end Verif.RestoreCfg
