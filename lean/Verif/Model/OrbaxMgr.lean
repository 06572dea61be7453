import Verif.Model.CkptDir
import Verif.Model.Msgpack
/-
Which checkpoint the Orbax manager restores, and how it is configured: `detect_checkpoint_type`
(`/repo/t5x/checkpoint_utils.py`, lines 172-250), the beginning of `OrbaxCheckpointManagerInterface.restore`
(`/repo/t5x/checkpoints.py`, lines 2408-2454), `create_orbax_checkpoint_manager` (`/repo/t5x/utils.py`, lines 1263-1379) and, to
compare, the arguments of the checkpointers of `LegacyCheckpointManager` (`/repo/t5x/utils.py`, lines 349-397).
The directory prefix is the default one.
-/
namespace Verif.OrbaxMgr
open Verif
open Verif.Ckpt (Name pathJoin pathSplit getStepFromCheckpointDir findCheckpoint restorePath)

/-! ### Formats -/

/-- `CheckpointTypes`. -/
inductive CkptType | orbax | t5x | t5xTf
deriving DecidableEq, Repr

/-- A file called `checkpoint`: it starts with `model_checkpoint_path`, or is read as msgpack. -/
inductive Content
  | tf
  | msgpack (ts : List Msgpack.Tok)

/-- The file system.  `latest d` is `latest_step(d)`. -/
structure World where
  isDir : Name → Bool
  exists_ : Name → Bool
  content : Name → Content
  latest : Name → Option Nat

inductive Err
  | bothGiven | badPath | tfCheckpoint
  | unreadable (e : Msgpack.Err)
  | legacy (e : Ckpt.RestoreErr)
deriving DecidableEq, Repr

/-- `_contains_orbax_metadata`, checkpoint_utils.py:140-146. -/
def hasMetadata (w : World) (p : Name) : Bool := w.exists_ (pathJoin (pathSplit p).1 "_METADATA".toList)

/-- `detect_checkpoint_type`, without the warnings.  All three branches after reading the keys return `T5X`. -/
def detect (w : World) (p : Name) : Except Err CkptType :=
  if hasMetadata w p then .ok .orbax
  else match w.content p with
    | .tf => .ok .t5xTf
    | .msgpack ts => match Msgpack.readKeys ts with
      | .error e => .error (.unreadable e)
      | .ok _ => .ok .t5x

/-! ### Restoring -/

/-- What is read: step `step` of directory `dir` by Orbax, or a file by `Checkpointer`. -/
inductive Source
  | orbax (dir : Name) (step : Option Nat)
  | legacy (file : Name)
deriving DecidableEq, Repr

def prefix_ : Name := "checkpoint".toList

/-- `legacy_checkpointer.restore(path=path)`, lines 2443-2454: no `step` is passed. Its own check of the format is lines 1055-1063. -/
def legacySource (w : World) (dir : Name) (path : Option Name) : Except Err Source :=
  match restorePath dir w.isDir w.exists_ (w.latest dir) none path with
  | .error e => .error (.legacy e)
  | .ok f => match detect w f with
    | .error e => .error e
    | .ok .t5xTf => .error .tfCheckpoint
    | .ok _ => .ok (.legacy f)

/-- Lines 2420-2454: the checkpoint of `step` in `directory`, by its format. -/
def byFormat (w : World) (dir directory : Name) (step : Option Nat) (path : Option Name) : Except Err Source :=
  match findCheckpoint w.isDir w.exists_ w.latest directory step with
  | .error _ => .ok (.orbax directory step)
  | .ok f => match detect w f with
    | .error e => .error e
    | .ok .t5xTf => .error .tfCheckpoint
    | .ok .t5x => legacySource w dir path
    | .ok .orbax => .ok (.orbax directory step)

/-- `restore`, lines 2411-2454; `dir` is `self.directory`. -/
def restoreSource (w : World) (dir : Name) (step : Option Nat) (path : Option Name) : Except Err Source :=
  if step.isSome ∧ path.isSome then .error .bothGiven
  else match path with
    | none => byFormat w dir dir step none
    | some p => match getStepFromCheckpointDir prefix_ p with
      | none => .error .badPath
      | some (directory, step) => byFormat w dir directory (some step) (some p)

/-! ### Configuration -/

/-- Values of keyword arguments. -/
abbrev Kwargs (V : Type) := List (Name × V)

/-- `checkpointer_cls`: a `functools.partial` whose signature has these defaults, or a class; `saveBest`: it is (a subclass of)
`SaveBestCheckpointer`. -/
inductive Cls (V : Type)
  | partial_ (defaults : Kwargs V)
  | cls (saveBest : Bool)

structure SaveCfg (V D M : Type) where
  dtype : Option D
  keep : Option Nat
  period : Option Nat
  saveDataset : Bool
  cls : Cls V
  manager : M

structure RestoreCfg (V D M : Type) where
  dtype : Option D
  restoreDataset : Bool
  cls : Cls V
  manager : M

/-- The arguments the manager is constructed with. -/
structure Args (V D M It : Type) where
  manager : M
  it : Option It
  saveDtype : Option D
  restoreDtype : Option D
  keep : Option Nat
  period : Option Nat
  extra : Kwargs V

/-- `_is_relevant_arg`. -/
def relevant : List Name :=
  ["metric_name_to_monitor".toList, "metric_mode".toList, "keep_checkpoints_without_metrics".toList, "force_keep_period".toList]

/-- `type(cfg.checkpointer_cls)` of a class is its metaclass, `type`, which is not a subclass of `SaveBestCheckpointer`. -/
def typeIsSaveBest (_saveBest : Bool) : Bool := false

/-- `_get_extra_kwargs`, lines 1309-1339; `best` are the settings of a `SaveBestCheckpointer` made with its defaults. -/
def extraKwargs {V : Type} (best : Kwargs V) : Cls V → Kwargs V
  | .partial_ defaults => defaults.filter (fun e => e.1 ∈ relevant)
  | .cls saveBest => if typeIsSaveBest saveBest then best else []

inductive CfgErr | managersDiffer | noManager
deriving DecidableEq

/-- `create_orbax_checkpoint_manager`, lines 1263-1379. -/
def create {V D M It : Type} [DecidableEq M] (best : Kwargs V) (save : Option (SaveCfg V D M)) (restore : Option (RestoreCfg V D M))
    (it : Option It) : Except CfgErr (Args V D M It) :=
  match save, restore with
  | none, none => .error .noManager
  | some s, none => .ok ⟨s.manager, if s.saveDataset then it else none, s.dtype, none, s.keep, s.period, extraKwargs best s.cls⟩
  | none, some r => .ok ⟨r.manager, if r.restoreDataset then it else none, none, r.dtype, none, none, extraKwargs best r.cls⟩
  | some s, some r =>
    if s.manager ≠ r.manager then .error .managersDiffer
    else
      let extra := extraKwargs best s.cls
      .ok ⟨r.manager, if s.saveDataset || r.restoreDataset then it else none, s.dtype, r.dtype, s.keep, s.period,
        if extra.isEmpty then extraKwargs best r.cls else extra⟩

/-- The iterators of the two checkpointers of `LegacyCheckpointManager` (lines 367 and 380): the one that saves, the one that
restores. -/
def legacyIterators {V D M It : Type} (save : Option (SaveCfg V D M)) (restore : Option (RestoreCfg V D M)) (it : Option It) :
    Option It × Option It :=
  ((match save with
    | none => none
    | some s => if s.saveDataset then it else none),
   (match restore with
    | none => none
    | some r => if r.restoreDataset then it else none))

end Verif.OrbaxMgr
