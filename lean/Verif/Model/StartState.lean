import Verif.Model.RestoreCfg
import Verif.Model.OrbaxMgr
import Verif.Model.Fallback
/-
The train state with which a job starts, and what happens to the input pipeline: `/repo/t5x/utils.py` lines 127-226 (configurations), 229-466
(`LegacyCheckpointer`, `LegacyCheckpointManager`), 469-526 (`restore`), 982-1003 (`get_fallback_state`), 1085-1202 (`TrainStateInitializer`),
1205-1260 (`create_checkpoint_manager_and_restore`), and its callers: `/repo/t5x/train.py` lines 306-389, `/repo/t5x/eval.py` lines 320-377,
`/repo/t5x/infer.py` lines 517-531, `/repo/t5x/export_lib.py` lines 417-442 and `/repo/t5x/interactive_model.py` lines 185-266.

Which configuration and paths are used is `Verif.Model.RestoreCfg`, the arguments of the Orbax manager are `Verif.Model.OrbaxMgr`.  Reading one
checkpoint is a parameter (`Io`); `Verif.Model.SaveRestore`, `Fallback`, `ConvertTf` and `Orbax` are models of it.

Simplifications: paths are strings (a sequence of paths is only looked at by the choice).  The types of the options are arbitrary types, so that
the checks of their values in `__post_init__` are left out.  A `TrainState` is true in a boolean context.
-/
namespace Verif.StartState
open Verif
open Verif.Ckpt (Name)
open Verif.RestoreCfg (Cfg TrainRestore World firstValid trainCfgs)

/-- `SaveCheckpointConfig`, utils.py:127-162, without `keep_dataset_checkpoints` and `state_transformation_fns`. -/
structure Save (K M Ty : Type) where
  dtype : Option Ty
  period : Option Nat
  steps : List Nat
  keep : Option Nat
  saveDataset : Bool
  cls : K
  manager : M

/-- `RestoreCheckpointConfig`, utils.py:165-203, without `path` and `mode` (which are in `RestoreCfg.Cfg`).  `fns` is `state_transformation_fns` after
`__post_init__`. -/
structure Restore (K M Ty Fn : Type) where
  strict : Bool
  fallback : Bool
  dtype : Option Ty
  restoreDataset : Bool
  cls : K
  fns : List Fn
  manager : M

/-- `__post_init__`, utils.py:205-226: `map` is the transformation made of the assignment map, if there is one. -/
def postInit {K M Ty Fn : Type} (map : Option Fn) (r : Restore K M Ty Fn) : Restore K M Ty Fn :=
  match map with
  | none => r
  | some f => { r with fns := f :: r.fns }

/-- What is used of the outside world.  `S` are train states, `D` state dicts, `It` states of the input pipeline, `R` random keys, `ε` the
exceptions of reading. -/
structure Io (K M Ty Fn D S It R V ε : Type) where
  /-- `gfile.exists(path + '.index')`. -/
  isTf : Name → Bool
  /-- `checkpointer_cls(..., dataset_iterator, restore_dtype).restore(path, state_transformation_fns, fallback_state)`; the `Bool` says whether there
  is a dataset iterator, and the result has the state that it then has. -/
  t5x : K → Option Ty → Bool → Name → List Fn → Option D → Except ε (S × Option It)
  /-- `restore_from_tf_checkpoint(path, strict)`; it does not look at the iterator. -/
  tf : K → Option Ty → Name → Bool → Except ε S
  /-- The same for an Orbax manager. -/
  orbax : M → Option Ty → Bool → Name → List Fn → Option D → Except ε (S × Option It)
  orbaxTf : M → Option Ty → Name → Bool → Except ε S
  /-- `from_scratch`. -/
  scratch : R → S
  /-- `state_dict`. -/
  stateDict : S → D
  /-- What kind of value `checkpointer_cls` is. -/
  kind : K → OrbaxMgr.Cls V
  /-- The settings of a `SaveBestCheckpointer`. -/
  best : OrbaxMgr.Kwargs V

inductive Err (ε : Type) where
  | choice (e : RestoreCfg.Err)
  | tfTransforms    -- ValueError: TensorFlow checkpoint with state_transformation_fns
  | fallbackNoFns   -- ValueError: fallback_to_scratch without state_transformation_fns
  | fallbackNoRng   -- ValueError: fallback_to_scratch without init_rng
  | multiple        -- ValueError: Cannot restore multiple checkpoints / Expected at most 1 checkpoint
  | noRestorer      -- AttributeError: 'NoneType' object has no attribute 'restore'
  | noPath          -- AttributeError: 'NoneType' object has no attribute 'path'
  | noIterator      -- AssertionError: ds_iter is None
  | manager (e : OrbaxMgr.CfgErr)
  | notFound        -- ValueError: TrainState was not found or could not be restored
  | read (e : ε)
deriving DecidableEq

variable {K M Ty Fn D S It R V ε : Type}

/-- An exception of reading is passed on. -/
def lift {α : Type} : Except ε α → Except (Err ε) α
  | .ok a => .ok a
  | .error e => .error (.read e)

/-- `get_fallback_state`, utils.py:982-1003, with `init_fn = lambda rng: from_scratch(rng).state_dict()`. -/
def fallbackState (io : Io K M Ty Fn D S It R V ε) (cfg : Option (Restore K M Ty Fn)) (rng : Option R) : Except (Err ε) (Option D) :=
  match cfg with
  | none => .ok none
  | some c =>
    if c.fallback then
      if c.fns.isEmpty then .error .fallbackNoFns
      else match rng with
        | none => .error .fallbackNoRng
        | some r => .ok (some (io.stateDict (io.scratch r)))
    else .ok none

/-- The pipeline after a restore: its iterator was loaded, or not. -/
def loaded (it : Option It) : Option It → Option It
  | none => it
  | some j => some j

/-! ### `LegacyCheckpointManager` -/

/-- The arguments of the restoring checkpointer, utils.py:375-386: class, dtype, whether it has the iterator; and `strict`, 387-390. -/
structure Legacy (K Ty : Type) where
  restorer : Option (K × Option Ty × Bool)
  strict : Bool

/-- The assertion of utils.py:360-362 fails: the pipeline is to be saved, but not given. -/
def lacksIterator (save : Option (Save K M Ty)) (it : Option It) : Bool :=
  match save with
  | none => false
  | some s => s.saveDataset && it.isNone

/-- `LegacyCheckpointManager.__init__`, utils.py:348-394. -/
def legacyManager (save : Option (Save K M Ty)) (restore : Option (Restore K M Ty Fn)) (it : Option It) : Except (Err ε) (Legacy K Ty) :=
  if lacksIterator save it then .error .noIterator
  else match restore with
    | none => .ok ⟨none, false⟩
    | some r => .ok ⟨some (r.cls, r.dtype, r.restoreDataset && it.isSome), r.strict⟩

/-- `LegacyCheckpointer.restore`, utils.py:289-338. -/
def legacyRestore1 (io : Io K M Ty Fn D S It R V ε) (m : Legacy K Ty) (fns : List Fn) (fb : Option D) (path : Name) : Except (Err ε) (S × Option It) :=
  if io.isTf path && !fns.isEmpty then .error .tfTransforms
  else match m.restorer with
    | none => .error .noRestorer
    | some (cls, dtype, ds) =>
      if io.isTf path then
        match io.tf cls dtype path m.strict with
        | .ok s => .ok (s, none)
        | .error e => .error (.read e)
      else lift (io.t5x cls dtype ds path fns fb)

/-- A loop over the paths which restores one after the other.  The result is the list of states and the pipeline afterwards. -/
def restoreAll (f : Name → Except (Err ε) (S × Option It)) : List Name → Option It → Except (Err ε) (List S × Option It)
  | [], it => .ok ([], it)
  | p :: ps, it =>
    match f p with
    | .error e => .error e
    | .ok (s, j) =>
      match restoreAll f ps (loaded it j) with
      | .error e => .error e
      | .ok (ss, it') => .ok (s :: ss, it')

/-- What restoring returns: `None`, a train state, or a list of train states (utils.py:463-466 and 523-526: a list of one is unpacked). -/
inductive Restored (S : Type) where
  | nothing
  | one (s : S)
  | several (ss : List S)

def unpack : List S → Restored S
  | [s] => .one s
  | ss => .several ss

/-- `LegacyCheckpointManager.restore`, utils.py:423-466; `paths` is never `None`. -/
def legacyRestore (io : Io K M Ty Fn D S It R V ε) (m : Legacy K Ty) (paths : List Name) (cfg : Option (Restore K M Ty Fn)) (fb : Option D)
    (it : Option It) : Except (Err ε) (Restored S × Option It) :=
  match cfg with
  | none => .ok (.nothing, it)
  | some c =>
    match restoreAll (legacyRestore1 io m c.fns fb) paths it with
    | .error e => .error e
    | .ok (ss, it') => .ok (unpack ss, it')

/-! ### Orbax -/

/-- The loop of `restore`, utils.py:495-521; a TensorFlow checkpoint ends it at once, and is returned alone. -/
def orbaxLoop (io : Io K M Ty Fn D S It R V ε) (a : OrbaxMgr.Args V Ty M It) (c : Restore K M Ty Fn) (fb : Option D) :
    List Name → List S → Option It → Except (Err ε) (Restored S × Option It)
  | [], acc, it => .ok (unpack acc, it)
  | p :: ps, acc, it =>
    if io.isTf p then
      if c.fns.isEmpty then
        match io.orbaxTf a.manager a.restoreDtype p c.strict with
        | .ok s => .ok (.one s, it)
        | .error e => .error (.read e)
      else .error .tfTransforms
    else match io.orbax a.manager a.restoreDtype a.it.isSome p c.fns fb with
      | .error e => .error (.read e)
      | .ok (s, j) => orbaxLoop io a c fb ps (acc ++ [s]) (loaded it j)

/-- `restore`, utils.py:469-526. -/
def orbaxRestore (io : Io K M Ty Fn D S It R V ε) (a : OrbaxMgr.Args V Ty M It) (paths : List Name) (cfg : Option (Restore K M Ty Fn)) (fb : Option D)
    (it : Option It) : Except (Err ε) (Restored S × Option It) :=
  match cfg with
  | none => .ok (.nothing, it)
  | some c => orbaxLoop io a c fb paths [] it

/-- The fields of the configurations that the Orbax manager uses. -/
def orbaxSave (io : Io K M Ty Fn D S It R V ε) (s : Save K M Ty) : OrbaxMgr.SaveCfg V Ty M := ⟨s.dtype, s.keep, s.period, s.saveDataset, io.kind s.cls, s.manager⟩

def orbaxCfg (io : Io K M Ty Fn D S It R V ε) (r : Restore K M Ty Fn) : OrbaxMgr.RestoreCfg V Ty M := ⟨r.dtype, r.restoreDataset, io.kind r.cls, r.manager⟩

/-! ### `create_checkpoint_manager_and_restore` -/

variable [DecidableEq M]

/-- utils.py:1225-1257 (the part that restores). -/
def managerRestore (io : Io K M Ty Fn D S It R V ε) (save : Option (Save K M Ty)) (restore : Option (Restore K M Ty Fn)) (paths : List Name)
    (rng : Option R) (it : Option It) (useOrbax : Bool) : Except (Err ε) (Restored S × Option It) :=
  if useOrbax then
    match OrbaxMgr.create io.best (save.map (orbaxSave io)) (restore.map (orbaxCfg io)) it with
    | .error e => .error (.manager e)
    | .ok a =>
      match fallbackState io restore rng with
      | .error e => .error e
      | .ok fb => orbaxRestore io a paths restore fb it
  else
    match legacyManager save restore it with
    | .error e => .error e
    | .ok m =>
      match fallbackState io restore rng with
      | .error e => .error e
      | .ok fb => legacyRestore io m paths restore fb it

/-- `create_checkpoint_manager_and_restore`, utils.py:1205-1260: the train state, if any, and the pipeline.  `modelDir` says whether `model_dir` was given. -/
def createAndRestore (io : Io K M Ty Fn D S It R V ε) (save : Option (Save K M Ty)) (restore : Option (Restore K M Ty Fn)) (path : Option Name)
    (rng : Option R) (modelDir : Bool) (it : Option It) (useOrbax : Bool) : Except (Err ε) (Option S × Option It) :=
  if !modelDir && restore.isNone then .error .noPath
  else
    let paths := match path with
      | none => []
      | some p => if p.isEmpty then [] else [p]
    match managerRestore io save restore paths rng it useOrbax with
    | .error e => .error e
    | .ok (.nothing, it') => .ok (none, it')
    | .ok (.one s, it') => .ok (some s, it')
    | .ok (.several _, _) => .error .multiple

/-! ### `TrainStateInitializer` -/

/-- `_restore_path`, utils.py:1130-1164. -/
def initRestore1 (io : Io K M Ty Fn D S It R V ε) (c : Restore K M Ty Fn) (rng : Option R) (it : Option It) (path : Name) :
    Except (Err ε) (S × Option It) :=
  if io.isTf path then
    if c.fns.isEmpty then
      match io.tf c.cls c.dtype path c.strict with
      | .ok s => .ok (s, none)
      | .error e => .error (.read e)
    else .error .tfTransforms
  else match fallbackState io (some c) rng with
    | .error e => .error e
    | .ok fb => lift (io.t5x c.cls c.dtype (c.restoreDataset && it.isSome) path c.fns fb)

/-- `from_checkpoint`, utils.py:1101-1192: all checkpoints are restored before they are counted. -/
def fromCheckpoint (io : Io K M Ty Fn D S It R V ε) (w : World) (cfgs : List (Cfg (Restore K M Ty Fn))) (rng : Option R) (it : Option It) :
    Except (Err ε) (Option S × Option It) :=
  match firstValid w cfgs with
  | .error e => .error (.choice e)
  | .ok (none, _) => .ok (none, it)
  | .ok (some c, ps) =>
    match restoreAll (initRestore1 io c.tag rng it) ps it with
    | .error e => .error e
    | .ok ([], it') => .ok (none, it')
    | .ok ([s], it') => .ok (some s, it')
    | .ok (_ :: _ :: _, _) => .error .multiple

/-- `from_checkpoint_or_scratch`, utils.py:1194-1202. -/
def fromCheckpointOrScratch (io : Io K M Ty Fn D S It R V ε) (w : World) (cfgs : List (Cfg (Restore K M Ty Fn))) (rng : R) (it : Option It) :
    Except (Err ε) (S × Option It) :=
  match fromCheckpoint io w cfgs (some rng) it with
  | .error e => .error e
  | .ok (some s, it') => .ok (s, it')
  | .ok (none, it') => .ok (io.scratch rng, it')

/-! ### The callers -/

/-- The defaults of `RestoreCheckpointConfig` and of train.py that are values of arbitrary types. -/
structure Defaults (K M Ty Fn : Type) where
  /-- `checkpoints.Checkpointer`. -/
  cls : K
  /-- `checkpoints.OrbaxCheckpointManagerInterface`. -/
  manager : M
  /-- 'float32'. -/
  f32 : Ty
  /-- `functools.partial(fn, is_resuming=True)`. -/
  resuming : Fn → Fn

/-- The configuration for the checkpoints of the job itself, train.py:308-330. -/
def resumeCfg (d : Defaults K M Ty Fn) (save : Option (Save K M Ty)) (restore : Option (Restore K M Ty Fn)) : Restore K M Ty Fn where
  strict := true
  fallback := false
  dtype := match save with
    | some s => s.dtype
    | none => some d.f32
  restoreDataset := match save with
    | some s => s.saveDataset
    | none => false
  cls := match save with
    | some s => s.cls
    | none => d.cls
  fns := match restore with
    | some r => r.fns.map d.resuming
    | none => []
  manager := d.manager

/-- How a job starts. -/
structure Start (S It : Type) where
  state : S
  it : Option It
  hasManager : Bool

/-- train.py:213-216 and 368: whether checkpoints are to be written. -/
def saves (save : Option (Save K M Ty)) : Bool :=
  match save with
  | none => false
  | some s => s.period.any (· ≠ 0) || !s.steps.isEmpty

/-- train.py:306-389. -/
def train (io : Io K M Ty Fn D S It R V ε) (d : Defaults K M Ty Fn) (w : World) (modelDir : Name) (save : Option (Save K M Ty))
    (restore : Option (TrainRestore (Restore K M Ty Fn))) (rng : R) (it : Option It) (useOrbax : Bool) : Except (Err ε) (Start S It) :=
  match RestoreCfg.trainSource w modelDir (resumeCfg d save (restore.map (·.cfg.tag))) restore with
  | .error e => .error (.choice e)
  | .ok (c, path) =>
    if c.isSome || saves save then
      match createAndRestore io save (c.map (·.tag)) path (some rng) (!modelDir.isEmpty) it useOrbax with
      | .error e => .error e
      | .ok (some s, it') => .ok ⟨s, it', true⟩
      | .ok (none, it') => .ok ⟨io.scratch rng, it', true⟩
    else .ok ⟨io.scratch rng, it, false⟩

/-- eval.py:320-377 for one of the chosen paths (their choice is `RestoreCfg.firstValid` and `Verif.Model.EvalAll`), and infer.py:517-531 with the path of
the configuration, whatever its mode: the parameters that are evaluated. -/
def evalState (io : Io K M Ty Fn D S It R V ε) (restore : Restore K M Ty Fn) (path : Name) (rng : Option R) (useOrbax : Bool) : Except (Err ε) S :=
  match createAndRestore io none (some { restore with strict := false }) (some path) rng false none useOrbax with
  | .error e => .error e
  | .ok (none, _) => .error .notFound
  | .ok (some s, _) => .ok s

/-- `load_params_from_checkpoint` with an initialiser, export_lib.py:423-442; `key0` is `PRNGKey(0)`. -/
def exportState (io : Io K M Ty Fn D S It R V ε) (w : World) (cfg : Cfg (Restore K M Ty Fn)) (key0 : R) : Except (Err ε) S :=
  match firstValid w [cfg] with
  | .error e => .error (.choice e)
  | .ok (c, ps) =>
    match ps with
    | [p] =>
      match createAndRestore io none (c.map (·.tag)) (some p) (some key0) false none true with
      | .error e => .error e
      | .ok (none, _) => .error .notFound
      | .ok (some s, _) => .ok s
    | _ => .error .multiple

/-- interactive_model.py:185-266: `given` is the configuration made of `checkpoint_path`, if there is one.  The manager is made for it, but is then also
used for a checkpoint in the output directory. -/
def interactive (io : Io K M Ty Fn D S It R V ε) (d : Defaults K M Ty Fn) (w : World) (outputDir : Name) (save : Save K M Ty)
    (given : Option (Cfg (Restore K M Ty Fn))) (rng : R) : Except (Err ε) S :=
  match legacyManager (some save) (given.map (·.tag)) (none : Option It) with
  | .error e => .error e
  | .ok m =>
    let own : Cfg (Restore K M Ty Fn) := ⟨.latest, [outputDir], resumeCfg d (some save) (given.map (·.tag))⟩
    match firstValid w (given.toList ++ [own]) with
    | .error e => .error (.choice e)
    | .ok (c, ps) =>
      match fallbackState io (c.map (·.tag)) (some rng) with
      | .error e => .error e
      | .ok fb =>
        match legacyRestore io m ps (c.map (·.tag)) fb none with
        | .error e => .error e
        | .ok (.nothing, _) => .ok (io.scratch rng)
        | .ok (.one s, _) => .ok s
        | .ok (.several _, _) => .error .multiple

/-! ### Reading with transformations -/

section Reading
open Verif.StateDict Verif.SaveRestore
open Verif.TsPath (Str)
variable {A T : Type} [DecidableEq T]

/-- A transformation of a state after reading: it may be told whether the job resumes (`none`: not told). -/
abbrev Transform (A T : Type) := Option Bool → Dict (Option (FLeaf A T)) → Except SaveRestore.Err (Dict (Option (FLeaf A T)))

/-- `functools.partial(fn, is_resuming=True)`. -/
def bindResuming (f : Transform A T) : Transform A T := fun _ => f (some true)

/-- `functools.partial(apply_assignment_map, assignment_map=rules)`, utils.py:216-220; `opt` is the state of the model.  `is_resuming=False` is the default. -/
def mapTransform (opt : Dict (Option (FLeaf A T))) (rules : List Rule) (requireAll : Bool) : Transform A T := fun resuming c =>
  match applyAssignmentMap c opt rules requireAll (resuming.getD false) with
  | .ok (some c') => .ok c'
  | _ => .error .structure

/-- `_get_optimizer_state_dict`, checkpoints.py:1648-1650: the transformations one after the other. -/
def runTransforms : List (Transform A T) → Dict (Option (FLeaf A T)) → Except SaveRestore.Err (Dict (Option (FLeaf A T)))
  | [], c => .ok c
  | f :: fs, c =>
    match f none c with
    | .error e => .error e
    | .ok c' => runTransforms fs c'

/-- `Checkpointer.restore`, checkpoints.py:1026-1159, with transformations, with or without a fallback state. -/
def restoreWith (O : Ops A T) (restoreDtype : Option T) (onDevices : Bool) (dir : Str) (dsk : TsPath.Spec → Option A)
    (fns : List (Transform A T)) (infos : Dict (Option (Info T))) (f : Dict (Option (FLeaf A T))) (fallback : Option (Dict (Option A))) :
    Except SaveRestore.Err (Dict (Option A)) :=
  match fallback with
  | some fb => Fallback.restoreFallback O restoreDtype onDevices dir dsk (runTransforms fns) infos f fb
  | none =>
    match convert dir f with
    | .error e => .error e
    | .ok f' =>
      match runTransforms fns f' with
      | .error e => .error e
      | .ok c =>
        match fill infos c with
        | .error e => .error e
        | .ok w =>
          match zipT (readLeaf O restoreDtype onDevices dir dsk) [] infos w with
          | .error e => .error e
          | .ok r => if restoreDtype.isSome && !r.keys.contains "target".toList then .error .noTarget else .ok r

end Reading

end Verif.StartState
