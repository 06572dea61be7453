import Verif.Model.CkptName
import Verif.Model.PyDict
import Mathlib.Order.BoundedOrder.Basic
import Mathlib.Data.List.Sort
/-
Model of saving, pruning, pinning and selecting checkpoints:
t5x/checkpoints.py (Checkpointer.save, _remove_old_checkpoints,
_remove_old_dataset_checkpoints, restore's choice of a path,
SaveBestCheckpointer._remove_old_checkpoints) and t5x/checkpoint_utils.py
(pin, unpin, remove_checkpoint_dir, remove_dataset_checkpoint).

A checkpoint directory is a dictionary of entries; an entry is a dictionary from
file names to contents, where the content `none` stands for a file that is only
partly written.  Simplifications: nested sub-directories are flattened into file
names; the operations of all hosts between two barriers are one list of writes
(any interleaving of the hosts is such a list); files are listed in creation
order by `rmtree`; the checkpoint directory is not on `gs://` except in
`saveOpsGs`.
-/
namespace Verif.Ckpt
open Verif

variable {δ : Type}

abbrev FName := List Char
/-- One entry of the checkpoint directory. -/
abbrev Dir (δ : Type) := List (FName × Option δ)
/-- The checkpoint directory. -/
abbrev FS (δ : Type) := List (Name × Dir δ)

/-- The file-system operations issued by `save`. -/
inductive Op (δ : Type) where
  /-- `gfile.makedirs`: no error if it exists. -/
  | mkdir (n : Name)
  /-- (over)write a file; `none` is an intermediate, incomplete content. -/
  | write (n : Name) (f : FName) (c : Option δ)
  /-- `gfile.rename`, atomic. -/
  | rename (a b : Name)
  /-- `gfile.remove` of one file. -/
  | rm (n : Name) (f : FName)
  /-- removal of the directory itself at the end of `gfile.rmtree`. -/
  | rmdir (n : Name)

/-- Effect of one operation. -/
def applyOp (fs : FS δ) : Op δ → FS δ
  | .mkdir n => if PyDict.has fs n then fs else PyDict.set fs n []
  | .write n f c => match PyDict.get fs n with
    | none => fs
    | some d => PyDict.set fs n (PyDict.set d f c)
  | .rename a b => match PyDict.get fs a with
    | none => fs
    | some d => PyDict.set (PyDict.pop fs a) b d
  | .rm n f => match PyDict.get fs n with
    | none => fs
    | some d => PyDict.set fs n (PyDict.pop d f)
  | .rmdir n => PyDict.pop fs n

def runOps (fs : FS δ) (ops : List (Op δ)) : FS δ := ops.foldl applyOp fs

/-- checkpoints.py:707-709 `all_steps`. -/
def allSteps (fs : FS δ) : List Nat := allStepsOf (PyDict.keys fs)

/-- checkpoints.py:715-717 `latest_step`. -/
def latestStep (fs : FS δ) : Option Nat := latestOf (PyDict.keys fs)

/-- checkpoint_utils.py:34. -/
def pinnedFile : FName := "PINNED".toList

/-- checkpoint_utils.py:44-49 `is_pinned_checkpoint`. -/
def isPinned (fs : FS δ) (n : Name) : Bool :=
  match PyDict.get fs n with
  | none => false
  | some d => PyDict.has d pinnedFile

/-- checkpoint_utils.py:52-65 `pin_checkpoint` (a missing directory is an error
and changes nothing). -/
def pin (fs : FS δ) (step : Nat) : FS δ := applyOp fs (.write (ckptName step) pinnedFile none)

/-- checkpoint_utils.py:68-78 `unpin_checkpoint`. -/
def unpin (fs : FS δ) (step : Nat) : FS δ :=
  if isPinned fs (ckptName step) then applyOp fs (.rm (ckptName step) pinnedFile) else fs

/-- `gfile.rmtree` of an existing directory. -/
def rmtreeOps (n : Name) (d : Dir δ) : List (Op δ) := d.map (fun e => .rm n e.1) ++ [.rmdir n]

/-- The loops at checkpoints.py:739-740 and 1611-1612 over
checkpoint_utils.py:81-87 `remove_checkpoint_dir`; the Boolean is false when
`rmtree` is called on a directory that does not exist and raises. -/
def removeCkpts (fs : FS δ) : List Nat → List (Op δ) × Bool
  | [] => ([], true)
  | s :: rest =>
    if isPinned fs (ckptName s) then removeCkpts fs rest
    else match PyDict.get fs (ckptName s) with
      | none => ([], false)
      | some d =>
        let ops := rmtreeOps (ckptName s) d
        let r := removeCkpts (runOps fs ops) rest
        (ops ++ r.1, r.2)

/-- Which of the two checkpointers prunes, with its configuration.  The metric
values are elements of a bounded linear order: floats without NaN, with
`⊥`/`⊤` the infinities. -/
inductive Policy (α : Type) where
  /-- `Checkpointer(keep=...)`. -/
  | newest (keep : Option Nat)
  /-- `SaveBestCheckpointer(keep, metric_mode == 'max',
  keep_checkpoints_without_metrics, force_keep_period)` and the outcome of
  `populate_metrics_for_steps`. -/
  | best (keep : Option Nat) (maxMode keepWithout : Bool) (period : Option Nat) (metric : Nat → Option α)

/-- A Python integer option used as a condition: `None` and `0` are false. -/
def truthy : Option Nat → Option Nat
  | none => none
  | some 0 => none
  | some (k + 1) => some (k + 1)

/-- checkpoints.py:1554-1564 `_filter_out_force_keep_period_steps`. -/
def filterPeriod (p : Nat) (steps : List Nat) : List Nat :=
  match steps.getLast? with
  | none => steps
  | some last => steps.dropLast.filter (fun s => s % p ≠ 0) ++ [last]

/-- checkpoints.py:1571-1574: the steps considered for removal. -/
def existingSteps (period : Option Nat) (steps : List Nat) : List Nat :=
  match truthy period with
  | none => steps
  | some p => filterPeriod p steps

section policy
variable {α : Type} [LinearOrder α] [BoundedOrder α]

/-- checkpoints.py:1603-1608: stable sort by metric; `reverse=True` keeps the
order of equal elements. -/
def sortByMetric (maxMode : Bool) (metric : Nat → Option α) (steps : List Nat) : List Nat :=
  if maxMode then steps.insertionSort (fun a b => (metric a).getD ⊥ ≤ (metric b).getD ⊥)
  else steps.insertionSort (fun a b => (metric b).getD ⊤ ≤ (metric a).getD ⊤)

/-- The steps handed to `remove_checkpoint_dir`: checkpoints.py:730-740 for the
plain checkpointer, 1566-1612 for the save-best one. -/
def removalList : Policy α → List Nat → List Nat
  | .newest keep, steps => match truthy keep with
    | none => []
    | some k => steps.take (steps.length - k)
  | .best keep maxMode keepWithout period metric, steps => match truthy keep with
    | none => []
    | some k =>
      let existing := existingSteps period steps
      if existing.length ≤ k + 1 then []
      else
        let latest := existing.getLast?.toList
        let existing := existing.dropLast
        let existing := if keepWithout then existing.filter (fun s => (metric s).isSome) else existing
        (sortByMetric maxMode metric existing ++ latest).take (existing.length - k)

/-- `_TRAIN_DS_PREFIX`, checkpoints_utils.py:32. -/
def dsPrefix : FName := "train_ds".toList

/-- checkpoints_utils.py:49-57 `all_dataset_checkpoint_steps`: sorted set of the
steps whose directory has a file `train_ds-*`. -/
def dsSteps (fs : FS δ) : List Nat :=
  ((fs.filter (fun e => (PyDict.keys e.2).any (fun f => (dsPrefix ++ ['-']).isPrefixOf f))).filterMap
    (fun e => stepOfName e.1)).dedup.insertionSort (· ≤ ·)

/-- checkpoint_utils.py:90-98 `remove_dataset_checkpoint`. -/
def removeDsOps (fs : FS δ) (s : Nat) : List (Op δ) :=
  if isPinned fs (ckptName s) then []
  else match PyDict.get fs (ckptName s) with
    | none => []
    | some d => ((PyDict.keys d).filter (fun f => dsPrefix.isPrefixOf f)).map (fun f => .rm (ckptName s) f)

/-- checkpoints.py:719-728 `_remove_old_dataset_checkpoints`. -/
def pruneDsOps (fs : FS δ) (keepDs : Option Nat) : List (Op δ) :=
  match truthy keepDs with
  | none => []
  | some k => ((dsSteps fs).take ((dsSteps fs).length - k)).flatMap (removeDsOps fs)

/-- What a `save` call is to write: the step, the time stamp, the full contents,
and the sequence of file writes that produces them, with incomplete
intermediate contents (`none`). -/
structure Job (δ : Type) where
  step : Nat
  stamp : Nat
  files : List (FName × δ)
  writes : List (FName × Option δ)

/-- checkpoints.py:784-831: everything up to and including the rename. -/
def writeOps (job : Job δ) : List (Op δ) :=
  let tmp := tmpName job.step job.stamp
  .mkdir tmp :: (job.writes.map (fun w => .write tmp w.1 w.2) ++ [.rename tmp (ckptName job.step)])

/-- checkpoints.py:835-836: pruning, run after the rename. -/
def pruneOps (pol : Policy α) (keepDs : Option Nat) (fs : FS δ) : List (Op δ) :=
  let r := removeCkpts fs (removalList pol (allSteps fs))
  if r.2 then r.1 ++ pruneDsOps (runOps fs r.1) keepDs else r.1

/-- checkpoints.py:742-845 `save`: all file-system operations, in order. -/
def saveOps (pol : Policy α) (keepDs : Option Nat) (fs : FS δ) (job : Job δ) : List (Op δ) :=
  if PyDict.has fs (ckptName job.step) then []
  else writeOps job ++ pruneOps pol keepDs (runOps fs (writeOps job))

/-- Whether `save` raises (a directory to be removed does not exist). -/
def saveRaises (pol : Policy α) (fs : FS δ) (job : Job δ) : Bool :=
  if PyDict.has fs (ckptName job.step) then false
  else
    let fs1 := runOps fs (writeOps job)
    !(removeCkpts fs1 (removalList pol (allSteps fs1))).2

/-- The operations on `gs://` paths, checkpoints.py:824-829: `gsutil mv` copies
the files one after the other and removes the originals.  Pruning is left out. -/
def saveOpsGs (fs : FS δ) (job : Job δ) : List (Op δ) :=
  let tmp := tmpName job.step job.stamp
  if PyDict.has fs (ckptName job.step) then []
  else .mkdir tmp :: (job.writes.map (fun w => .write tmp w.1 w.2) ++
    .mkdir (ckptName job.step) ::
    job.files.flatMap (fun f => [.write (ckptName job.step) f.1 (some f.2), .rm tmp f.1]) ++ [.rmdir tmp])

/-- The directory together with the jobs whose rename was executed, most recent
first.  `log` is not part of the program; it records what was completed. -/
structure St (δ : Type) where
  fs : FS δ
  log : List (Job δ)

/-- What can happen to a checkpoint directory over time. -/
inductive Ev (δ α : Type) where
  /-- A call of `save`; `crash = some c`: the process dies after `c` operations. -/
  | save (pol : Policy α) (keepDs : Option Nat) (job : Job δ) (crash : Option Nat)
  | pin (step : Nat)
  | unpin (step : Nat)

/-- The operations of a call that are executed before the crash. -/
def executed (ops : List (Op δ)) : Option Nat → List (Op δ)
  | none => ops
  | some c => ops.take c

/-- One event. -/
def execEv (st : St δ) : Ev δ α → St δ
  | .save pol keepDs job crash =>
    let ops := executed (saveOps pol keepDs st.fs job) crash
    { fs := runOps st.fs ops
      log := if !PyDict.has st.fs (ckptName job.step) && (writeOps job).length ≤ ops.length
        then job :: st.log else st.log }
  | .pin s => { st with fs := pin st.fs s }
  | .unpin s => { st with fs := unpin st.fs s }

/-- A history, starting from an empty directory. -/
def history (evs : List (Ev δ α)) : St δ := evs.foldl execEv ⟨[], []⟩

end policy

/-! ### What `restore` reads -/

inductive RestoreErr where
  | bothGiven | noCheckpoints | invalidPath
  deriving DecidableEq, Repr

/-- checkpoints.py:1032-1053: the checkpoint file chosen by
`Checkpointer.restore(step, path)`.  `isDir` and `exists_` are the file system,
`latest` is `self.latest_step()`. -/
def restorePath (d : Name) (isDir exists_ : Name → Bool) (latest : Option Nat)
    (step : Option Nat) (path : Option Name) : Except RestoreErr Name :=
  if step.isSome ∧ path.isSome then .error .bothGiven
  else do
    let ckptPath ← match path with
      | some (c :: p) => pure (c :: p)
      | _ => match step with
        | some s => pure (getCheckpointDir "checkpoint".toList d s)
        | none => match truthy latest with
          | none => throw .noCheckpoints
          | some s => pure (getCheckpointDir "checkpoint".toList d s)
    let file :=
      if isDir ckptPath then
        if isDir (pathJoin ckptPath "state".toList) then
          pathJoin (pathJoin ckptPath "state".toList) "checkpoint".toList
        else pathJoin ckptPath "checkpoint".toList
      else ckptPath
    if !exists_ file || isDir file then throw .invalidPath else pure file

/-- checkpoints.py:1803-1832 `find_checkpoint`. -/
def findCheckpoint (isDir exists_ : Name → Bool) (latest : Name → Option Nat)
    (path : Name) (step : Option Nat) : Except RestoreErr Name :=
  let file :=
    if isDir path then
      let step := match step with
        | none => latest path
        | some s => some s
      let path := match step with
        | none => path
        | some s => getCheckpointDir "checkpoint".toList path s
      pathJoin path "checkpoint".toList
    else path
  if !exists_ file || isDir file then throw .invalidPath else pure file

end Verif.Ckpt
