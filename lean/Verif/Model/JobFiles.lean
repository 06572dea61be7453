import Verif.Model.TrainJob
import Verif.Model.SaveRestore
import Verif.Model.StartState
/-
A training job with the files it writes: the job of `Verif.TrainJob` (`/repo/t5x/train.py`, lines 96-812) with the train states written and read as
in `Verif.SaveRestore` (`/repo/t5x/checkpoints.py`, `Checkpointer.save` lines 742-845, `Checkpointer.restore` lines 1026-1159).

The directory of a checkpoint holds the msgpack file `checkpoint`, one entry per tensorstore array, and the files of the input pipeline.
Simplifications: a tensorstore array is one file (in reality a directory with chunks); otherwise those of the two models.
-/
namespace Verif.JobFiles
open Verif Verif.StateDict Verif.SaveRestore
open Verif.Ckpt (FName Dir ckptName pathJoin)
open Verif.TsPath (Str)
open Verif.StartState (Transform bindResuming restoreWith)

variable {A T σ B S : Type} [DecidableEq T]

/-- What a file holds. -/
inductive Content (A T σ : Type) where
  | msg (f : Dict (Option (FLeaf A T)))
  | arr (a : A)
  | ds (s : σ)

/-- Name of the msgpack file, checkpoints.py:837. -/
def msgName : FName := "checkpoint".toList

/-- The path of a directory inside its storage: without `gs://bucket/`. -/
def baseOf (D : Str) : Str :=
  match TsPath.matchGs D with
  | some (_, d) => d
  | none => D

/-- With a slash at the end. -/
def slashed (b : Str) : Str := if b = [] ∨ b.getLast? = some '/' then b else b ++ ['/']

/-- The name of a place below the directory `D`, if it is there. -/
def under (D : Str) (l : TsPath.Spec) : Option FName :=
  match l.kvPath with
  | none => none
  | some q => if (slashed (baseOf D)).isPrefixOf q then some (q.drop (slashed (baseOf D)).length) else none

/-- How a job stores its train state: `Checkpointer(train_state, partitioner, checkpoints_dir, save_dtype, ...)`; the checkpointer is made for a state
of the shapes and dtypes of `like_`. -/
structure Store (A T : Type) where
  O : Ops A T
  /-- `save_dtype`; also the dtype for resuming (`train.py` lines 314-319). -/
  dtype : Option T
  /-- `params_on_devices`. -/
  onDevices : Bool
  /-- `model_dir`. -/
  dir : Str
  /-- Which parameters have axes. -/
  axes : List Key → Bool
  like_ : Dict (Option A)
  /-- The state transformations configured for the initial checkpoint. -/
  fns : List (Transform A T)

/-- `self._parameter_infos`, checkpoints.py:602. -/
def Store.infos (c : Store A T) : Dict (Option (Info T)) := parameterInfos c.O c.dir c.axes c.like_

/-- The files with the train state, written below `D` (`_write_state_to_tensorstore` lines 847-978 and the msgpack file, lines 816-821).  Nothing if
writing fails. -/
def encState (c : Store A T) (D : Str) (s : Dict (Option A)) : List (FName × Content A T σ) :=
  match writeState c.O c.dtype D c.infos s with
  | .error _ => []
  | .ok o => (msgName, .msg (file o)) :: (writes o).filterMap fun w => (under D w.1).map fun f => (f, .arr w.2)

/-- A file that is a complete array. -/
def asArr : Option (Option (Content A T σ)) → Option A
  | some (some (.arr a)) => some a
  | _ => none

/-- The arrays that are found in directory `D` with files `d`. -/
def diskOf (D : Str) (d : Dir (Content A T σ)) : TsPath.Spec → Option A := fun l => (under D l).bind fun f => asArr (PyDict.get d f)

/-- `Checkpointer.restore` from directory `D` with files `d`, when the job resumes (`train.py` lines 300-328: the transformations are bound to
`is_resuming=True`, no fallback).  `none`: an exception. -/
def decState (c : Store A T) (D : Str) (d : Dir (Content A T σ)) : Option (Dict (Option A)) :=
  match PyDict.get d msgName with
  | some (some (.msg f)) => (restoreWith c.O c.dtype c.onDevices D (diskOf D d) (c.fns.map bindResuming) c.infos f none).toOption
  | _ => none

/-- What the job computes: the initial train state (`Verif.StartState`), the step of the trainer, the input pipeline; `state_dict` and
`restore_state` of the train state. -/
structure Comp (S A σ B : Type) where
  init : S
  stepOf : S → Nat
  step : S → (Nat → Option B) → S
  pipe : DsCkpt.Pipe σ B
  seed : Nat
  toDict : S → Dict (Option A)
  ofDict : Dict (Option A) → Option S

def asDs : Content A T σ → Option σ
  | .ds s => some s
  | _ => none

/-- The job.  The files are written below `tmp` (`C125_tmp`: wherever that is) and read from `model_dir/checkpoint_N`. -/
def prog (c : Store A T) (x : Comp S A σ B) (tmp : Str) : TrainJob.Prog S σ B (Content A T σ) where
  init := x.init
  stepOf := x.stepOf
  step := x.step
  pipe := x.pipe
  seed := x.seed
  encM m := encState c tmp (x.toDict m)
  decM n d := (decState c (pathJoin c.dir (ckptName n)) d).bind x.ofDict
  encS := .ds
  decS := asDs

end Verif.JobFiles
