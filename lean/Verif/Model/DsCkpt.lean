import Verif.Model.CkptDir
import Verif.Model.LocalChunk
/-
Checkpoints of the input pipeline: the part of `Checkpointer.__init__`, `save` and `restore` about the dataset iterator
(`/repo/t5x/checkpoints.py`, lines 584-600, 793-806 and 1145-1151), `DatasetCheckpointHandler` (lines 1976-2035) and its use by
`OrbaxCheckpointManagerInterface` (lines 2256-2280, 2366-2372, 2491-2497).

Simplifications: an iterator is its state, a value of type `σ`; `save` writes the state to the file and `load` reads it back
(`clu` and `tf.train.Checkpoint`, trusted).  A checkpoint directory is new when it is written (`C20`), so the directories made
with `exist_ok=False` do not exist.  Files of other kinds are in `Verif.Ckpt`.
-/
namespace Verif.DsCkpt
open Verif
open Verif.Ckpt (Name dec decPad pathJoin dsPrefix)
open Verif.LocalChunk (Layout)

variable {σ B : Type}

/-- An input pipeline: the iterator of shard `sid` of `n` for a seed (`utils.get_dataset`, `/repo/t5x/utils.py` lines 1950-2042),
the batch it yields next, and what is left after it. -/
structure Pipe (σ B : Type) where
  init : (seed sid n : Nat) → σ
  out : σ → B
  next : σ → σ

/-- A process: `jax.process_index()`, its data layout, and `self._dataset_iterator`. -/
structure Host (σ : Type) where
  proc : Nat
  layout : Layout
  it : Option σ

/-- A process at the start of `train.py` (lines 268-271: `get_dataset_fn` gets the shard id and number of shards of the layout). -/
def start (p : Pipe σ B) (seed proc : Nat) (l : Layout) : Host σ :=
  ⟨proc, l, some (p.init seed l.shardId l.numShards)⟩

/-- `k` training steps, each takes a batch. -/
def steps (p : Pipe σ B) (k : Nat) (h : Host σ) : Host σ := { h with it := h.it.map (p.next^[k]) }

/-- The batch of the `j`-th training step from here. -/
def batchAt (p : Pipe σ B) (j : Nat) (h : Host σ) : Option B := h.it.map (fun s => p.out (p.next^[j] s))

/-- `_dataset_ckpt_name`, lines 594-597 and 2265-2268. -/
def dsName (l : Layout) : Name :=
  dsPrefix ++ '-' :: (decPad 3 l.shardId ++ "-of-".toList ++ decPad 3 l.numShards)

/-- `_should_write_dataset_ckpt`, lines 598-600 and 2269-2271. -/
def shouldWrite (h : Host σ) : Bool := h.it.isSome && h.layout.isFirstHost

/-- The files of the checkpoint directory that are about datasets. -/
abbrev Files (σ : Type) := List (Name × σ)

/-- Writing one file. -/
def write (fs : Files σ) (f : Name) (it : Option σ) : Files σ :=
  match it with
  | none => fs
  | some s => PyDict.set fs f s

/-- Lines 793-801 of `Checkpointer.save`, on one process. -/
def save1 (fs : Files σ) (h : Host σ) : Files σ :=
  if shouldWrite h then write fs (dsName h.layout) h.it else fs

/-- All processes save; the order does not matter (`C97_resume` holds for every list). -/
def save (hosts : List (Host σ)) : Files σ := hosts.foldl save1 []

/-- Lines 1145-1151 of `Checkpointer.restore`, on one process.  `none`: the file is not found. -/
def restore (fs : Files σ) (h : Host σ) : Option (Host σ) :=
  if h.it.isSome then (PyDict.get fs (dsName h.layout)).map (fun s => { h with it := some s })
  else some h

/-- The file of `DatasetCheckpointHandler`, lines 1998-2000 and 2025-2026. -/
def orbaxFile (procs : Nat) (h : Host σ) : Name :=
  if 1 < procs then
    pathJoin ("process_".toList ++ dec h.proc ++ "-of-".toList ++ dec procs) (dsName h.layout)
  else dsName h.layout

/-- `DatasetCheckpointHandler.save`, lines 1983-2005. -/
def orbaxSave1 (procs : Nat) (fs : Files σ) (h : Host σ) : Files σ :=
  if shouldWrite h then write fs (orbaxFile procs h) h.it else fs

def orbaxSave (procs : Nat) (hosts : List (Host σ)) : Files σ := hosts.foldl (orbaxSave1 procs) []

/-- Lines 2491-2497 with `DatasetCheckpointHandler.restore`, lines 2007-2035: only processes that write also restore. -/
def orbaxRestore (procs : Nat) (fs : Files σ) (h : Host σ) : Option (Host σ) :=
  if shouldWrite h then (PyDict.get fs (orbaxFile procs h)).map (fun s => { h with it := some s })
  else some h

end Verif.DsCkpt
