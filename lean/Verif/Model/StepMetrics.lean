import Verif.Model.StateDict
import Verif.Model.CkptDir
/-
`populate_metrics_for_steps`, `/repo/t5x/checkpoints.py` lines 1382-1457: the values of a metric in the TensorBoard event files below the checkpoint directory,
and the removal of checkpoints by `SaveBestCheckpointer` (lines 1566-1613) with them.

Simplifications: the directories with event files are given in the order of `io_wrapper.GetLogdirSubdirectories`, each by its path relative to the checkpoint
directory and by the events that `DirectoryWatcher.Load` yields; the value of an event is a value of a linear order (no NaN).
-/
namespace Verif.StepMetrics
open Verif Verif.StateDict

/-- A summary event: its step and the tags and values of its summary. -/
structure Event (V : Type) where
  step : Nat
  values : List (Key × V)

/-- A directory with event files. -/
structure RunDir (V : Type) where
  path : Key
  events : List (Event V)

/-- The variables `metric_run` and `metric_tag`, line 1387. -/
structure Sel where
  run : Option Key
  tag : Option Key

/-- A string or `None` as a condition. -/
def truthy : Option Key → Bool
  | none => false
  | some s => !s.isEmpty

/-- `possible_run_names`, lines 1412-1413. -/
def possibleRuns (name : Key) : List Key :=
  let m := split name
  (List.range (m.length - 1)).map fun i => join (m.take (i + 1))

/-- `_try_fill_metric_run_and_tag_names(metric_name, (key,))`, lines 1389-1424: the variables afterwards and what is returned. -/
def tryFill (name key : Key) (sel : Sel) : Sel × Bool :=
  let sel := if key ∈ possibleRuns name then ⟨some key, some (name.drop (key.length + 1))⟩ else sel
  (sel, truthy sel.run && truthy sel.tag)

variable {V : Type}

/-- The loop over the events of a directory, lines 1442-1453. -/
def collect (steps : List Nat) (tag : Option Key) : List (Event V) → List (Nat × V) → List (Nat × V)
  | [], acc => acc
  | e :: es, acc =>
    match e.values with
    | [] => collect steps tag es acc
    | (t, v) :: _ => if e.step ∉ steps ∨ some t ≠ tag then collect steps tag es acc else collect steps tag es (PyDict.set acc e.step v)

/-- The loop over the directories, lines 1426-1453. -/
def loop (name : Key) (steps : List Nat) : Sel → List (RunDir V) → List (Nat × V) → List (Nat × V)
  | _, [], acc => acc
  | sel, d :: ds, acc =>
    let r := if truthy sel.run then (sel, true) else tryFill name d.path sel
    if r.2 = false ∨ r.1.run ≠ some d.path then loop name steps r.1 ds acc
    else loop name steps r.1 ds (collect steps r.1.tag d.events acc)

/-- `populate_metrics_for_steps(checkpoints_dir, metric_name, steps)`. -/
def populate (name : Key) (steps : List Nat) (dirs : List (RunDir V)) : List (Nat × V) := loop name steps ⟨none, none⟩ dirs []

/-- The configuration of a `SaveBestCheckpointer`. -/
structure Best where
  keep : Nat
  maxMode : Bool
  keepWithout : Bool
  period : Option Nat
  metricName : Key

/-- The policy of `SaveBestCheckpointer._remove_old_checkpoints` after a save, when the directory lists `steps` and the events are `dirs`. -/
def Best.policy (c : Best) (dirs : List (RunDir V)) (steps : List Nat) : Ckpt.Policy V :=
  .best (some c.keep) c.maxMode c.keepWithout c.period fun s => PyDict.get (populate c.metricName (Ckpt.existingSteps c.period steps) dirs) s

/-- An entry of `CheckpointManager._checkpoints`: its step and its metrics. -/
structure Info (V : Type) where
  step : Nat
  metrics : Option (List (Key × V))

/-- The infos that Orbax decides by, `OrbaxCheckpointManagerInterface._CheckpointManagerImpl._get_old_steps_to_remove`, lines 2217-2230.  `best` is `_track_best`,
`allSteps` is `self.all_steps()`; the decision itself (`super()._get_old_steps_to_remove()`) is Orbax's. -/
def orbaxInfos (best : Bool) (name : Key) (allSteps : List Nat) (dirs : List (RunDir V)) (infos : List (Info V)) : List (Info V) :=
  if best then
    let m := populate name allSteps dirs
    infos.map fun i =>
      match PyDict.get m i.step with
      | some v => { i with metrics := some [(name, v)] }
      | none => i
  else infos

end Verif.StepMetrics
