import Verif.Model.RestoreCfg
import Mathlib.Data.List.SplitOn
import Mathlib.Data.List.Dedup
/-
The evaluation job with restore mode 'all': `/repo/t5x/eval.py`, lines 183-397.

Modelled: the record of evaluated checkpoints, the choice of the checkpoints to evaluate and the loop over them, on process 0, with a
process that can die at any point.  Restoring and evaluating one checkpoint is one event; an exception in it is a death before the
event.  The record is a text; `gfile.GFile(path, 'w')` truncates the file, so a process that dies while writing leaves any prefix of
the new text.  Python sets are lists without duplicates, iterated in the order `enum`, which is arbitrary.
-/
namespace Verif.EvalAll
open Verif Verif.Ckpt

/-- What is outside of the program: which characters `str.split()` takes for blanks, and the iteration order of sets. -/
structure Env where
  ws : Char → Bool
  enum : List Name → List Name

/-- `_extract_ckpt_step`, lines 184-190: the digits at the end, before an optional slash; `none` is `ValueError`.  (A trailing newline
and digits other than ASCII are not considered.) -/
def stepKey (p : Name) : Option Nat :=
  parseInt ((if p.getLast? = some '/' then p.dropLast else p).reverse.takeWhile Char.isDigit).reverse

/-- `_sorted_ckpt_paths`, lines 183-192, for a set; `none` is `ValueError`. -/
def sortPaths (env : Env) (l : List Name) : Option (List Name) :=
  if l.all fun p => (stepKey p).isSome then
    some ((env.enum l).insertionSort fun a b => (stepKey a).getD 0 ≤ (stepKey b).getD 0)
  else none

/-- `set(f.read().split())`, line 199. -/
def parseRecord (env : Env) (t : Name) : List Name := ((t.splitOnP env.ws).filter (fun w => decide (w ≠ []))).dedup

/-- `_load_evaluated_ckpt_paths`, lines 195-199. -/
def loadRecord (env : Env) (file : Option Name) : List Name :=
  match file with
  | none => []
  | some t => parseRecord env t

/-- Lines 392-395: the new text of the record, `none` if sorting raises. -/
def newText (env : Env) (file : Option Name) (p : Name) : Option Name :=
  let r := loadRecord env file
  (sortPaths env (if p ∈ r then r else r ++ [p])).map fun l => List.intercalate ['\n'] l

/-- Where the process dies while it handles a checkpoint. -/
inductive Phase where
  | start                  -- before the evaluation is complete
  | evaluated              -- evaluated, record not touched
  | writing (k : Nat)      -- `k` characters of the new record are written
  deriving DecidableEq

inductive Event where
  | evaluated (p : Name)
  | recorded (p : Name)
  | died
  | finished
  deriving DecidableEq

/-- The loop, lines 367-395; the process dies at the checkpoint with the given index, or not at all. -/
def loop (env : Env) : List Name → Option (Nat × Phase) → Option Name → Option Name × List Event
  | [], _, file => (file, [.finished])
  | p :: ps, stop, file =>
    if stop = some (0, .start) then (file, [.died])
    else if stop = some (0, .evaluated) then (file, [.evaluated p, .died])
    else match newText env file p with
      | none => (file, [.evaluated p, .died])
      | some t =>
        match stop with
        | some (0, .writing k) => (some (t.take k), [.evaluated p, .died])
        | _ =>
          let r := loop env ps (stop.map fun s => (s.1 - 1, s.2)) (some t)
          (r.1, .evaluated p :: .recorded p :: r.2)

/-- Lines 325-362: the checkpoints to evaluate. -/
def planned (env : Env) (w : RestoreCfg.World) (dirs : List Name) (file : Option Name) : Option (List Name) :=
  match file with
  | none =>
    match RestoreCfg.firstValid w [⟨.all, dirs, ()⟩] with
    | .error _ => none
    | .ok r => some r.2
  | some t =>
    if dirs.all w.isDir then
      let all := (dirs.flatMap fun d => (w.steps d).map fun s => pathJoin d (ckptName s)).dedup
      let done := parseRecord env t
      match sortPaths env (all.filter (fun p => decide (p ∈ done))) with
      | none => none
      | some _ => sortPaths env (all.filter (fun p => decide (p ∉ done)))
    else none

/-- One run of `evaluate`, lines 202-397. -/
def run (env : Env) (dirs : List Name) (w : RestoreCfg.World) (stop : Option (Nat × Phase)) (file : Option Name) :
    Option Name × List Event :=
  match planned env w dirs file with
  | none => (file, [.died])
  | some ps => loop env ps stop file

/-- The job started again and again, each time in its own world (the latest run comes first): the record and everything that happened. -/
def history (env : Env) (dirs : List Name) : List (RestoreCfg.World × Option (Nat × Phase)) → Option Name × List Event
  | [] => (none, [])
  | h :: hs =>
    let past := history env dirs hs
    let r := run env dirs h.1 h.2 past.1
    (r.1, past.2 ++ r.2)

end Verif.EvalAll
