import Verif.Model.PyDict
/-
Evaluation during training: `BaseTrainer.eval` and `compile_eval` (`/repo/t5x/trainer.py`, lines 605-689).

The hosts run in lockstep: `multihost_assert_equal` (jax: every host compares its value with that of host 0 and raises if it differs)
and the partitioned step are collective operations that complete only if all hosts take part.  A host that waits for another one that
has failed or gone on is stuck.  Simplifications: hosts are numbers, the step is a function of the train state and of the batches of
all hosts (the global batch); the conversion to a summary and its writing are C77 and C80; timers and logging are left out.
-/
namespace Verif.TrainerEval

variable {B M S N C : Type} [DecidableEq N]

/-- What happens on one host while one data set is evaluated. -/
inductive Outcome (M : Type) where
  | summary (metrics : Option M) (numSteps : Nat)   -- `write_metrics_summary(metrics, train_state.step, num_steps)`
  | assertion                                       -- AssertionError 'Eval step mismatch across hosts. ...'
  | stuck                                           -- waits for ever
deriving DecidableEq

/-- The value a host passes to `multihost_assert_equal` in round `r`, lines 623-627 and 639-642: the step number, or -1 after the last
batch. -/
def vote (bs : List B) (r : Nat) : Int := if r < bs.length then (r : Int) + 1 else -1

/-- Lines 635-638: `if metrics: merge else take`; `empty` tells whether a dict of metrics is empty. -/
def add (empty : M → Bool) (merge : M → M → M) (m : Option M) (u : M) : M :=
  match m with
  | none => u
  | some m => if empty m then u else merge m u

/-- The batches of all hosts in round `r`. -/
def globalBatch (hosts : Nat) (bs : Nat → List B) (r : Nat) : List B := (List.range hosts).filterMap fun h => (bs h)[r]?

/-- The loop of lines 622-642 on all hosts, from round `r` on; `k` is the number of batches left on host 0. -/
def rounds (hosts : Nat) (bs : Nat → List B) (empty : M → Bool) (merge : M → M → M) (step : List B → M) :
    Nat → Nat → Option M → Nat → Outcome M
  | 0, r, m, h => if vote (bs h) r = vote (bs 0) r then .summary m r else .assertion
  | k + 1, r, m, h =>
    if (List.range hosts).all (fun h' => vote (bs h') r = vote (bs 0) r) then
      rounds hosts bs empty merge step k (r + 1) (some (add empty merge m (step (globalBatch hosts bs r)))) h
    else if vote (bs h) r = vote (bs 0) r then .stuck
    else .assertion

/-- The evaluation of one data set on host `h`. -/
def evalOne (hosts : Nat) (bs : Nat → List B) (empty : M → Bool) (merge : M → M → M) (step : List B → M) (h : Nat) : Outcome M :=
  rounds hosts bs empty merge step (bs 0).length 0 none h

inductive Err (N : Type) where
  | keyError (n : N)   -- no metrics manager for this name
  | assertion
  | stuck
deriving DecidableEq

/-- Whether a host gets to the summary. -/
def isSummary : Outcome M → Bool
  | .summary _ _ => true
  | _ => false

/-- `eval`, lines 605-649, on host `h`: for each data set (name and the batches of all hosts) the metrics and the number of steps.
`steps` are the compiled steps, `default` is `_partitioned_eval_step`.  `alone` tells that some host has failed: the next collective
operation does not complete. -/
def eval (hosts : Nat) (managers : List N) (steps : List (N × (S → List B → M))) (default : S → List B → M) (empty : M → Bool)
    (merge : M → M → M) (state : S) (h : Nat) :
    Bool → List (N × (Nat → List B)) → List (N × Option M × Nat) → Except (Err N) (List (N × Option M × Nat))
  | _, [], d => .ok d
  | alone, (n, bs) :: rest, d =>
    if n ∉ managers then .error (.keyError n)
    else if alone then .error .stuck
    else
      let one := evalOne hosts bs empty merge (((PyDict.get steps n).getD default) state)
      match one h with
      | .summary m k =>
        eval hosts managers steps default empty merge state h (!(List.range hosts).all (fun h' => isSummary (one h'))) rest
          (PyDict.set d n (m, k))
      | .assertion => .error .assertion
      | .stuck => .error .stuck

/-! ### Compilation -/

/-- `_compiled_eval_steps`, `_compiled_eval_step_cache`, and the compilations done. -/
structure Compiled (N Spec C B : Type) where
  steps : List (N × C)
  cache : List (Spec × C)
  log : List B

variable {Spec : Type} [DecidableEq Spec]

/-- The body of the loop of `compile_eval`, lines 670-689; `spec` is the dict of shapes and types, `compile` the partitioner's. -/
def compileOne (managers : List N) (spec : B → Spec) (compile : B → C) (s : Compiled N Spec C B) (n : N) (b : B) :
    Compiled N Spec C B × Option (Err N) :=
  let key := spec b
  let s :=
    match PyDict.get s.cache key with
    | some _ => s
    | none => { s with cache := PyDict.set s.cache key (compile b), log := s.log ++ [b] }
  match PyDict.get s.cache key with
  | none => (s, none)
  | some c =>
    let s := { s with steps := PyDict.set s.steps n c }
    (s, if n ∈ managers then none else some (.keyError n))

/-- `compile_eval`, lines 651-689. -/
def compileEval (managers : List N) (spec : B → Spec) (compile : B → C) :
    List (N × B) → Compiled N Spec C B → Compiled N Spec C B × Option (Err N)
  | [], s => (s, none)
  | (n, b) :: rest, s =>
    match compileOne managers spec compile s n b with
    | (s, some e) => (s, some e)
    | (s, none) => compileEval managers spec compile rest s

/-- Several calls of `compile_eval` one after the other (an error ends one call, not the trainer). -/
def compileCalls (managers : List N) (spec : B → Spec) (compile : B → C) :
    List (List (N × B)) → Compiled N Spec C B → Compiled N Spec C B
  | [], s => s
  | call :: rest, s => compileCalls managers spec compile rest (compileEval managers spec compile call s).1

end Verif.TrainerEval
