import Verif.Model.TrainInfer
/-
`/repo/t5x/eval.py`, lines 62-180: `InferenceEvaluator`, which `train.py` (lines 453-466, 523-541 and 799-800) and `eval.py` use to run the model on the tasks of a
mixture.

Simplifications: what `seqio.Evaluator.evaluate` does with its arguments is a parameter.  Of the compiled functions only this is modelled: calling one with a
state that does not have the tree of the axes it was compiled for is an error.
-/
namespace Verif.InferEval
open Verif

variable {P M K Ax X Y Z W R : Type}

/-- What `evaluate` reads of a train state. -/
structure State (P M : Type) where
  step : Nat
  params : P
  mutables : M

/-- The arguments of `InferenceEvaluator`: the model (`predict_batch`, `predict_batch_with_aux`, `score_batch`), the data set's batch size, the partitioner's
number of shards; and what is outside of t5x. -/
structure Setup (P M K Ax X Y Z W R : Type) where
  shards : Nat
  batch : Nat
  predict : P → M → Option K → List X → List Y
  predictAux : P → M → Option K → List X → List W
  score : P → M → Option K → List X → List Z
  /-- The trees of the state and of the axes are the same. -/
  fits : Ax → P → Bool
  /-- `jax.random.PRNGKey(0)`. -/
  key0 : K
  /-- `jax.random.split`. -/
  split : K → K × K
  /-- `seqio.Evaluator.evaluate(compute_metrics, step, predict_fn, score_fn, predict_with_aux_fn)`. -/
  seqio : Bool → Nat → (List X → Except Infer.Err (List (Int × Y))) → (List X → Except Infer.Err (List (Int × Z))) →
    (List X → Except Infer.Err (List (Int × W))) → R

/-- utils.py:1684-1687: the key of the batch number `k`. -/
def stepKey (split : K → K × K) : Option K → Nat → Option K
  | none, _ => none
  | some r, 0 => some (split r).1
  | some r, k + 1 => stepKey split (some (split r).2) k

/-- The function that `get_infer_fn` (utils.py:1544-1806) returns for the axes `a` and the method `f` of the model. -/
def inferFn (u : Setup P M K Ax X Y Z W R) {V : Type} (a : Ax) (f : P → M → Option K → List X → List V) (xs : List X) (s : State P M) (rng : Option K) :
    Except Infer.Err (List (Int × V)) :=
  if u.fits a s.params then Infer.inferFn u.shards u.batch (fun k b => f s.params s.mutables (stepKey u.split rng k) b) xs else .error .value

/-- `InferenceEvaluator.evaluate`, lines 130-180.  The evaluator is the axes its functions were made for, `none` before the first call (lines 113-116). -/
def evaluate (u : Setup P M K Ax X Y Z W R) (ev : Option Ax) (host : Nat) (s : State P M) (axes : Ax) : Option Ax × R :=
  -- lines 144-165
  let fns := match ev with
    | none => axes
    | some a => a
  -- lines 167-180
  (some fns, u.seqio (decide (host = 0)) s.step (fun xs => inferFn u fns u.predict xs s (some u.key0)) (fun xs => inferFn u fns u.score xs s none)
    (fun xs => inferFn u fns u.predictAux xs s (some u.key0)))

/-- The calls of a program, one after the other, with one evaluator. -/
def evaluations (u : Setup P M K Ax X Y Z W R) (host : Nat) : Option Ax → List (State P M × Ax) → List R
  | _, [] => []
  | ev, (s, a) :: calls => (evaluate u ev host s a).2 :: evaluations u host (evaluate u ev host s a).1 calls

end Verif.InferEval
