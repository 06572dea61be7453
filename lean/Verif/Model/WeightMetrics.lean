import Mathlib.Analysis.SpecialFunctions.Sqrt
import Verif.Model.PyDict
/-
`WeightMetricsComputer` (`/repo/t5x/trainer.py`, lines 150-232) and its use in `apply_grads` (lines 883-896).

A tree of weights is given by its flattened form: names (joined with '/') and the elements of the arrays.  `jax.tree_util.tree_map` on
two trees pairs the leaves of the same name and fails if the structures differ; broadcasting between arrays of different shapes does
not occur (an error here).  Numbers are reals; `none` stands for an infinity or NaN.  `AveragePerStep` is C77 and C80.
-/
namespace Verif.WeightMetrics

abbrev Name := List Char
abbrev Tree (α : Type) := List (Name × List α)

inductive Err where
  | valueError   -- different structures or shapes, or the maximum of an empty array
deriving DecidableEq

/-- All elements finite. -/
def finite : List (Option ℝ) → Option (List ℝ)
  | [] => some []
  | none :: _ => none
  | some x :: l =>
    match finite l with
    | none => none
    | some l => some (x :: l)

/-- `jnp.sqrt(jnp.mean(jnp.square(v)))`, line 165; the mean of no element is NaN. -/
noncomputable def rms (v : List (Option ℝ)) : Option ℝ :=
  match finite v with
  | none => none
  | some [] => none
  | some l => some (√ ((l.map fun x => x * x).sum / l.length))

/-- `jnp.max(jnp.abs(v))`, line 175. -/
noncomputable def maxAbs : List ℝ → Except Err ℝ
  | [] => .error .valueError
  | x :: l => .ok (l.foldl (fun m y => max m |y|) |x|)

/-- `f"{name}/{k}"`. -/
def key (name k : Name) : Name := name ++ '/' :: k

/-- `_make_rms_metrics`, lines 160-168. -/
noncomputable def makeRms (name : Name) (t : Tree (Option ℝ)) : List (Name × Option ℝ) :=
  PyDict.update [] (t.map fun e => (key name e.1, rms e.2))

/-- `_make_max_metrics`, lines 170-178: the items. -/
noncomputable def maxItems (name : Name) : Tree ℝ → Except Err (List (Name × Option ℝ))
  | [] => .ok []
  | (k, v) :: t =>
    match maxAbs v, maxItems name t with
    | .ok m, .ok l => .ok ((key name k, some m) :: l)
    | _, _ => .error .valueError

/-- `_make_max_metrics`, lines 170-178. -/
noncomputable def makeMax (name : Name) (t : Tree ℝ) : Except Err (List (Name × Option ℝ)) :=
  match maxItems name t with
  | .ok l => .ok (PyDict.update [] l)
  | .error e => .error e

/-- `tree_map(f, a, b)`, lines 217-219 and 221-223: the leaves. -/
def mapLeaves {α β γ : Type} (f : α → β → γ) : Tree α → Tree β → Except Err (Tree γ)
  | [], _ => .ok []
  | (k, v) :: a, b =>
    match PyDict.get b k, mapLeaves f a b with
    | some w, .ok t => if v.length = w.length then .ok ((k, List.zipWith f v w) :: t) else .error .valueError
    | _, _ => .error .valueError

/-- `tree_map(f, a, b)`, lines 217-219 and 221-223. -/
def treeMap {α β γ : Type} (f : α → β → γ) (a : Tree α) (b : Tree β) : Except Err (Tree γ) :=
  if ∀ k ∈ PyDict.keys b, k ∈ PyDict.keys a then mapLeaves f a b else .error .valueError

/-- `jnp.divide`; a division by zero is not finite. -/
noncomputable def divide (x y : ℝ) : Option ℝ := by
  classical exact if y = 0 then none else some (x / y)

def lift (t : Tree ℝ) : Tree (Option ℝ) := t.map fun e => (e.1, e.2.map some)

/-- `grad_norm`, lines 206-212. -/
noncomputable def gradNorm (grads : Tree ℝ) : ℝ := √ ((grads.map fun e => (e.2.map fun x => x * x).sum).sum)

/-- `compute_metrics`, lines 180-232. -/
noncomputable def computeMetrics (grads old new : Tree ℝ) : Except Err (List (Name × Option ℝ)) :=
  let m := PyDict.update [] (makeRms "weight_rms".toList (lift new))
  let m := PyDict.update m (makeRms "weight_gradient_rms".toList (lift grads))
  let m := PyDict.update m [("weight_gradient_norm".toList, some (gradNorm grads))]
  match treeMap (fun x y => x - y) new old with
  | .error e => .error e
  | .ok upd =>
    let m := PyDict.update m (makeRms "weight_update_rms".toList (lift upd))
    match treeMap divide upd old with
    | .error e => .error e
    | .ok rel =>
      let m := PyDict.update m (makeRms "weight_update_divided_by_weight_rms".toList rel)
      match makeMax "weight_max".toList new with
      | .error e => .error e
      | .ok mx => .ok (PyDict.update m mx)

end Verif.WeightMetrics
