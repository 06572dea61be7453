import Verif.Model.MultiOpt
import Verif.Model.Train
import Verif.Model.SaveRestore
import Verif.Spec.OptaxState
/-
Training with `MultiOptimizer`, `/repo/t5x/optimizers.py` lines 636-761, over many steps: `Optimizer.apply_gradient` (lines 137-155), called by
`/repo/t5x/train_state.py` lines 188-194 in every train step.

Simplifications: those of `Verif.MultiOpt` and `Verif.Train`.  In particular the states of the sub-optimizers are trees like the parameters, as those of Adafactor
are; the states of wrapped optax optimizers are not (`flatten_dict` in `_tree_of_paths`, line 594, refuses their tuples).  The gradients come as trees.
-/
namespace Verif.MultiRun
open Verif Verif.StateDict Verif.MultiOpt

variable {P S H K G : Type}

/-- Parameters, the step, and the states of the parameters. -/
abbrev St (P S : Type) := Dict P × (Nat × Dict (Option S))

/-- Steps of `MultiOptimizer`, each with the hyper parameters of all optimizers and the gradients: lines 723-741 again and again. -/
def runMulti (os : List (Sub P S H)) : List (List H × Dict P) → St P S → Option (St P S)
  | [], s => some s
  | (hps, g) :: rest, s =>
    match applyGradient os hps s.1 s.2 g with
    | none => none
    | some s' => runMulti os rest s'

/-- What `Trainer` calls in a step (`train_state.py` lines 188-194, `optimizers.py` lines 137-155 and 743-761): the learning rate overrides that of every
optimizer.  If there is an exception (the theorems show that there is none), nothing changes. -/
def update (os : List (Sub P S H)) (own : List H) (setLr : K → H → H) (tree : G → Dict P) (lr : K) (step : Nat) (p : Dict P) (o : Dict (Option S)) (g : G) :
    Dict P × Dict (Option S) :=
  match applyGradient os (updateHyper own none (some (setLr lr))) p (step, o) (tree g) with
  | some (p', (_, o')) => (p', o')
  | none => (p, o)

/-- An optimizer that treats each parameter for itself, given its path, as `Adafactor` without `global_norm_clip_threshold` does (`/repo/t5x/adafactor.py` lines
451-462 and 580-627). -/
structure Leafwise (P S H : Type) where
  focus : Key → Bool
  /-- `init_param_state`. -/
  init : List Key → P → S
  /-- `apply_param_gradient`: hyper parameters, step, path, parameter, state and gradient. -/
  step : H → Nat → List Key → P → Option S → Option P → P × S

/-- Such an optimizer on a tree: `init_state` and `apply_gradient` go through the parameters. -/
def Leafwise.sub (l : Leafwise P S H) : Sub P S H where
  focus := l.focus
  init := fun ps => (0, SaveRestore.mapL (fun k x => some (l.init k x)) [] ps)
  apply := fun hp ps st gs =>
    let out := fun k x => l.step hp st.1 k x (OptaxState.Spec.arrayAt st.2 k).join (OptaxState.Spec.arrayAt gs k)
    (SaveRestore.mapL (fun k x => (out k x).1) [] ps, (st.1 + 1, SaveRestore.mapL (fun k x => some (out k x).2) [] ps))

end Verif.MultiRun
