import Verif.Model.TrainedJob
/-
The train state of a job with an optax optimizer: `OptaxWrapper.init_state` and `OptaxWrapper.apply_gradient`, `/repo/t5x/optimizers.py` lines 390-425, with
`/repo/t5x/train_state.py` lines 188-194 (`apply_gradient`).

Simplifications: the optax transformation is a parameter; states of optimizers are given by their state dicts, as in `Verif.OptaxState`; trees of parameters and
of updates list their entries in the same order (JAX sorts them); the sum of arrays is a parameter.
-/
namespace Verif.OptaxJob
open Verif Verif.StateDict
open Verif.SaveRestore (Ops)

variable {A T G H : Type}

/-- An `optax.GradientTransformation`: `init(params)` and `update(grads, state, params)`, which returns the updates and the new state. -/
structure Transform (A G : Type) where
  init : Dict (Option A) → Dict (Option A)
  update : G → Dict (Option A) → Dict (Option A) → Dict (Option A) × Dict (Option A)

/-- `optax.apply_updates` for one entry: `(p + u).astype(p.dtype)`; an empty entry (`None`) is no leaf. -/
def applyLeaf (F : Ops A T) (add : A → A → A) : Option A → Option A → Option (Option A)
  | none, none => some none
  | some p, some u => some (some (F.cast (F.dtype p) (add p u)))
  | _, _ => none

/-- `optax.apply_updates(params, updates)`; `none`: the trees do not match. -/
def applyUpdates (F : Ops A T) (add : A → A → A) : Dict (Option A) → Dict (Option A) → Option (Dict (Option A))
  | .nil, .nil => some .nil
  | .leaf k p r, .leaf k' u r' =>
    if k = k' then
      match applyLeaf F add p u, applyUpdates F add r r' with
      | some x, some s => some (.leaf k x s)
      | _, _ => none
    else none
  | .sub k d r, .sub k' d' r' =>
    if k = k' then
      match applyUpdates F add d d', applyUpdates F add r r' with
      | some x, some s => some (.sub k x s)
      | _, _ => none
    else none
  | _, _ => none

/-- `OptaxWrapper.init_state`, lines 390-402. -/
def initState (t : Transform A G) (params : Dict (Option A)) : Nat × Dict (Option A) := (0, t.init params)

/-- `OptaxWrapper.apply_gradient`, lines 404-425. -/
def applyGradient (F : Ops A T) (add : A → A → A) (t : Transform A G) (_hyperParams : H) (params : Dict (Option A)) (state : Nat × Dict (Option A)) (grads : G) :
    Option (Dict (Option A) × (Nat × Dict (Option A))) :=
  let r := t.update grads state.2 params
  match applyUpdates F add params r.1 with
  | none => none
  | some p => some (p, (state.1 + 1, r.2))

/-- The new parameters and the new state, for `Train.Cfg`; if there is an exception (the theorems show that there is none), nothing changes. -/
def update (F : Ops A T) (add : A → A → A) (t : Transform A G) (lr : H) (step : Nat) (p o : Dict (Option A)) (g : G) : Dict (Option A) × Dict (Option A) :=
  match applyGradient F add t lr p (step, o) g with
  | some (p', (_, o')) => (p', o')
  | none => (p, o)

/-- The layout of a train state: parameters and states are nested dicts of arrays already. -/
def codec {Mu : Type} (num : Nat → A) (val : A → Option Nat) (encM : Mu → TrainState.Collections (Option A)) (decM : TrainState.Collections (Option A) → Option Mu) :
    TrainedJob.Codec A (Dict (Option A)) (Dict (Option A)) Mu where
  encP := id
  decP := some
  encO := id
  decO := some
  encM := encM
  decM := decM
  num := num
  val := val

end Verif.OptaxJob
