import Verif.Model.ApplyGrad
import Verif.Model.TrainedJob
/-
The train state of a job with the Adafactor optimizer: `/repo/t5x/adafactor.py` with `/repo/t5x/train_state.py` lines 188-194 and
`/repo/t5x/optimizers.py` lines 65-79 and 137-155.

Simplifications: those of `Verif.Adafactor` and `Verif.ApplyGrad` (real numbers; nested dicts without `FrozenDict`); a cast changes the dtype of an array but
not its elements; gradients are given by the elements at each path, their shapes are those of the parameters.
-/
namespace Verif.AdafactorJob
open Verif Verif.StateDict Verif.Adafactor Verif.ND

/-- An array of a train state: real numbers, or the step. -/
structure Arr (T : Type) where
  dtype : T
  data : NDArray ℝ ⊕ Nat

/-- What checkpoints use of arrays. -/
def arrOps {T : Type} (dflt u16 : T) : SaveRestore.Ops (Arr T) T where
  dtype := Arr.dtype
  shape a := match a.data with
    | .inl x => x.shape
    | .inr _ => []
  cast t a := ⟨t, a.data⟩
  dflt := dflt
  u16 := u16

/-- The dtypes: of each parameter, of the second moments (float32, adafactor.py lines 434-446), of the momentum (`dtype_momentum`), of the step; and the
layout of the mutables. -/
structure Layout (T Mu : Type) where
  param : List Key → T
  f32 : T
  momentum : T
  i32 : T
  encM : Mu → TrainState.Collections (Option (Arr T))
  decM : TrainState.Collections (Option (Arr T)) → Option Mu

variable {T Mu : Type}

/-- The parameters as a nested dict of arrays. -/
def encP (L : Layout T Mu) (p : Dict (NDArray ℝ)) : Dict (Option (Arr T)) := SaveRestore.mapL (fun k x => some ⟨L.param k, .inl x⟩) [] p

def decP : Dict (Option (Arr T)) → Option (Dict (NDArray ℝ))
  | .nil => some .nil
  | .leaf k (some ⟨_, .inl x⟩) r => (decP r).map fun r' => .leaf k x r'
  | .leaf _ _ _ => none
  | .sub k d r =>
    match decP d, decP r with
    | some d', some r' => some (.sub k d' r')
    | _, _ => none

/-- `to_state_dict` of an `_AdafactorParamState`, adafactor.py lines 185-190. -/
def encS (L : Layout T Mu) (s : PState ℝ) : Dict (Option (Arr T)) :=
  .leaf "v_row".toList (some ⟨L.f32, .inl s.vRow⟩) (.leaf "v_col".toList (some ⟨L.f32, .inl s.vCol⟩)
    (.leaf "v".toList (some ⟨L.f32, .inl s.v⟩) (.leaf "m".toList (some ⟨L.momentum, .inl s.m⟩) .nil)))

/-- `from_state_dict` of an `_AdafactorParamState`. -/
def decS : Dict (Option (Arr T)) → Option (PState ℝ)
  | .leaf _ (some ⟨_, .inl a⟩) (.leaf _ (some ⟨_, .inl b⟩) (.leaf _ (some ⟨_, .inl c⟩) (.leaf _ (some ⟨_, .inl d⟩) .nil))) => some ⟨a, b, c, d⟩
  | _ => none

/-- `to_state_dict` of `param_states`. -/
def encO (L : Layout T Mu) : Dict (PState ℝ) → Dict (Option (Arr T))
  | .nil => .nil
  | .leaf k s r => .sub k (encS L s) (encO L r)
  | .sub k d r => .sub k (encO L d) (encO L r)

def decO : Dict (Option (Arr T)) → Option (Dict (PState ℝ))
  | .nil => some .nil
  | .leaf _ _ _ => none
  | .sub k d r =>
    match decS d with
    | some s => (decO r).map fun r' => .leaf k s r'
    | none =>
      match decO d, decO r with
      | some d', some r' => some (.sub k d' r')
      | _, _ => none

/-- The layout of a train state. -/
def codec (L : Layout T Mu) : TrainedJob.Codec (Arr T) (Dict (NDArray ℝ)) (Dict (PState ℝ)) Mu where
  encP := encP L
  decP := decP
  encO := encO L
  decO := decO
  encM := L.encM
  decM := L.decM
  num n := ⟨L.i32, .inr n⟩
  val a := match a.data with
    | .inr n => some n
    | .inl _ => none

/-- The elements of the gradients at each path. -/
abbrev Grads := List Key → List Nat → ℝ

/-- The gradients as a nested dict. -/
def gradDict (p : Dict (NDArray ℝ)) (g : Grads) : Dict (NDArray ℝ) := SaveRestore.mapL (fun k x => ⟨x.shape, g k⟩) [] p

/-- An Adafactor optimizer: the arithmetic, the definition, the hyper parameters, `global_norm_clip_threshold`. -/
structure Optimizer where
  O : Adafactor.Ops ℝ
  D : Def
  H : HP ℝ
  clip : Option ℝ

/-- `Adafactor.apply_param_gradient` with `learning_rate=lr` (train_state.py lines 191-193, `update_hyper_params` in optimizers.py lines 65-79). -/
def Optimizer.param (A : Optimizer) (lr : ℝ) (step : Nat) (k : Key) (x : NDArray ℝ) (s : PState ℝ) (g : NDArray ℝ) :
    Except Adafactor.Err (NDArray ℝ × PState ℝ) :=
  applyParam A.O A.D { A.H with learningRate := some lr } step k x s g

/-- `Optimizer.apply_gradient(grads, learning_rate=lr)`, optimizers.py lines 137-155 with adafactor.py lines 580-627. -/
noncomputable def Optimizer.apply (A : Optimizer) (lr : ℝ) (step : Nat) (p : Dict (NDArray ℝ)) (o : Dict (PState ℝ)) (g : Grads) :
    Except (ApplyGrad.Err Adafactor.Err) (Dict (NDArray ℝ) × (Nat × Dict (PState ℝ))) :=
  ApplyGrad.applyGradient (A.param lr) A.clip p (step, o) (gradDict p g)

/-- The new parameters and the new state of the optimizer, for `Train.Cfg`; if there is an exception (the theorems show that there is none), nothing changes. -/
noncomputable def Optimizer.update (A : Optimizer) (lr : ℝ) (step : Nat) (p : Dict (NDArray ℝ)) (o : Dict (PState ℝ)) (g : Grads) :
    Dict (NDArray ℝ) × Dict (PState ℝ) :=
  match A.apply lr step p o g with
  | .ok (p', (_, o')) => (p', o')
  | .error _ => (p, o)

/-- `Adafactor.init_state`, adafactor.py lines 450-462. -/
def Optimizer.init (A : Optimizer) (p : Dict (NDArray ℝ)) : Except (ApplyGrad.Err Adafactor.Err) (Nat × Dict (PState ℝ)) :=
  ApplyGrad.initState (fun k x => initParam A.O A.D A.H.beta1.isSome k x.shape) p

end Verif.AdafactorJob
