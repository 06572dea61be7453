import Verif.Model.MultiOpt
/-
Logical axes of the state of a `MultiOptimizer`: `set_param_axes` and `derive_logical_axes`, `/repo/t5x/optimizers.py` lines 763-796.

Simplifications: those of `Verif.MultiOpt`.  The step (`None`) and the axes of the parameters, which are passed through, are left out.  `jax.tree.map` leaves `None`
alone and goes into the state of a parameter: it puts markers in place of its arrays, which become `None` at the end; `blank` is the state with `None` everywhere.
-/
namespace Verif.MultiAxes
open Verif Verif.StateDict Verif.MultiOpt

/-- A (traversal, optimizer) pair.  `X`: axes of a parameter, `S`: state of a parameter, `Y`: axes of such a state.  The methods are `none` if the optimizer has
no such attribute. -/
structure AxSub (X S Y : Type) where
  focus : Key → Bool
  /-- `derive_logical_axes(Optimizer(_, OptimizerState(None, states), axes), axes).state.param_states`. -/
  derive : Option (Dict X → Dict (Option S) → Dict (Option Y))
  /-- The class has a method `set_param_axes`. -/
  setsAxes : Bool

variable {X S Y : Type}

/-- The loop of lines 775-784. -/
def deriveLoop (axes : Dict X) (states : Dict (Option S)) : List (AxSub X S Y) → Dict (Option Y) → Option (Dict (Option Y))
  | [], acc => some acc
  | o :: os, acc =>
    match o.derive with
    | none => deriveLoop axes states os acc
    | some f =>
      match subtree o.focus axes, subtree o.focus states with
      | some ps, some ss =>
        match updateSubtree o.focus acc (f ps ss) with
        | none => none
        | some acc' => deriveLoop axes states os acc'
      | _, _ => none

/-- `MultiOptimizer.derive_logical_axes`, lines 770-796: the `param_states` of the result. -/
def deriveAxes (blank : S → Y) (os : List (AxSub X S Y)) (axes : Dict X) (states : Dict (Option S)) : Option (Dict (Option Y)) :=
  deriveLoop axes states os (treeMap (Option.map blank) states)

/-- `MultiOptimizer.set_param_axes`, lines 763-768: for each optimizer what its `set_param_axes` is called with. -/
def setAxes : List (AxSub X S Y) → Dict X → Option (List (Option (Dict X)))
  | [], _ => some []
  | o :: os, axes =>
    match subtree o.focus axes with
    | none => none
    | some t => (setAxes os axes).map ((if o.setsAxes then some t else none) :: ·)

end Verif.MultiAxes
