import Mathlib.Data.List.Sort
import Verif.Model.StateDict
/-
`MultiOptimizer` of `/repo/t5x/optimizers.py` (lines 584-761) with its helpers on parameter trees.

Parameter trees are nested dicts (`FrozenDict` and dict are not told apart).  A traversal is a
`flax.traverse_util.ModelParamTraversal` whose filter looks at the path only; its `iterate` is modelled from the flax source.
Sub-optimizers are arbitrary functions.  Their per-parameter states are opaque leaves.
-/
namespace Verif.MultiOpt
open Verif Verif.StateDict

/-- The items of `flax.traverse_util.flatten_dict(d)`; values of a flattened dict are never dicts. -/
def items {β : Type} (d : Dict β) : List (List Key × β) :=
  (flattenGo (fun _ => false) false id [] [] d).filterMap fun e =>
    match e.2 with
    | .arr a => some (e.1, a)
    | .dict _ => none

/-- `flax.traverse_util.unflatten_dict`. -/
def unflat {β : Type} (l : List (List Key × β)) : Option (Dict β) :=
  unflattenPaths .nil (l.map fun e => (e.1, .arr e.2))

/-- `ModelParamTraversal(filter).iterate(tree)`: the leaves in the order of their keys, filtered by `'/' + '/'.join(key)`. -/
def iterate {β : Type} (focus : Key → Bool) (d : Dict β) : List β :=
  (((items d).insertionSort fun a b => a.1 ≤ b.1).filter fun e => focus ('/' :: join e.1)).map Prod.snd

/-- `_tree_of_paths`, lines 591-600. -/
def treeOfPaths {β : Type} (d : Dict β) : Option (Dict Key) :=
  unflat ((items d).map fun e => (e.1, join e.1))

/-- `_subtree_from_traversal`, lines 603-616. -/
def subtree {β : Type} (focus : Key → Bool) (d : Dict β) : Option (Dict β) :=
  match treeOfPaths d with
  | none => none
  | some t =>
    let flat := PyDict.update [] (List.zip (iterate focus t) (iterate focus d))
    unflat (flat.map fun e => (split e.1, e.2))

/-- `_update_subtree_of_traversal`, lines 619-633. -/
def updateSubtree {β : Type} (focus : Key → Bool) (tree update : Dict β) : Option (Dict β) :=
  match treeOfPaths update with
  | none => none
  | some t =>
    let flat := PyDict.update [] ((items tree).map fun e => (join e.1, e.2))
    let flat := PyDict.update flat (List.zip (iterate focus t) (iterate focus update))
    unflat (flat.map fun e => (split e.1, e.2))

/-- `jax.tree.map` on a nested dict. -/
def treeMap {β γ : Type} (f : β → γ) : Dict β → Dict γ
  | .nil => .nil
  | .leaf k a r => .leaf k (f a) (treeMap f r)
  | .sub k d r => .sub k (treeMap f d) (treeMap f r)

/-- A state while it is assembled: still a `_Marker` or set by a sub-optimizer. -/
inductive Cell (S : Type) where
  | marker
  | val (s : Option S)
deriving DecidableEq

/-- `None if isinstance(x, _Marker) else x`, lines 718-720 and 738-740. -/
def Cell.toState {S : Type} : Cell S → Option S
  | .marker => none
  | .val s => s

/-- One (traversal, optimizer) pair. `P`: parameters and gradients, `S`: states of one parameter, `H`: hyper parameters. -/
structure Sub (P S H : Type) where
  focus : Key → Bool
  /-- `OptimizerDef.init_state`: step and states. -/
  init : Dict P → Nat × Dict (Option S)
  /-- `OptimizerDef.apply_gradient(hyper_params, params, state, grads)`: new parameters, step and states. -/
  apply : H → Dict P → Nat × Dict (Option S) → Dict P → Dict P × (Nat × Dict (Option S))

variable {P S H : Type}

inductive Err where
  | overlap   -- ValueError 'Multiple optimizers match the same leaves'
  | bad       -- an error of `unflatten_dict`
deriving DecidableEq

/-- The body of the marking loop for one traversal, lines 701-703: every match gets the index. -/
def markStep (idx : Nat) (focus : Key → Bool) (st : List (List Key × List Nat) × Bool) : List (List Key × List Nat) × Bool :=
  let marks := st.1.map fun e => if focus ('/' :: join e.1) then (e.1, e.2 ++ [idx]) else e
  (marks, st.2 || marks.any fun e => focus ('/' :: join e.1) && decide (1 < e.2.length))

/-- The loop of lines 700-703. -/
def markAll : Nat → List (Sub P S H) → List (List Key × List Nat) × Bool → List (List Key × List Nat) × Bool
  | _, [], st => st
  | idx, o :: os, st => markAll (idx + 1) os (markStep idx o.focus st)

/-- The loop of lines 711-716. -/
def initLoop (params : Dict P) : List (Sub P S H) → Dict (Cell S) → Option (Dict (Cell S))
  | [], acc => some acc
  | o :: os, acc =>
    match subtree o.focus params with
    | none => none
    | some ps =>
      match updateSubtree o.focus acc (treeMap Cell.val (o.init ps).2) with
      | none => none
      | some acc' => initLoop params os acc'

/-- `MultiOptimizer.init_state`, lines 697-721. -/
def initState (os : List (Sub P S H)) (params : Dict P) : Except Err (Nat × Dict (Option S)) :=
  if (markAll 0 os ((items params).map fun e => (e.1, []), false)).2 then .error .overlap
  else
    match initLoop params os (treeMap (fun _ => Cell.marker) params) with
    | none => .error .bad
    | some states => .ok (0, treeMap Cell.toState states)

/-- The loop of lines 727-736: always from the original parameters, states and gradients. -/
def applyLoop (params : Dict P) (state : Nat × Dict (Option S)) (grads : Dict P) :
    List (Sub P S H × H) → Dict P × Dict (Cell S) → Option (Dict P × Dict (Cell S))
  | [], acc => some acc
  | (o, hp) :: os, acc =>
    match subtree o.focus params, subtree o.focus grads, subtree o.focus state.2 with
    | some ps, some gs, some ss =>
      let out := o.apply hp ps (state.1, ss) gs
      match updateSubtree o.focus acc.1 out.1, updateSubtree o.focus acc.2 (treeMap Cell.val out.2.2) with
      | some p', some s' => applyLoop params state grads os (p', s')
      | _, _ => none
    | _, _, _ => none

/-- `MultiOptimizer.apply_gradient`, lines 723-741; `zip` stops at the shorter list. -/
def applyGradient (os : List (Sub P S H)) (hps : List H) (params : Dict P) (state : Nat × Dict (Option S)) (grads : Dict P) :
    Option (Dict P × (Nat × Dict (Option S))) :=
  match applyLoop params state grads (os.zip hps) (params, treeMap (fun _ => Cell.marker) params) with
  | none => none
  | some (p, s) => some (p, (state.1 + 1, treeMap Cell.toState s))

/-- `MultiOptimizer.update_hyper_params`, lines 743-761: `given` is the `hyper_params` override, `override` the others. -/
def updateHyper (own : List H) (given : Option (List H)) (override : Option (H → H)) : List H :=
  let hps := given.getD own
  match override with
  | none => hps
  | some f => hps.map f

end Verif.MultiOpt
