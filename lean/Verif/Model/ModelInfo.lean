import Mathlib.Data.List.Sort
import Mathlib.Data.List.Lex
import Verif.Model.StateDict
/-
`log_model_info`, `/repo/t5x/utils.py` lines 1387-1473: the file `model-info.txt` with the variables of a train state.

Simplifications: an array is given by its shape; a line of the file is given by what is formatted into it; the trees of logical axes and of mesh axes have the
structure of the state dict and are given as functions of the path.  `jax.tree.map` visits the entries of a dict in the order of their keys, and takes what the
other trees have at the place of a leaf of the first one; `None` and an empty dict are no leaves.
-/
namespace Verif.ModelInfo
open Verif Verif.StateDict

/-- `shape_str`, lines 1434-1442. -/
inductive ShapeStr where
  | plain (shape : List Nat)
  | named (dims : List (Key × Nat))
deriving DecidableEq

inductive Line (σ : Type) where
  | variable (name : Key) (size : Nat) (shape : ShapeStr) (spec : σ)  -- lines 1443-1450
  | none (name : Key)                                                   -- lines 1431-1433
  | total (n : Nat)                                                     -- lines 1460-1462
  | blank                                                               -- line 1465
deriving DecidableEq

inductive Err where
  | noLeaves     -- TypeError: `tree_reduce` without leaves
  | structure_   -- ValueError: the trees do not fit together
  | attribute    -- AttributeError: a dict has no shape
deriving DecidableEq

/-- The children of a dict with their leaves, which `jax.tree.map` visits in the order of the keys. -/
def ents {β : Type} : Dict β → List (Key × List (List Key × β))
  | .nil => []
  | .leaf k a r => (k, [([k], a)]) :: ents r
  | .sub k d r => (k, (((ents d).insertionSort fun a b => a.1 ≤ b.1).flatMap Prod.snd).map fun e => (k :: e.1, e.2)) :: ents r

/-- The leaves with their paths in the order of `jax.tree.map`. -/
def jaxLeaves {β : Type} (d : Dict β) : List (List Key × β) := ((ents d).insertionSort fun a b => a.1 ≤ b.1).flatMap Prod.snd

/-- What a tree has at a path. -/
def valAt {β : Type} : Dict β → List Key → Option (Val β)
  | _, [] => none
  | d, [k] => d.get k
  | d, k :: k2 :: ks =>
    match d.get k with
    | some (.dict s) => valAt s (k2 :: ks)
    | _ => none

variable {σ : Type}

/-- `_log_variable`, lines 1422-1450. -/
def logVariable (name : Key) (v : Val (Option (List Nat))) (logical : Option (List Key)) (mesh : σ) : Except Err (List (Line σ)) :=
  match v with
  | .dict .nil => .ok []
  | .dict _ => .error .attribute
  | .arr none => .ok [.none name]
  | .arr (some shape) =>
    let text := match logical with
      | none => ShapeStr.plain shape
      | some axes => if axes.length ≠ shape.length then .plain shape else .named (axes.zip shape)
    .ok [.variable name shape.prod text mesh]

/-- `jax.tree.map(_log_variable, names, state, logical_axes, mesh_axes)`, for the leaves of the first tree. -/
def logLeaves (d : Dict (Option (List Nat))) (logical : List Key → Option (List Key)) (mesh : List Key → σ) : List (List Key × Key) → Except Err (List (Line σ))
  | [] => .ok []
  | (p, name) :: l =>
    match valAt d p with
    | none => .error .structure_
    | some v =>
      match logVariable name v (logical p) (mesh p), logLeaves d logical mesh l with
      | .error e, _ => .error e
      | _, .error e => .error e
      | .ok a, .ok b => .ok (a ++ b)

/-- The variables of one part of the state, lines 1452-1458 and 1467-1473. -/
def logTree (d : Dict (Option (List Nat))) (logical : List Key → Option (List Key)) (mesh : List Key → σ) : Except Err (List (Line σ)) :=
  match getNameTree d true with
  | none => .error .structure_
  | some names => logLeaves d logical mesh (jaxLeaves names)

/-- `total_num_params`, lines 1398-1400. -/
def totalParams (d : Dict (Option (List Nat))) : Option Nat :=
  match (jaxLeaves d).filterMap fun e => e.2 with
  | [] => none
  | s :: l => some ((l.map List.prod).foldl (· + ·) s.prod)

/-- `log_model_info`: what is logged and written by the process; `none` if nothing is. -/
def logModelInfo (process : Nat) (target state : Dict (Option (List Nat))) (logical : Bool → List Key → Option (List Key)) (mesh : Bool → List Key → σ) :
    Except Err (Option (List (Line σ))) :=
  if process ≠ 0 then .ok none
  else
    match totalParams target with
    | none => .error .noLeaves
    | some n =>
      match logTree target (logical true) (mesh true), logTree state (logical false) (mesh false) with
      | .error e, _ => .error e
      | _, .error e => .error e
      | .ok a, .ok b => .ok (some (a ++ [.total n, .blank] ++ b))

end Verif.ModelInfo
