import Verif.Common
import Mathlib.Data.List.Sort
/-
Named tree mapping of the mixture-of-experts code: `/repo/t5x/contrib/moe/training_utils.py`, lines 33-143.

A parameter tree is a leaf or a node with named children; a node is a dict (jax flattens its children by sorted key) or a
dataclass (jax flattens its fields in declaration order).  `None` is a leaf (`is_leaf=lambda x: x is None`).  Simplified: no
lists or tuples (the function is "specialized to parameter trees of the form {'key0': {'subkey0': Any}, ...}"); the fields of
a dataclass are its pytree fields, whose names `to_state_dict` uses as keys; strings are lists of characters.  The jax
functions `tree_flatten` and `PyTreeDef.unflatten` are modelled from their documentation.
-/
namespace Verif.NamedTree

abbrev Key := List Char

mutual
  inductive PTree (β : Type) where
    | leaf (v : β)
    | node (isDataclass : Bool) (cs : PForest β)
  inductive PForest (β : Type) where
    | nil
    | cons (k : Key) (t : PTree β) (rest : PForest β)
end

/-- Order of Python strings (code points). -/
def keyLe : Key → Key → Bool
  | [], _ => true
  | _ :: _, [] => false
  | a :: as, b :: bs => if a.toNat < b.toNat then true else if b.toNat < a.toNat then false else keyLe as bs

/-- `sorted` by key. -/
def sortK {X : Type} (l : List (Key × X)) : List (Key × X) := l.insertionSort (fun a b => keyLe a.1 b.1 = true)

/-- The order in which jax visits the children of a node. -/
def jaxOrder {X : Type} (isDataclass : Bool) (l : List (Key × X)) : List (Key × X) :=
  if isDataclass then l else sortK l

mutual
  /-- `jax.tree_util.tree_flatten(tree)[0]`. -/
  def flatten {β : Type} : PTree β → List β
    | .leaf v => [v]
    | .node dc cs => (jaxOrder dc (flattenF cs)).flatMap (fun kl => kl.2)
  def flattenF {β : Type} : PForest β → List (Key × List β)
    | .nil => []
    | .cons k t r => (k, flatten t) :: flattenF r
end

/-- Rebuild the children in jax's order, giving each the values it needs. -/
def rebuild {γ : Type} : List (Key × Nat × (List γ → Option (PTree γ))) → List γ → Option (PForest γ)
  | [], [] => some .nil
  | [], _ :: _ => none
  | (k, n, g) :: rest, vs =>
    match g (vs.take n), rebuild rest (vs.drop n) with
    | some t, some r => some (.cons k t r)
    | _, _ => none

mutual
  /-- `tree_def.unflatten(vs)` for the tree definition of the first argument; `none` is the ValueError for a wrong number of
  values.  The children of a dict come out in sorted order. -/
  def unflatten {β γ : Type} : PTree β → List γ → Option (PTree γ)
    | .leaf _ => fun vs => match vs with
      | [v] => some (.leaf v)
      | _ => none
    | .node dc cs => fun vs => (rebuild (jaxOrder dc (unflattenF cs)) vs).map (PTree.node dc)
  def unflattenF {β γ : Type} : PForest β → List (Key × Nat × (List γ → Option (PTree γ)))
    | .nil => []
    | .cons k t r => (k, (flatten t).length, unflatten t) :: unflattenF r
end

/-- `s.rstrip('/')`. -/
def rstrip (s : Key) : Key := (s.reverse.dropWhile (· == '/')).reverse

mutual
  /-- `_traverse_with_names`, lines 131-143: children of dicts and dataclasses alike in sorted order. -/
  def traverse {β : Type} : PTree β → List (Key × β)
    | .leaf v => [([], v)]
    | .node _ cs =>
      (sortK (traverseF cs)).flatMap (fun kl => kl.2.map (fun pv => (rstrip (kl.1 ++ '/' :: pv.1), pv.2)))
  def traverseF {β : Type} : PForest β → List (Key × List (Key × β))
    | .nil => []
    | .cons k t r => (k, traverse t) :: traverseF r
end

/-- `np.argsort`. -/
def argsort (p : List Nat) : List Nat :=
  (List.range p.length).insertionSort (fun i j => p.getD i 0 ≤ p.getD j 0)

inductive Err where
  | unpack    -- ValueError: `val_names, perm = zip(*())`
  | mismatch  -- ValueError: 'Pytree traversal detected ...'
  | structure -- ValueError of `unflatten`
deriving DecidableEq

/-- `_tree_flatten_with_names`, lines 95-128. -/
def flattenWithNames {β : Type} (t : PTree β) : Except Err (List (Key × β)) :=
  let vals := flatten t
  match unflatten t (List.range vals.length) with
  | none => .error .structure
  | some tokenTree =>
    let pairs := traverse tokenTree
    if pairs = [] then .error .unpack
    else
      let names := pairs.map Prod.fst
      let inv := argsort (pairs.map Prod.snd)
      if names.length ≠ vals.length then .error .mismatch
      else .ok (List.zipWith (fun i v => (names.getD i [], v)) inv vals)

/-- `tree_map_with_names`, lines 76-92. -/
def treeMapWithNames {β : Type} (f : β → β) (t : PTree β) (matchName : Key → Bool) : Except Err (PTree β) :=
  match flattenWithNames t with
  | .error e => .error e
  | .ok nv =>
    match unflatten t (nv.map (fun p => if matchName p.1 then f p.2 else p.2)) with
    | none => .error .structure
    | some r => .ok r

/-- `match_fn`, lines 33-47; the compiled regular expression is the parameter `regex`. -/
def matchFn (regex : Key → Key → Bool) (pre : Option Key) : Key → Bool :=
  match pre with
  | none => fun _ => false
  | some [] => fun _ => false
  | some p => regex ('^' :: p)

/-- `scale_sharded_grads`, lines 50-73; `scale` is multiplication by the factor. -/
def scaleShardedGrads {β : Type} (grads : PTree β) (matchName : Option (Key → Bool)) (scale : β → β) : Except Err (PTree β) :=
  match matchName with
  | none => .ok grads
  | some m =>
    match flattenWithNames grads with
    | .error e => .error e
    | .ok nv =>
      match unflatten grads (nv.map (fun p => if m p.1 then scale p.2 else p.2)) with
      | none => .error .structure
      | some r => .ok r

end Verif.NamedTree
