import Verif.Model.SaveRestore
/-
Saving and restoring with Orbax: `OrbaxCheckpointManagerInterface.save` and `restore` (`/repo/t5x/checkpoints.py`, lines 2327-2525) with
`_construct_save_args`, `_construct_restore_args`, `_construct_orbax_param_infos` (lines 2053-2093), the intersections of
`_construct_orbax_restoration_transforms` (lines 2096-2175) and `_maybe_make_sharded_array` (lines 387-421).

Orbax itself is trusted: saving stores every leaf, cast to the dtype of its `SaveArgs` if there is one; restoring gives for every leaf of
the given structure the stored leaf, cast to the dtype of its `RestoreArgs` if there is one, as an array laid out over the mesh if these are
`ArrayRestoreArgs`, as a numpy array otherwise.

Simplifications: no state transformations; no data set; not the legacy format, which is handed to `Checkpointer` (C64); mesh axes are
reduced to being there or not; steps and directories are left out; an error is `none`.
-/
namespace Verif.Orbax
open Verif.StateDict Verif.SaveRestore
open Verif.TsPath (Str)

variable {A T : Type} [DecidableEq T]

/-- `_OrbaxParamInfo`. -/
structure OInfo where
  name : Str
  axes : Bool
deriving DecidableEq

/-- `_construct_orbax_param_infos`, lines 2081-2093: an empty dict gets an info as if it were a leaf, and so does a `None`. -/
def paramInfos (axes : List Key → Bool) : List Key → Dict (Option A) → Dict OInfo
  | _, .nil => .nil
  | pre, .leaf k a r => .leaf k ⟨TsPath.join (pre ++ [k]), a.isSome && axes (pre ++ [k])⟩ (paramInfos axes pre r)
  | pre, .sub k d r =>
    if d.keys.isEmpty then .leaf k ⟨TsPath.join (pre ++ [k]), true⟩ (paramInfos axes pre r)
    else .sub k (paramInfos axes (pre ++ [k]) d) (paramInfos axes pre r)

/-- `jax.tree_util.tree_map(f, s, t)`.  `strict`: both must have the same keys, otherwise entries of `t` that `s` does not have are ignored.
`emptyLeaf`: an empty dict of `s` counts as a leaf and is kept. -/
def zip {α β γ : Type} (strict emptyLeaf : Bool) (f : α → β → γ) : Dict α → Dict β → Option (Dict γ)
  | .nil, _ => some .nil
  | .leaf k a r, t =>
    match t.get k, zip strict emptyLeaf f r t with
    | some (.arr b), some r' => some (.leaf k (f a b) r')
    | _, _ => none
  | .sub k d r, t =>
    match t.get k, zip strict emptyLeaf f r t with
    | some (.dict d'), some r' =>
      if !strict || d'.keys.all d.keys.contains then
        match zip strict emptyLeaf f d d' with
        | some x => some (.sub k x r')
        | none => none
      else none
    | some (.arr _), some r' => if emptyLeaf && d.keys.isEmpty then some (.sub k .nil r') else none
    | _, _ => none

def treeMap {α β γ : Type} (strict emptyLeaf : Bool) (f : α → β → γ) (s : Dict α) (t : Dict β) : Option (Dict γ) :=
  if !strict || t.keys.all s.keys.contains then zip strict emptyLeaf f s t else none

/-- `astype`, if a dtype is given. -/
def castIf (O : Ops A T) (d : Option T) (a : A) : A :=
  match d with
  | some t => O.cast t a
  | none => a

/-- `_construct_save_args`, lines 2053-2059: `name.split('.')[0]`. -/
def saveDtypeOf (i : OInfo) (d : Option T) : Option T := if i.name.takeWhile (· ≠ '.') ≠ "target".toList then none else d

/-- `_construct_restore_args`, lines 2062-2078: `name.split('/')[0]`. -/
def restoreDtypeOf (i : OInfo) (d : Option T) : Option T := if i.name.takeWhile (· ≠ '/') ≠ "target".toList then none else d

/-- `save`, lines 2353-2374; `s0` is `self._train_state`. -/
def save (O : Ops A T) (saveDtype : Option T) (axes : List Key → Bool) (s0 s : Dict (Option A)) : Option (Dict (Option A)) :=
  treeMap true true (fun x i => x.map (castIf O (saveDtypeOf i saveDtype))) s (paramInfos axes [] s0)

/-- An array and whether it already has the layout its info asks for (`_sharding_matches`). -/
structure Arr (A : Type) where
  val : A
  placed : Bool

/-- `_maybe_make_sharded_array_helper`, lines 2506-2513. -/
def place (O : Ops A T) (restoreDtype : Option T) (x : Option (Arr A)) : Option A :=
  x.map fun a => if a.placed then a.val else castIf O restoreDtype a.val

/-- `restore`, lines 2456-2520, up to `restore_state`. -/
def restore (O : Ops A T) (restoreDtype : Option T) (axes : List Key → Bool) (s0 : Dict (Option A)) (fallback : Option (Dict (Option (Arr A))))
    (stored : Dict (Option A)) : Option (Dict (Option A)) :=
  let infos := paramInfos axes [] s0
  match intersectState stored s0 with
  | none => none
  | some toRestore =>
    -- the restore arguments are cut down to the entries of `toRestore`, lines 2127-2132
    match treeMap false true (fun x i => x.map fun a => (⟨castIf O (restoreDtypeOf i restoreDtype) a, i.axes⟩ : Arr A)) toRestore infos with
    | none => none
    | some r =>
      match (match fallback with
        | none => some r
        | some fb => mergeState r fb) with
      | none => none
      | some m => treeMap true false (fun x _ => place O restoreDtype x) m infos

end Verif.Orbax
