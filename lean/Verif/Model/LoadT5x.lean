import Verif.Model.SaveRestore
/-
Reading a checkpoint without a model: `load_t5x_checkpoint`, `/repo/t5x/checkpoints.py`, lines 1835-1955, with `fake_param_info`
(lines 1778-1800), `_get_optimizer_state_dict` (lines 1637-1659) and `LazyAwaitableArray` (`/repo/t5x/checkpoint_importer.py`, lines 34-189).

Simplifications: those of `Verif.Model.SaveRestore`; finding the file is `Verif.Model.CkptDir` (C26).  The flattened names are not built: for
keys without slash `unflatten_dict` undoes `flatten_dict`.  A lazy array is its dtype and what fetching it gives (or raises).
-/
namespace Verif.LoadT5x
open Verif.StateDict Verif.SaveRestore
open Verif.TsPath (Str)

variable {A T : Type} [DecidableEq T]

inductive LErr where
  | version     -- ValueError: Checkpoint versions earlier than 2 are not supported
  | keyError    -- no 'optimizer' in the file, or no 'target' to cast
  | attribute   -- AttributeError: an empty dict has no dtype
  | transform   -- raised by a transformation function
  | read (e : Err)
deriving DecidableEq

/-- `LazyAwaitableArray`. -/
structure Lazy (A T : Type) where
  dtype : T
  fetch : Except Err A

/-- `LazyAwaitableArray.get_async` and `get`, lines 121-135. -/
def Lazy.get (O : Ops A T) (l : Lazy A T) : Except Err A :=
  match l.fetch with
  | .error e => .error e
  | .ok a => .ok (castTo O (some l.dtype) a)

/-- `_read_ts` (checkpoints.py lines 1673-1775) with a fake info: no shape is expected, the array is read on the host.  The `cast` driver of
tensorstore converts when reading. -/
def readTs (O : Ops A T) (restoreDtype : Option T) (dir : Str) (dsk : TsPath.Spec → Option A) : FLeaf A T → Except Err A
  | .val a => .ok a
  | .spec s =>
    match TsPath.updatePath dir s.loc with
    | .error _ => .error .path
    | .ok loc =>
      if s.dtype = O.u16 then .error .uint16
      else match dsk loc with
        | none => .error .notFound
        | some a => .ok (match restoreDtype with
          | some t => O.cast t a
          | none => a)

/-- `_create_lazy_awaitable_array`, lines 1917-1933, and `from_tensor_store_spec_or_array` (the dtype bfloat16 for a spec of uint16 is left out:
fetching it raises). -/
def lazyOf (O : Ops A T) (restoreDtype : Option T) (dir : Str) (dsk : TsPath.Spec → Option A) (x : FLeaf A T) : Lazy A T :=
  ⟨restoreDtype.getD (match x with
    | .val a => O.dtype a
    | .spec s => s.dtype), readTs O restoreDtype dir dsk x⟩

/-- The tree of lazy arrays, lines 1884-1937.  `None` has no info and is skipped.  An empty dict is kept as the flattened leaf `empty_node`, for which
there is an info; when the dicts are rebuilt it is an empty dict again, and `from_array` fails on it. -/
def lazyTree (f : FLeaf A T → Lazy A T) : Dict (Option (FLeaf A T)) → Except LErr (Dict (Option (Lazy A T)))
  | .nil => .ok .nil
  | .leaf k none r =>
    match lazyTree f r with
    | .ok r' => .ok (.leaf k none r')
    | .error e => .error e
  | .leaf k (some x) r =>
    match lazyTree f r with
    | .ok r' => .ok (.leaf k (some (f x)) r')
    | .error e => .error e
  | .sub k d r =>
    if d.keys.isEmpty then .error .attribute
    else
      match lazyTree f d, lazyTree f r with
      | .ok d', .ok r' => .ok (.sub k d' r')
      | .error e, _ => .error e
      | _, .error e => .error e

/-- `tree_map(lambda x: x.get_async(), state_dict)` and `_run_future_tree`, lines 1945-1949. -/
def fetchAll (O : Ops A T) : Dict (Option (Lazy A T)) → Except LErr (Dict (Option A))
  | .nil => .ok .nil
  | .leaf k none r =>
    match fetchAll O r with
    | .ok r' => .ok (.leaf k none r')
    | .error e => .error e
  | .leaf k (some l) r =>
    match l.get O, fetchAll O r with
    | .ok a, .ok r' => .ok (.leaf k (some a) r')
    | .error e, _ => .error (.read e)
    | _, .error e => .error e
  | .sub k d r =>
    match fetchAll O d, fetchAll O r with
    | .ok d', .ok r' => .ok (.sub k d' r')
    | .error e, _ => .error e
    | _, .error e => .error e

/-- `state_dict['target'] = _cast(state_dict['target'], restore_dtype)`, lines 1945-1946; `c` casts one leaf. -/
def castTarget {X : Type} (c : T → X → X) (restoreDtype : Option T) (d : Dict (Option X)) : Except LErr (Dict (Option X)) :=
  match restoreDtype with
  | none => .ok d
  | some t =>
    if d.keys.contains "target".toList then .ok (mapL (fun p x => if isTarget p then x.map (c t) else x) [] d) else .error .keyError

/-- The part of the file that is used, lines 1869-1882.  `version` is 0 if the file has none, `root` the file without it.  The transformations get no
target state. -/
def select (remap : Bool) (version : Nat) (trans : List (Dict (Option (FLeaf A T)) → Except LErr (Dict (Option (FLeaf A T)))))
    (root : Dict (Option (FLeaf A T))) : Except LErr (Dict (Option (FLeaf A T))) :=
  if remap then
    if version < 2 then .error .version
    else
      match root.get "optimizer".toList with
      | some (.dict d) => trans.foldl (fun d f => match d with
        | .ok d => f d
        | .error e => .error e) (.ok d)
      | _ => .error .keyError
  else if version = 0 then .ok root
  else
    match root.get "optimizer".toList with
    | some (.dict d) => .ok d
    | _ => .error .keyError

/-- `load_t5x_checkpoint(..., lazy_parameters=True)` from the file in `dir`. -/
def loadLazy (O : Ops A T) (restoreDtype : Option T) (remap : Bool) (trans : List (Dict (Option (FLeaf A T)) → Except LErr (Dict (Option (FLeaf A T)))))
    (dir : Str) (dsk : TsPath.Spec → Option A) (version : Nat) (root : Dict (Option (FLeaf A T))) : Except LErr (Dict (Option (Lazy A T))) :=
  match convert dir root with
  | .error e => .error (.read e)
  | .ok root =>
    match select remap version trans root with
    | .error e => .error e
    | .ok d =>
      match lazyTree (lazyOf O restoreDtype dir dsk) d with
      | .error e => .error e
      | .ok l => castTarget (fun t l => if l.dtype = t then l else { l with dtype := t }) restoreDtype l

/-- `load_t5x_checkpoint` from the file in `dir`. -/
def load (O : Ops A T) (restoreDtype : Option T) (remap : Bool) (trans : List (Dict (Option (FLeaf A T)) → Except LErr (Dict (Option (FLeaf A T)))))
    (dir : Str) (dsk : TsPath.Spec → Option A) (version : Nat) (root : Dict (Option (FLeaf A T))) : Except LErr (Dict (Option A)) :=
  match convert dir root with
  | .error e => .error (.read e)
  | .ok root =>
    match select remap version trans root with
    | .error e => .error e
    | .ok d =>
      match lazyTree (lazyOf O restoreDtype dir dsk) d with
      | .error e => .error e
      | .ok l =>
        match fetchAll O l with
        | .error e => .error e
        | .ok s => castTarget (fun t a => castTo O (some t) a) restoreDtype s

end Verif.LoadT5x
