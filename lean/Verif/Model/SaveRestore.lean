import Verif.Model.StateDict
import Verif.Model.TsPath
/-
Writing a train state and reading it back: `Checkpointer.save` and `Checkpointer.restore`, `/repo/t5x/checkpoints.py`, without the
directory handling (`Verif.Model.CkptDir`) and without state transformations.

Simplifications:
* An array is an element of an arbitrary type with a dtype, a shape and casts.  Lazy arrays stand for their arrays.
* The hosts together write and read whole arrays (jax array serialisation).  An array is written only with the shape and the dtype of its
  spec; tensorstore would also accept some other combinations.
* A tensorstore spec inside the msgpack file is a leaf of its own kind; in the code it is a dict recognised by its keys.
* Mesh axes are reduced to being there or not, per parameter.
* Dicts passed to `jax.tree_util.tree_map` keep their insertion order (jax sorts the keys).
-/
namespace Verif.SaveRestore
open Verif.StateDict
open Verif.TsPath (Str)

/-- What is used of arrays.  `dflt` is the dtype that `astype(None)` gives, `u16` is uint16. -/
structure Ops (A T : Type) where
  dtype : A → T
  shape : A → List Nat
  cast : T → A → A
  dflt : T
  u16 : T

variable {A T : Type} [DecidableEq T]

/-- A `ts.Spec`: where, element type and shape. -/
structure TSpec (T : Type) where
  loc : TsPath.Spec
  dtype : T
  shape : List Nat
deriving DecidableEq

/-- `_ParameterInfo`, lines 161-175.  `spec` is `None` exactly for a parameter without axes. -/
structure Info (T : Type) where
  name : Str
  shape : List Nat
  spec : Option (TSpec T)
deriving DecidableEq

inductive Err where
  | structure   -- ValueError: the trees or keys do not match
  | path        -- an error of the path functions
  | write       -- tensorstore rejects the array
  | shape       -- ValueError: shape in checkpoint does not match
  | uint16      -- ValueError: unsupported uint16
  | notFound    -- tensorstore: no such array
  | axes        -- NamedSharding(mesh, None)
  | attribute   -- AttributeError: None has no shape
  | noTarget    -- ValueError: restore_dtype was specified, but no `target` parameters were loaded
deriving DecidableEq, Repr

/-- Apply a function of path and value to every leaf. -/
def mapL {α β : Type} (g : List Key → α → β) : List Key → Dict α → Dict β
  | _, .nil => .nil
  | pre, .leaf k a r => .leaf k (g (pre ++ [k]) a) (mapL g pre r)
  | pre, .sub k d r => .sub k (mapL g (pre ++ [k]) d) (mapL g pre r)

/-- `_get_param_info` for one leaf, lines 637-686; the state's leaf may be `None`. -/
def paramInfo (O : Ops A T) (dir : Str) (axes : List Key → Bool) (p : List Key) (a : Option A) : Option (Info T) :=
  a.map fun a =>
    if axes p then ⟨TsPath.join p, O.shape a, some ⟨TsPath.getSpec dir (TsPath.join p), O.dtype a, O.shape a⟩⟩
    else ⟨TsPath.join p, O.shape a, none⟩

/-- `_get_parameter_infos`, lines 623-702.  Empty dicts stay. -/
def parameterInfos (O : Ops A T) (dir : Str) (axes : List Key → Bool) (s : Dict (Option A)) : Dict (Option (Info T)) :=
  mapL (paramInfo O dir axes) [] s

/-- `jax.tree_util.tree_map(f, s, t)` for dicts; `None` is a node without leaves, so `f` is not called for a `None` of `s`, and `t` must have
`None` there.  A leaf of `s` may meet a `None` of `t`. -/
def zipT {α β γ : Type} (f : List Key → α → Option β → Except Err γ) :
    List Key → Dict (Option α) → Dict (Option β) → Except Err (Dict (Option γ))
  | _, .nil, _ => .ok .nil
  | pre, .leaf k none r, t =>
    match t.get k, zipT f pre r t with
    | some (.arr none), .ok r' => .ok (.leaf k none r')
    | some (.arr none), .error e => .error e
    | _, _ => .error .structure
  | pre, .leaf k (some a) r, t =>
    match t.get k with
    | some (.arr b) =>
      match f (pre ++ [k]) a b, zipT f pre r t with
      | .ok x, .ok r' => .ok (.leaf k (some x) r')
      | .error e, _ => .error e
      | _, .error e => .error e
    | _ => .error .structure
  | pre, .sub k d r, t =>
    match t.get k with
    | some (.dict d') =>
      if d'.keys.all d.keys.contains then
        match zipT f (pre ++ [k]) d d', zipT f pre r t with
        | .ok x, .ok r' => .ok (.sub k x r')
        | .error e, _ => .error e
        | _, .error e => .error e
      else .error .structure
    | _ => .error .structure

/-- Whether a parameter is below 'target'. -/
def isTarget (p : List Key) : Bool := p.head? = some "target".toList

/-- What `_write_array` leaves behind for one leaf: a value for the msgpack file, or a spec for the msgpack file and an array at a place. -/
inductive Out (A T : Type) where
  | msg (a : A)
  | ts (spec : TSpec T) (loc : TsPath.Spec) (stored : A)

/-- `_cast`, lines 221-236, of an array: `astype(None)` if the dtype is `None`. -/
def castTo (O : Ops A T) (d : Option T) (a : A) : A :=
  match d with
  | some t => if O.dtype a = t then a else O.cast t a
  | none => O.cast O.dflt a

/-- `_cast_arr_if_not_partitioned` (lines 950-959, only for 'target') and `_write_array` (lines 857-938) for one leaf. -/
def writeLeaf (O : Ops A T) (saveDtype : Option T) (dir : Str) (p : List Key) (a : A) (info : Option (Info T)) : Except Err (Out A T) :=
  match info.bind (·.spec) with
  | none => .ok (.msg (if isTarget p then castTo O saveDtype a else a))
  | some spec =>
    let castT := if isTarget p then saveDtype else none
    let spec' := match castT with
      | some t => { spec with dtype := t }
      | none => spec
    match TsPath.updatePath dir spec'.loc with
    | .error _ => .error .path
    | .ok loc =>
      if O.shape a = spec'.shape then
        match castT with
        | some t => .ok (.ts spec' loc (O.cast t a))
        | none => if O.dtype a = spec'.dtype then .ok (.ts spec' loc a) else .error .write
      else .error .write

/-- `_write_state_to_tensorstore`, lines 847-978, into `dir`. -/
def writeState (O : Ops A T) (saveDtype : Option T) (dir : Str) (infos : Dict (Option (Info T))) (s : Dict (Option A)) :
    Except Err (Dict (Option (Out A T))) :=
  if infos.keys.all s.keys.contains then zipT (writeLeaf O saveDtype dir) [] s infos else .error .structure

/-- The leaves of the 'optimizer' entry of the msgpack file. -/
inductive FLeaf (A T : Type) where
  | val (a : A)
  | spec (s : TSpec T)

/-- The msgpack file, lines 816-821. -/
def file (o : Dict (Option (Out A T))) : Dict (Option (FLeaf A T)) :=
  mapL (fun _ x => x.map fun
    | .msg a => .val a
    | .ts s _ _ => .spec s) [] o

/-- The arrays of a tree, with their places. -/
def writes : Dict (Option (Out A T)) → List (TsPath.Spec × A)
  | .nil => []
  | .leaf _ (some (.ts _ l a)) r => (l, a) :: writes r
  | .leaf _ _ r => writes r
  | .sub _ d r => writes d ++ writes r

/-- The disk after some arrays have been written one after the other. -/
def disk (ws : List (TsPath.Spec × A)) : TsPath.Spec → Option A := fun l =>
  ws.foldl (fun cur w => if w.1 = l then some w.2 else cur) none

/-- Lines 926-929: the specs in `self._parameter_infos` are changed by a save. -/
def infosAfterSave (saveDtype : Option T) (infos : Dict (Option (Info T))) : Dict (Option (Info T)) :=
  mapL (fun p i => i.map fun i =>
    match saveDtype, isTarget p with
    | some t, true => { i with spec := i.spec.map fun s => { s with dtype := t } }
    | _, _ => i) [] infos

/-- `_maybe_update_ts_from_file_to_gcs` / `_maybe_update_ts_from_gcs_to_file`, lines 272-347 and 1076-1083, for one leaf. -/
def convertLoc (dir : Str) (s : TsPath.Spec) : Except Err TsPath.Spec :=
  match (if TsPath.gsPrefix.isPrefixOf dir then TsPath.fileToGcs s else TsPath.gcsToFile s) with
  | .ok s => .ok s
  | .error _ => .error .path

def convert (dir : Str) : Dict (Option (FLeaf A T)) → Except Err (Dict (Option (FLeaf A T)))
  | .nil => .ok .nil
  | .leaf k (some (.spec s)) r =>
    match convertLoc dir s.loc, convert dir r with
    | .ok l, .ok r' => .ok (.leaf k (some (.spec { s with loc := l })) r')
    | .error e, _ => .error e
    | _, .error e => .error e
  | .leaf k x r =>
    match convert dir r with
    | .ok r' => .ok (.leaf k x r')
    | .error e => .error e
  | .sub k d r =>
    match convert dir d, convert dir r with
    | .ok d', .ok r' => .ok (.sub k d' r')
    | .error e, _ => .error e
    | _, .error e => .error e

/-- `serialization.from_state_dict(dummy_written_state_dict, ckpt_state_dict)`, lines 1093-1129: the shape of the infos, filled from the
checkpoint.  Entries of the checkpoint that the infos do not have are dropped, missing ones are an error.  Where the info is `None` the
checkpoint's entry is not looked at later on (see the note in `_read_ts`). -/
def fill : Dict (Option (Info T)) → Dict (Option (FLeaf A T)) → Except Err (Dict (Option (FLeaf A T)))
  | .nil, _ => .ok .nil
  | .leaf k none r, t =>
    match t.get k, fill r t with
    | none, _ => .error .structure
    | some _, .ok r' => .ok (.leaf k none r')
    | some _, .error e => .error e
  | .leaf k (some _) r, t =>
    match t.get k, fill r t with
    | some (.arr x), .ok r' => .ok (.leaf k x r')
    | some (.arr _), .error e => .error e
    | _, _ => .error .structure
  | .sub k d r, t =>
    match t.get k with
    | some (.dict d') =>
      match fill d d', fill r t with
      | .ok x, .ok r' => .ok (.sub k x r')
      | .error e, _ => .error e
      | _, .error e => .error e
    | _ => .error .structure

/-- The casts on restoring: `_read_ts` (lines 1759-1764), `_maybe_make_sharded_array` (lines 388-421), `LazyAwaitableArray` and lines 1251-1257;
only 'target' is cast. -/
def restoreCast (O : Ops A T) (restoreDtype : Option T) (p : List Key) (a : A) : A :=
  if isTarget p && restoreDtype.isSome then castTo O restoreDtype a else a

/-- `_read_ts`, lines 1673-1775, for one leaf; `onDevices` is `params_on_devices`. -/
def readLeaf (O : Ops A T) (restoreDtype : Option T) (onDevices : Bool) (dir : Str) (dsk : TsPath.Spec → Option A) (p : List Key) (info : Info T)
    (x : Option (FLeaf A T)) : Except Err A :=
  match x with
  | none => .error .attribute
  | some (.val a) => .ok (restoreCast O restoreDtype p a)
  | some (.spec s) =>
    match TsPath.updatePath dir s.loc with
    | .error _ => .error .path
    | .ok loc =>
      if s.shape ≠ info.shape then .error .shape
      else if s.dtype = O.u16 then .error .uint16
      else if onDevices && info.spec.isNone then .error .axes
      else match dsk loc with
        | none => .error .notFound
        | some a => .ok (restoreCast O restoreDtype p a)

/-- `Checkpointer.restore` without `fallback_state`, lines 1026-1159, from `dir`. -/
def restore (O : Ops A T) (restoreDtype : Option T) (onDevices : Bool) (dir : Str) (dsk : TsPath.Spec → Option A)
    (infos : Dict (Option (Info T))) (f : Dict (Option (FLeaf A T))) : Except Err (Dict (Option A)) :=
  match convert dir f with
  | .error e => .error e
  | .ok f' =>
    match fill infos f' with
    | .error e => .error e
    | .ok w =>
      match zipT (readLeaf O restoreDtype onDevices dir dsk) [] infos w with
      | .error e => .error e
      | .ok r => if restoreDtype.isSome && !r.keys.contains "target".toList then .error .noTarget else .ok r

end Verif.SaveRestore
