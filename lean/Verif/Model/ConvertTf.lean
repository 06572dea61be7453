import Verif.Model.Importer
import Verif.Model.SaveRestore
/-
Using a checkpoint of the T5 code base (Mesh TensorFlow): `Checkpointer.restore_from_tf_checkpoint` (`/repo/t5x/checkpoints.py` lines 1261-1304),
`Checkpointer.convert_from_tf_checkpoint` (lines 1306-1326), which `/repo/t5x/scripts/convert_tf_checkpoint.py` calls (lines 41-81),
`_restore_from_tf_checkpoint` and `restore_from_tf_checkpoint` of the Orbax interface (lines 2178-2207 and 2531-2550).

Simplifications: those of `Verif.Model.Importer` and `Verif.Model.SaveRestore`; a train state is its state dict, without mutables.  An array of the
template may be a `ShapeDtypeStruct`.  Reading the TensorFlow files, and the directory and the step of the save, are left out.
-/
namespace Verif.ConvertTf
open Verif.StateDict Verif.SaveRestore
open Verif.TsPath (Str)

variable {A T : Type} [DecidableEq T]

inductive Fail where
  | importing (e : Importer.Err)
  | unflatten                        -- ValueError of `unflatten_dict`
  | structure                        -- ValueError: the trees or keys do not match
  | noTarget                         -- KeyError: 'target'
  | saving (e : SaveRestore.Err)

/-- `flatten_dict(state_dict, sep='/')` in `_update_state_dict` (`/repo/t5x/checkpoint_importer.py` line 489), with the shapes of the arrays. -/
def flatShapes (O : Ops A T) : List Key → Dict (Option A) → List (List Key × List Nat)
  | _, .nil => []
  | pre, .leaf k (some a) r => (pre ++ [k], O.shape a) :: flatShapes O pre r
  | pre, .leaf _ none r => flatShapes O pre r
  | pre, .sub k d r => flatShapes O (pre ++ [k]) d ++ flatShapes O pre r

/-- `restore_from_t5_checkpoint` up to the nested dict (`checkpoint_importer.py` lines 541-551 and 503-508). -/
def importTree (O : Ops A T) (s0 : Dict (Option A)) (rules : List (Importer.Rule A)) (ph : A) (strict : Bool) (ckpt : List (Importer.Key × A)) :
    Except Fail (Dict (Option A)) :=
  match Importer.restoreT5 rules ph O.shape (flatShapes O [] s0) strict ckpt with
  | .error e => .error (.importing e)
  | .ok r =>
    match unflattenPaths .nil (r.map fun e => (e.1, Val.arr (some e.2))) with
    | none => .error .unflatten
    | some u => .ok u

/-- `restore_state` (`/repo/t5x/train_state.py` lines 209-216) by `flax.serialization.from_state_dict`: the template's keys with the values of the
dict; a missing key is an error, additional ones are ignored.  A dict in place of an array is taken for an error too (flax would put it there). -/
def restoreDict : Dict (Option A) → Dict (Option A) → Option (Dict (Option A))
  | .nil, _ => some .nil
  | .leaf k _ r, t =>
    match t.get k, restoreDict r t with
    | some (.arr x), some r' => some (.leaf k x r')
    | _, _ => none
  | .sub k d r, t =>
    match t.get k with
    | some (.dict d') =>
      match restoreDict d d', restoreDict r t with
      | some x, some r' => some (.sub k x r')
      | _, _ => none
    | _ => none

/-- Lines 1289-1292: `_cast` of the entry 'target'. -/
def castTarget (O : Ops A T) (restoreDtype : Option T) (u : Dict (Option A)) : Dict (Option A) :=
  mapL (fun p x => if isTarget p && restoreDtype.isSome then x.map (castTo O restoreDtype) else x) [] u

/-- `restore_from_tf_checkpoint`, lines 1261-1304 (and 2178-2207).  `_partition_parameter` distributes an array and does not change its value; `tree_map` needs
the same structure. -/
def restoreTf (O : Ops A T) (restoreDtype : Option T) (infos : Dict (Option (Info T))) (s0 : Dict (Option A)) (rules : List (Importer.Rule A)) (ph : A)
    (strict : Bool) (ckpt : List (Importer.Key × A)) : Except Fail (Dict (Option A)) :=
  match importTree O s0 rules ph strict ckpt with
  | .error e => .error e
  | .ok u =>
    if restoreDtype.isSome && !u.keys.contains "target".toList then .error .noTarget
    else
      let u' := castTarget O restoreDtype u
      if !infos.keys.all u'.keys.contains then .error .structure
      else
        match zipT (fun _ a (_ : Option (Info T)) => .ok a) [] u' infos with
        | .error _ => .error .structure
        | .ok placed =>
          match restoreDict s0 placed with
          | none => .error .structure
          | some s => .ok s

/-- `convert_from_tf_checkpoint`, lines 1306-1326: what is written. -/
def convertTf (O : Ops A T) (saveDtype : Option T) (dir : Str) (infos : Dict (Option (Info T))) (s0 : Dict (Option A)) (rules : List (Importer.Rule A))
    (ph : A) (ckpt : List (Importer.Key × A)) : Except Fail (Dict (Option (Out A T))) :=
  match importTree O s0 rules ph true ckpt with
  | .error e => .error e
  | .ok u =>
    match restoreDict s0 u with
    | none => .error .structure
    | some s =>
      match writeState O saveDtype dir infos s with
      | .error e => .error (.saving e)
      | .ok o => .ok o

end Verif.ConvertTf
