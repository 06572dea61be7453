import Verif.Model.SaveRestore
/-
`Checkpointer.restore` with `state_transformation_fns` and `fallback_state`, `/repo/t5x/checkpoints.py` lines 1026-1159: a checkpoint of another
model is read, and what it does not have comes from the fallback state.  The simplifications are those of `Verif.Model.SaveRestore`; in addition:
* The state transformations are one function of the checkpoint's entries, which may fail (`_get_optimizer_state_dict`, lines 1637-1659; the
  assignment map of the repository is `Verif.StateDict.applyAssignmentMap`).
* `intersect_state` and `merge_state` are those of `Verif.Model.StateDict`; `none` there is an exception of `unflatten_dict`.
-/
namespace Verif.Fallback
open Verif.StateDict Verif.SaveRestore
open Verif.TsPath (Str)

variable {A T : Type} [DecidableEq T]

/-- `intersect_state(infos, ckpt)`, lines 1108-1113: only the keys of the second argument are used, so that its leaves may be of another type. -/
def intersectInfos (infos : Dict (Option (Info T))) (c : Dict (Option (FLeaf A T))) : Option (Dict (Option (Info T))) :=
  intersectState infos (mapL (fun _ _ => none) [] c)

/-- Lines 1085-1139.  `dummy_written_state_dict` has the entries of the parameter infos, so that one intersection stands for both. -/
def restoreFallback (O : Ops A T) (restoreDtype : Option T) (onDevices : Bool) (dir : Str) (dsk : TsPath.Spec → Option A)
    (transform : Dict (Option (FLeaf A T)) → Except Err (Dict (Option (FLeaf A T)))) (infos : Dict (Option (Info T)))
    (f : Dict (Option (FLeaf A T))) (fallback : Dict (Option A)) : Except Err (Dict (Option A)) :=
  match convert dir f with
  | .error e => .error e
  | .ok f' =>
    match transform f' with
    | .error e => .error e
    | .ok c =>
      match intersectInfos infos c with
      | none => .error .structure
      | some infos' =>
        match fill infos' c with
        | .error e => .error e
        | .ok w =>
          match zipT (readLeaf O restoreDtype onDevices dir dsk) [] infos' w with
          | .error e => .error e
          | .ok r =>
            if restoreDtype.isSome && !r.keys.contains "target".toList then .error .noTarget
            else match mergeState r fallback with
              | none => .error .structure
              | some m => .ok m

end Verif.Fallback
