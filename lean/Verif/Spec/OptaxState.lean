import Verif.Model.OptaxState
import Verif.Spec.StateDict
namespace Verif.OptaxState.Spec
open Verif.StateDict

variable {α : Type}

/-- Same entries in the same order, leaves at the same places: two states of the same optimizer for the same parameters. -/
def SameShape : Dict α → Dict α → Prop
  | .nil, .nil => True
  | .leaf k _ r, .leaf k' _ r' => k = k' ∧ SameShape r r'
  | .sub k d r, .sub k' d' r' => k = k' ∧ SameShape d d' ∧ SameShape r r'
  | _, _ => False

/-- No empty dict anywhere below the root. -/
def NoEmptyDict (d : Dict α) : Prop := StateDict.Spec.NoEmpty (fun _ => false) d

/-- A nested dict: distinct keys at every level, no slash in a key. -/
def ProperDict (d : Dict α) : Prop := StateDict.Spec.Proper (fun _ => false) d

/-- The array at a path, if there is one. -/
def arrayAt : Dict α → List Key → Option α
  | _, [] => none
  | d, [k] => match d.get k with
    | some (.arr a) => some a
    | _ => none
  | d, k :: k2 :: ks => match d.get k with
    | some (.dict s) => arrayAt s (k2 :: ks)
    | _ => none

end Verif.OptaxState.Spec
