import Verif.Model.Fallback
import Verif.Spec.SaveRestore
import Verif.Spec.OptaxState
/- What restoring with a fallback state should do. -/
namespace Verif.Fallback.Spec
open Verif.StateDict Verif.SaveRestore
open Verif.TsPath (Str)

variable {A T : Type}

/-- A nested dict as checkpoints have them: distinct keys at every level, no slash in a key, and no key "driver" (such a dict could be taken for
a tensorstore spec). -/
def Ordinary {α : Type} : Dict α → Prop
  | .nil => True
  | .leaf k _ r => '/' ∉ k ∧ k ≠ "driver".toList ∧ k ∉ r.keys ∧ Ordinary r
  | .sub k d r => '/' ∉ k ∧ k ≠ "driver".toList ∧ k ∉ r.keys ∧ Ordinary d ∧ Ordinary r

/-- The entry `x` of a checkpoint below `dir` holds the array `a`, for a parameter with the given info: the array itself, or a spec of the right
shape with the array at its place. -/
def Holds (dir : Str) (dsk : TsPath.Spec → Option A) (i : Info T) (x : Option (FLeaf A T)) (a : A) : Prop :=
  x = some (.val a) ∨
    ∃ s loc, x = some (.spec s) ∧ s.shape = i.shape ∧ TsPath.updatePath dir s.loc = .ok loc ∧ dsk loc = some a

/-- The entry can be read: it holds an array, is not uint16, and if parameters go to devices, then this one is partitioned. -/
def Readable (O : Ops A T) (onDevices : Bool) (dir : Str) (dsk : TsPath.Spec → Option A) (i : Info T) (x : Option (FLeaf A T)) : Prop :=
  (∃ a, Holds dir dsk i x a) ∧ ∀ s, x = some (.spec s) → s.dtype ≠ O.u16 ∧ (onDevices = true → i.spec.isSome)

end Verif.Fallback.Spec
