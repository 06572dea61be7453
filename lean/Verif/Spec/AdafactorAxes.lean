import Verif.Model.AdafactorAxes
/-
What it means that the axes of a state array follow those of its parameter.
-/
namespace Verif.AdafactorAxes.Spec
open Verif.AdafactorAxes

/-- The array of shape `arr` consists of some of the dimensions of the parameter, in order, and every dimension that `spec` names has that
name in the parameter as well.  An array without a spec is replicated. -/
def Follows (shape : List Nat) (axes : Axes) (arr : List Nat) (spec : Option Axes) : Prop :=
  ∀ s, spec = some s → s.length ≤ arr.length ∧
    ∃ dims : List Nat, dims.Sublist (List.range shape.length) ∧ arr = dims.map (fun k => shape.getD k 0) ∧
      ∀ (i : Nat) (n : Name), s[i]? = some (some n) → ∃ k : Nat, dims[i]? = some k ∧ axes[k]? = some (some n)

/-- The name of an expert kernel: it ends in `/kernel` and has `expert` before that. -/
def ExpertKernel (p : Name) : Prop := ∃ a b, p = a ++ "expert".toList ++ b ++ "/kernel".toList

/-- A name that has `expert` and later `/kernel/v_`; no parameter is named like that. -/
def OddName (p : Name) : Prop := ∃ a b c, p = a ++ "expert".toList ++ b ++ "/kernel/v_".toList ++ c

end Verif.AdafactorAxes.Spec
