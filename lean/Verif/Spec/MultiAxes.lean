import Verif.Spec.MultiOpt
import Verif.Model.MultiAxes
namespace Verif.MultiAxes.Spec
open Verif.StateDict Verif.MultiOpt.Spec Verif.OptaxState.Spec

variable {X S Y : Type}

/-- The traversal of this optimizer selects the parameter at this path. -/
def Selects (o : AxSub X S Y) (p : List Key) : Prop := o.focus ('/' :: join p) = true

/-- `s` is the part of `d` that the optimizer selects. -/
def Piece {β : Type} (o : AxSub X S Y) (s d : Dict β) : Prop :=
  ProperDict s ∧ (∀ p, Selects o p → arrayAt s p = arrayAt d p) ∧ ∀ p, ¬ Selects o p → arrayAt s p = none

/-- The derived axes form a tree like the states. -/
def Fits (o : AxSub X S Y) : Prop :=
  ∀ f, o.derive = some f → ∀ ps ss, ProperDict ps → ProperDict ss → ProperDict (f ps ss) ∧ SamePaths (f ps ss) ss

/-- No parameter is selected twice. -/
def Apart (os : List (AxSub X S Y)) (states : Dict (Option S)) : Prop :=
  ∀ p, arrayAt states p ≠ none → ∀ (i j : Nat) (oi oj : AxSub X S Y), os[i]? = some oi → os[j]? = some oj → Selects oi p → Selects oj p → i = j

end Verif.MultiAxes.Spec
