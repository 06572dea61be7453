import Verif.Model.AxesOverride
import Verif.Spec.TrainState
namespace Verif.AxesOverride.Spec
open Verif.StateDict
open Verif.OptaxState.Spec (arrayAt ProperDict)
open Verif.TrainState.Spec (axesPath)

variable {α : Type}

/-- The value for a name: that of the first pattern that matches, if there is one and its value is not `None`. -/
def OverriddenBy (pats : Patterns) (name : Key) (names : Names) : Prop :=
  ∃ i m, pats[i]? = some (m, some names) ∧ m name = true ∧ ∀ (j : Nat) m' v, j < i → pats[j]? = some (m', v) → m' name = false

/-- No component of a path ends with '_axes'. -/
def Plain (p : List Key) : Prop := ∀ k ∈ p, ¬ "_axes".toList <:+ k

/-- The axes tree has entries for parameters only. -/
def AxesTree (axes : Dict Names) : Prop := ProperDict axes ∧ ∀ q, arrayAt axes q ≠ none → ∃ p, Plain p ∧ p ≠ [] ∧ q = axesPath p

/-- A parameter tree. -/
def ParamTree (params : Dict α) : Prop := ProperDict params ∧ ∀ p, arrayAt params p ≠ none → Plain p

end Verif.AxesOverride.Spec
