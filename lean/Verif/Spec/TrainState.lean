import Verif.Model.TrainState
import Verif.Spec.OptaxState
namespace Verif.TrainState.Spec
open Verif.StateDict Verif.OptaxState.Spec

variable {α : Type}

/-- The path of the axes that belong to the variable at `p`: the last component gets the suffix `_axes`. -/
def axesPath : List Key → List Key
  | [] => []
  | [k] => [k ++ "_axes".toList]
  | k :: k2 :: ks => k :: axesPath (k2 :: ks)

/-- The axes tree has an entry for the variable at `p`: under the suffixed name, or under its own name unless that ends in `_axes`. -/
def HasAxes (axes : Dict α) (p : List Key) : Prop :=
  arrayAt axes (axesPath p) ≠ none ∨ (arrayAt axes p ≠ none ∧ ¬ ∃ q k, p = q ++ [k ++ "_axes".toList])

/-- Every variable has axes. -/
def Covers (axes vars : Dict α) : Prop := ∀ p, arrayAt vars p ≠ none → HasAxes axes p

/-- What `create` accepts. -/
def Accepts (wants : Bool) (vars : Collections α) : Prop :=
  (∃ params, PyDict.get vars "params".toList = some params ∧
    ∀ ax, PyDict.get vars "params_axes".toList = some ax → Covers ax params) ∧
  (wants = true → PyDict.get vars "params_axes".toList ≠ none) ∧
  ∀ b ax, b ≠ "params".toList → PyDict.get vars (b ++ "_axes".toList) = some ax →
    b ≠ "params_axes".toList ∧ ∃ t, PyDict.get vars b = some t ∧ Covers ax t

/-- The same structure, and a proper dict. -/
def Template (a b : Dict α) : Prop := SameShape a b ∧ ProperDict b

end Verif.TrainState.Spec
