import Verif.Model.AxisRules
namespace Verif.AxisRules.Spec

/-- No mesh axis in common. -/
def Disjoint (a b : Axes) : Prop := ∀ x, x ∈ a.getD [] → x ∉ b.getD []

/-- No logical name twice. -/
def Unique (names : List (Option Str)) : Prop := ∀ (i j : Nat) (n : Str), names[i]? = some (some n) → names[j]? = some (some n) → i = j

/-- The names that the standard rules put on the model axis. -/
def modelNames : List Str := ["vocab".toList, "mlp".toList, "heads".toList, "joined_kv".toList]

open Classical in
/-- What the documentation says about 'embed': on the model axis with two-dimensional activation partitioning, if this is still free; otherwise on
the data axis with two-dimensional parameter partitioning, if this is still free. -/
noncomputable def embedAxes (act par : Nat) (names : List (Option Str)) : Axes :=
  if act = 2 ∧ ¬ ∃ m ∈ modelNames, some m ∈ names then some ["model".toList]
  else if par = 2 ∧ some "batch".toList ∉ names then some ["data".toList]
  else none

end Verif.AxisRules.Spec
