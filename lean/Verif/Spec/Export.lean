import Verif.Model.Export
/-
What the features of an exported model should be.
-/
namespace Verif.Export.Spec
open Verif.Export

/-- The tokens a row should show: cut to the length, with room for EOS if there is one. -/
def wanted (f : Feature) (t : List Int) : List Int :=
  match f.eos with
  | some e => t.take (f.length - 1) ++ [e]
  | none => t.take f.length

/-- The widths an array of this feature may have. -/
def widths (f : Feature) : List Nat :=
  match f.allowed with
  | some (a :: l) => a :: l
  | _ => [f.length]

/-- The length of the feature is the largest of the widths. -/
def Valid (f : Feature) : Prop := 1 ≤ f.length ∧ f.length ∈ widths f ∧ ∀ w ∈ widths f, w ≤ f.length

/-- `w` is the smallest width that holds all rows. -/
def Width (f : Feature) (rows : List (List Int)) (w : Nat) : Prop :=
  w ∈ widths f ∧ (∀ t ∈ rows, (wanted f t).length ≤ w) ∧ ∀ v ∈ widths f, (∀ t ∈ rows, (wanted f t).length ≤ v) → w ≤ v

/-- The entry of row `i` and column `j`. -/
def entry (a : List (List Int)) (i j : Nat) : Int := (a.getD i []).getD j 0

/-- The array has a row of `w` entries for each of `n` examples. -/
def IsArray (a : List (List Int)) (n w : Nat) : Prop := a.length = n ∧ ∀ r ∈ a, r.length = w

end Verif.Export.Spec
