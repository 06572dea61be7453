import Verif.Model.ApplyGrad
import Verif.Spec.OptaxState
namespace Verif.ApplyGrad.Spec
open Verif.StateDict Verif.OptaxState.Spec Verif.ND

/-- The list has the paths of all leaves, each once, in any order. -/
def Enumerates {β : Type} (ps : List (List Key)) (d : Dict β) : Prop := ps.Nodup ∧ ∀ p, p ∈ ps ↔ arrayAt d p ≠ none

/-- The sum of the squared elements of a gradient. -/
def squares : Option (NDArray ℝ) → ℝ
  | none => 0
  | some g => ((Adafactor.box g.shape).map fun i => g.get i ^ 2).sum

/-- The Euclidean norm of all gradients together. -/
noncomputable def normAll (grads : Dict (NDArray ℝ)) (ps : List (List Key)) : ℝ := √ (ps.map fun p => squares (arrayAt grads p)).sum

open Classical in
/-- What every gradient is multiplied by: 1 without a positive threshold or if the norm is within the threshold, otherwise what makes
the norm equal to the threshold. -/
noncomputable def clipFactor (thr : Option ℝ) (norm : ℝ) : ℝ :=
  match thr with
  | none => 1
  | some t => if t ≤ 0 ∨ norm ≤ t then 1 else t / norm

def scaled (c : ℝ) (g : NDArray ℝ) : NDArray ℝ := ⟨g.shape, fun i => g.get i * c⟩

end Verif.ApplyGrad.Spec
