import Verif.Model.Masks
import Mathlib.Data.Real.Basic
/-
What a decoder is fed when a sequence is scored: the teacher-forced inputs, and the weights of the scored positions.
-/
namespace Verif.Score.Spec
open Verif.Masks

/-- The sequence as targets. -/
def asRow (n : Nat) (out : List Int) : Row n := fun j => out.getD j.val 0

/-- Teacher forcing: `first`, then the sequence shifted by one. -/
def shifted (n : Nat) (first : Int) (out : List Int) : Row n := fun j => if j.val = 0 then first else out.getD (j.val - 1) 0

/-- Loss weights: 1 on the non-padding positions from `p` on. -/
def weightsFrom (n p : Nat) (out : List Int) : Fin n → ℝ := fun j => if p ≤ j.val ∧ out.getD j.val 0 ≠ 0 then 1 else 0

/-- Between the prompt and the first end marker (or the limit `m`) there is no padding. -/
def NoPadding (p m : Nat) (eos : Int) (out : List Int) : Prop :=
  ∀ j, p ≤ j → j < m → (∀ i, p ≤ i → i < j → out.getD i 0 ≠ eos) → out.getD j 0 ≠ 0

end Verif.Score.Spec
