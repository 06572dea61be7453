import Mathlib.Analysis.Calculus.Deriv.Basic
import Verif.Model.ScanTrain
import Verif.Spec.ApplyGrad
import Verif.Spec.InitScalable
namespace Verif.ScanTrain.Spec
open Verif.StateDict Verif.OptaxState.Spec Verif.ApplyGrad.Spec Verif.ND Verif.Adafactor Verif.InitScalable.Spec Verif.AdafactorStack.Spec
open Verif.InitT5 (Var Name layerName)

/-- The elements of the parameters, by path and index. -/
abbrev Values := List Name → List Nat → ℝ

/-- The elements of a tree of arrays. -/
def values (P : Dict (NDArray ℝ)) : Values := fun p i =>
  match arrayAt P p with
  | some a => a.get i
  | none => 0

/-- The tree has exactly the parameters listed, in these shapes. -/
structure Fits (vars : List Var) (P : Dict (NDArray ℝ)) : Prop where
  proper : ProperDict P
  paths : Enumerates (vars.map Var.path) P
  shapes : ∀ v ∈ vars, ∀ a, arrayAt P v.path = some a → a.shape = v.shape

/-- The parameters outside of the layers. -/
def plain (cfg : InitT5.Config) : List Var := [embedding cfg, encNorm cfg, decNorm cfg] ++ head cfg

/-- The second network has the parameters of the first one, those of the layers stacked along the dimension `ax`. -/
structure Same (cfg : InitT5.Config) (ax : Nat) (W W' : Values) : Prop where
  plain : ∀ v ∈ plain cfg, ∀ i, InBox v.shape i → W v.path i = W' v.path i
  enc : ∀ k < cfg.numEnc, ∀ v ∈ encLayer cfg [], ∀ i, InBox v.shape i →
    W ("encoder".toList :: layerName k :: v.path) i = W' ("encoder".toList :: "encoder".toList :: v.path) (ins ax k i)
  dec : ∀ k < cfg.numDec, ∀ v ∈ decLayer cfg [], ∀ i, InBox v.shape i →
    W ("decoder".toList :: layerName k :: v.path) i = W' ("decoder".toList :: "decoder".toList :: v.path) (ins ax k i)

/-- One element changed by `t`. -/
noncomputable def bump (W : Values) (p : List Name) (i : List Nat) (t : ℝ) : Values := fun q j => if q = p ∧ j = i then W q j + t else W q j

/-- The gradients are the partial derivatives of the loss at `P`. -/
structure IsGrad (vars : List Var) (loss : Values → ℝ) (P G : Dict (NDArray ℝ)) : Prop where
  fits : Fits vars G
  deriv : ∀ v ∈ vars, ∀ i, InBox v.shape i → values G v.path i = deriv (fun t => loss (bump (values P) v.path i t)) 0

end Verif.ScanTrain.Spec
