import Verif.Model.Transformer
import Verif.Model.Score
/-
What a score should be: the log-likelihood of a text under the network, without any batch, padding or weights.
-/
namespace Verif.ExportScore.Spec
open Verif.Transformer

/-- The text `x` on the encoder side and `y` on the decoder side, with no padding; the decoder reads 0 and then `y`. -/
def text (x y : List Int) : Input y.length x.length :=
  ⟨fun i => x[i], fun i => if i.val = 0 then 0 else y.getD (i.val - 1) 0, fun i => y[i], none, none⟩

/-- `s` is the log-likelihood of `y` after `x`: the sum over the tokens of the logarithm of the softmax of the logits.  A token that is not in
the vocabulary counts as nothing. -/
def IsLogLikelihood {d h e f V : Nat} (ex : ℝ → ℝ) (lg : ℕ → ℝ) (net : Net d h e f V) (x y : List Int) (s : ℝ) : Prop :=
  ∃ logits, apply ex lg net (text x y) = some logits ∧
    s = ∑ i : Fin y.length, if hv : 0 ≤ y[i] ∧ y[i].toNat < V then
      logits i ⟨y[i].toNat, hv.2⟩ - Real.log (∑ v, Real.exp (logits i v)) else 0

end Verif.ExportScore.Spec
