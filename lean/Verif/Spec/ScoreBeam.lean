import Mathlib.Data.Real.Basic
/- What the result of beam search says about a sequence's score. -/
namespace Verif.Score.Spec

/-- `out` has a prompt of `p` tokens, and `score` is its log-probability under the model.  Either it ends with EOS as its `t`-th token and
padding, and the reported value is the score divided by the brevity penalty of length `t`; or it is cut off after `N` tokens without
EOS, and the reported value is the score itself.  The equation is asserted if no padding token was generated. -/
def Reported (p N : ℕ) (eos : Int) (bp : ℕ → ℝ) (reported score : ℝ) (out : List Int) : Prop :=
  (∃ t, p < t ∧ t ≤ N ∧ out.getD (t - 1) 0 = eos ∧ (∀ j, p ≤ j → j < t - 1 → out.getD j 0 ≠ eos) ∧ (∀ j, t ≤ j → out.getD j 0 = 0) ∧
    ((∀ j, p ≤ j → j < t → out.getD j 0 ≠ 0) → reported = score / bp t)) ∨
  ((∀ j, p ≤ j → j < N → out.getD j 0 ≠ eos) ∧ (∀ j, N ≤ j → out.getD j 0 = 0) ∧
    ((∀ j, p ≤ j → j < N → out.getD j 0 ≠ 0) → reported = score))

end Verif.Score.Spec
