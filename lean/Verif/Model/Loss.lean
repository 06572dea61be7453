import Verif.Common
import Mathlib.Analysis.SpecialFunctions.Log.Basic
import Mathlib.Algebra.BigOperators.Group.Finset.Basic
import Mathlib.Data.Fintype.BigOperators
import Mathlib.Data.Finset.Max
/-
Cross entropy losses: t5x/losses.py:26-193.

Real numbers instead of floating point.  The functions act on each position of the batch separately, so one
position is a vector `ι → ℝ` over the vocabulary ι, and a batch is a list of positions.
-/
namespace Verif.Loss
open Finset

variable {ι : Type} [Fintype ι]

/-- losses.py:52 jax.scipy.special.logsumexp. -/
noncomputable def logsumexp (logits : ι → ℝ) : ℝ := Real.log (∑ i, Real.exp (logits i))

/-- losses.py:26-60 cross_entropy_with_logits: (loss, z-loss part). -/
noncomputable def crossEntropy (logits targets : ι → ℝ) (z : ℝ) : ℝ × ℝ :=
  let logitsSum := logsumexp logits
  let logSoftmax := fun i => logits i - logitsSum
  let loss := -∑ i, targets i * logSoftmax i
  let totalZ := z * logitsSum ^ 2
  (loss + totalZ, totalZ)

/-- The residuals kept by the forward pass (losses.py:89-97); logits and z_loss are not needed. -/
structure Res (ι : Type) where
  targets : ι → ℝ
  z : ℝ
  expShifted : ι → ℝ
  sumExp : ℝ
  logSoftmax : ι → ℝ
  logZ : ℝ

/-- `logits.max(axis=-1)` (losses.py:78). -/
noncomputable def maxLogit [Nonempty ι] (logits : ι → ℝ) : ℝ := univ.sup' univ_nonempty logits

/-- losses.py:63-97 _cross_entropy_with_logits_fwd. -/
noncomputable def fwd [Nonempty ι] (logits targets : ι → ℝ) (z : ℝ) : (ℝ × ℝ) × Res ι :=
  let maxLogit := maxLogit logits
  let shifted := fun i => logits i - maxLogit
  let expShifted := fun i => Real.exp (shifted i)
  let sumExp := ∑ i, expShifted i
  let logSoftmax := fun i => shifted i - Real.log sumExp
  let loss := -∑ i, targets i * logSoftmax i
  let logZ := Real.log sumExp + maxLogit
  let totalZ := z * logZ ^ 2
  ((loss + totalZ, totalZ), ⟨targets, z, expShifted, sumExp, logSoftmax, logZ⟩)

/-- losses.py:100-124 _cross_entropy_with_logits_bwd: cotangents of logits and targets for the cotangent g
of the loss.  The cotangent of the z-loss output is ignored and that of the coefficient is 0. -/
noncomputable def bwd (r : Res ι) (g : ℝ) : (ι → ℝ) × (ι → ℝ) :=
  let deriv := fun i => (1 + 2 * r.z * r.logZ) * r.expShifted i / r.sumExp - r.targets i
  (fun i => g * deriv i, fun i => -g * r.logSoftmax i)

/-- losses.py:160-166: low_confidence. -/
noncomputable def lowConfidence (V : ℕ) (smoothing : ℝ) : ℝ :=
  let confidence := 1 - smoothing
  if V = 1 then 1 - confidence else (1 - confidence) / ((V : ℝ) - 1)

/-- losses.py:167-170: normalizing_constant; 1e-20 is `tiny`. -/
noncomputable def normConst (V : ℕ) (smoothing : ℝ) : ℝ :=
  let confidence := 1 - smoothing
  let low := lowConfidence V smoothing;
  -(confidence * Real.log confidence + ((V : ℝ) - 1) * low * Real.log (low + 1e-20))

/-- losses.py:171-173: common_utils.onehot with on and off values. -/
noncomputable def softTargets [DecidableEq ι] (V : ℕ) (smoothing : ℝ) (target : ι) : ι → ℝ :=
  fun i => if i = target then 1 - smoothing else lowConfidence V smoothing

/-- losses.py:174-177: loss and z-loss of one position, before weighting. -/
noncomputable def tokenLoss [DecidableEq ι] (logits : ι → ℝ) (target : ι) (smoothing z : ℝ) : ℝ × ℝ :=
  let V := Fintype.card ι
  let l := crossEntropy logits (softTargets V smoothing target) z
  (l.1 - normConst V smoothing, l.2)

/-- One position of a batch. -/
structure Pos (ι : Type) where
  logits : ι → ℝ
  target : ι

/-- losses.py:132-193 compute_weighted_cross_entropy over the flattened [batch, length] positions:
(loss, z-loss, weight sum).  The rank check is not modelled; weights have the shape of the targets. -/
noncomputable def weightedCE [DecidableEq ι] (ps : List (Pos ι)) (weights : Option (List ℝ))
    (smoothing z : ℝ) (lnf : Option ℝ) : ℝ × ℝ × ℝ :=
  let l := ps.map (fun p => (tokenLoss p.logits p.target smoothing z).1)
  let zl := ps.map (fun p => (tokenLoss p.logits p.target smoothing z).2)
  let (l, zl, wsum) := match weights with
    | some w => (List.zipWith (· * ·) l w, List.zipWith (· * ·) zl w, w.sum)
    | none => (l, zl, (ps.length : ℝ))
  let (l, zl) := match lnf with
    | some k => (l.map (· / k), zl.map (· / k))
    | none => (l, zl)
  (l.sum, zl.sum, wsum)

end Verif.Loss
