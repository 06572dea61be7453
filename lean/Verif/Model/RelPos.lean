import Verif.Common
import Mathlib.Analysis.SpecialFunctions.Log.Basic
/-
Relative position buckets: t5x/examples/t5/layers.py:580-625 (RelativePositionBiases).

The floating point expression `log(n / max_exact + eps) / log(max_distance / max_exact) *
(num_buckets - max_exact)` is a parameter `f : ℕ → ℝ` of the bucket function.  `exactLog` is its value in
exact arithmetic; the theorems use only three properties of `f` (`Spec.LogLike`), which `exactLog` has.
-/
namespace Verif.RelPos

/-- `.astype(np.int32)` of a real: truncation toward zero. -/
noncomputable def trunc (r : ℝ) : ℤ := if 0 ≤ r then ⌊r⌋ else ⌈r⌉

/-- layers.py:612-615: the expression whose integer part is added to max_exact. -/
noncomputable def exactLog (eps : ℝ) (maxDistance maxExact numBuckets : ℕ) (n : ℕ) : ℝ :=
  Real.log ((n : ℝ) / maxExact + eps) / Real.log ((maxDistance : ℝ) / maxExact) *
    ((numBuckets : ℝ) - maxExact)

/-- layers.py:607-619 for a non-negative distance n and num_buckets already halved in bidirectional mode. -/
noncomputable def side (f : ℕ → ℝ) (numBuckets : ℕ) (n : ℕ) : ℤ :=
  let maxExact := numBuckets / 2
  let valIfLarge := min ((maxExact : ℤ) + trunc (f n)) ((numBuckets : ℤ) - 1)
  if n < maxExact then (n : ℤ) else valIfLarge

/-- layers.py:580-620 _relative_position_bucket. -/
noncomputable def bucket (f : ℕ → ℝ) (rel : ℤ) (bidirectional : Bool) (numBuckets : ℕ) : ℤ :=
  let n := -rel
  if bidirectional then
    let nb := numBuckets / 2
    (if n < 0 then (1 : ℤ) else 0) * nb + side f nb n.natAbs
  else
    side f numBuckets (max n 0).toNat

/-- layers.py:622-668 __call__: the bias added to the attention logit of query i and key j, for one head
with embedding table `emb`; the one-hot contraction selects the entry equal to the bucket. -/
noncomputable def bias (f : ℕ → ℝ) (emb : ℤ → ℝ) (bidirectional : Bool) (numBuckets : ℕ) (i j : ℕ) : ℝ :=
  ((List.range numBuckets).map (fun b : ℕ =>
    emb b * (if bucket f ((j : ℤ) - i) bidirectional numBuckets = b then 1 else 0))).sum

end Verif.RelPos
