import Verif.Model.Loss
import Mathlib.Analysis.SpecialFunctions.Log.Deriv
import Mathlib.Analysis.Calculus.FDeriv.Pi
import Mathlib.Analysis.SpecialFunctions.ExpDeriv
import Mathlib.Algebra.BigOperators.Field
/-
Properties C13 (the hand-written gradient) and C14 (label smoothing).
-/
namespace Verif.Loss
open Finset

variable {ι : Type} [Fintype ι]

namespace Spec
/-- Softmax probabilities. -/
noncomputable def softmax (x : ι → ℝ) (i : ι) : ℝ := Real.exp (x i) / ∑ j, Real.exp (x j)
/-- Textbook loss: expected negative log probability plus z times the squared log partition function. -/
noncomputable def textbook (x t : ι → ℝ) (z : ℝ) : ℝ :=
  ∑ i, t i * (-Real.log (softmax x i)) + z * (Real.log (∑ j, Real.exp (x j))) ^ 2
end Spec
open Spec

theorem sum_exp_pos [Nonempty ι] (x : ι → ℝ) : 0 < ∑ i, Real.exp (x i) :=
  sum_pos (fun i _ => Real.exp_pos _) univ_nonempty

theorem log_softmax [Nonempty ι] (x : ι → ℝ) (i : ι) : Real.log (softmax x i) = x i - logsumexp x := by
  unfold softmax logsumexp
  rw [Real.log_div (Real.exp_pos _).ne' (sum_exp_pos x).ne', Real.log_exp]

theorem sum_shift (x : ι → ℝ) (m : ℝ) : ∑ i, Real.exp (x i - m) = (∑ i, Real.exp (x i)) / Real.exp m := by
  rw [Finset.sum_div]
  exact sum_congr rfl fun i _ => Real.exp_sub _ _

theorem log_sum_shift [Nonempty ι] (x : ι → ℝ) (m : ℝ) :
    Real.log (∑ i, Real.exp (x i - m)) = logsumexp x - m := by
  rw [sum_shift, Real.log_div (sum_exp_pos x).ne' (Real.exp_pos _).ne', Real.log_exp]
  rfl

/-- C13: the value of the loss is the textbook value, and the stabilised forward pass used under
differentiation returns the same pair as the plain function. -/
theorem C13_forward [Nonempty ι] (x t : ι → ℝ) (z : ℝ) :
    (crossEntropy x t z).1 = textbook x t z ∧ (fwd x t z).1 = crossEntropy x t z := by
  constructor
  · unfold crossEntropy textbook
    dsimp only
    rw [← sum_neg_distrib]
    congr 1
    apply sum_congr rfl
    intro i _
    rw [log_softmax]; ring
  · unfold fwd crossEntropy
    dsimp only
    rw [log_sum_shift]
    simp only [sub_add_cancel]
    congr 3
    congr 1
    funext i
    ring

theorem fwd_res [Nonempty ι] (x t : ι → ℝ) (z : ℝ) (i : ι) :
    (fwd x t z).2.expShifted i / (fwd x t z).2.sumExp = softmax x i ∧
      (fwd x t z).2.logZ = logsumexp x ∧ (fwd x t z).2.logSoftmax i = Real.log (softmax x i) := by
  refine ⟨?_, ?_, ?_⟩
  · show Real.exp (x i - maxLogit x) / ∑ j, Real.exp (x j - maxLogit x) = _
    rw [sum_shift, Real.exp_sub]
    unfold softmax
    have := (sum_exp_pos x).ne'
    have := (Real.exp_pos (maxLogit x)).ne'
    field_simp
  · show Real.log (∑ j, Real.exp (x j - maxLogit x)) + maxLogit x = _
    rw [log_sum_shift]; ring
  · show x i - maxLogit x - Real.log (∑ j, Real.exp (x j - maxLogit x)) = _
    rw [log_sum_shift, log_softmax]; ring

theorem hasFDerivAt_logsumexp [Nonempty ι] (x : ι → ℝ) :
    HasFDerivAt (logsumexp (ι := ι)) (∑ i, softmax x i • ContinuousLinearMap.proj (R := ℝ) (φ := fun _ : ι => ℝ) i) x := by
  have h1 : ∀ i ∈ (univ : Finset ι), HasFDerivAt (fun y : ι → ℝ => Real.exp (y i))
      (Real.exp (x i) • ContinuousLinearMap.proj (R := ℝ) (φ := fun _ : ι => ℝ) i) x :=
    fun i _ => (hasFDerivAt_apply i x).exp
  have h2 := (HasFDerivAt.fun_sum h1).log (sum_exp_pos x).ne'
  refine h2.congr_fderiv ?_
  rw [smul_sum]
  apply sum_congr rfl
  intro i _
  rw [smul_smul]
  congr 1
  unfold softmax
  rw [inv_mul_eq_div]

/-- C13: for target vectors that sum to one, the backward pass returns the true (Fréchet) derivative of the
loss with respect to the logits, scaled by the incoming cotangent.  In general it is off by exactly
(sum of targets - 1) times the softmax. -/
theorem C13_grad_logits [Nonempty ι] (x t : ι → ℝ) (z g : ℝ) :
    HasFDerivAt (fun y => g * (crossEntropy y t z).1)
      (∑ i, ((bwd (fwd x t z).2 g).1 i + g * ((∑ j, t j) - 1) * softmax x i) •
        ContinuousLinearMap.proj (R := ℝ) (φ := fun _ : ι => ℝ) i) x := by
  have hL := hasFDerivAt_logsumexp x
  have h1 : ∀ i ∈ (univ : Finset ι), HasFDerivAt (fun y : ι → ℝ => t i * (y i - logsumexp y))
      (t i • (ContinuousLinearMap.proj (R := ℝ) (φ := fun _ : ι => ℝ) i -
        ∑ i, softmax x i • ContinuousLinearMap.proj (R := ℝ) (φ := fun _ : ι => ℝ) i)) x :=
    fun i _ => ((hasFDerivAt_apply i x).sub hL).const_mul (t i)
  have h2 := (HasFDerivAt.fun_sum h1).neg
  have h3 := (hL.pow 2).const_mul z
  have h4 := (h2.add h3).const_mul g
  refine h4.congr_fderiv ?_
  apply ContinuousLinearMap.ext
  intro v
  have hb : ∀ i, (bwd (fwd x t z).2 g).1 i = g * ((1 + 2 * z * logsumexp x) * softmax x i - t i) := by
    intro i
    obtain ⟨a, b, _⟩ := fwd_res x t z i
    show g * ((1 + 2 * z * (fwd x t z).2.logZ) * (fwd x t z).2.expShifted i / (fwd x t z).2.sumExp - t i) = _
    rw [mul_div_assoc, a, b]
  simp only [hb, ContinuousLinearMap.smul_apply, ContinuousLinearMap.add_apply, ContinuousLinearMap.neg_apply,
    ContinuousLinearMap.sum_apply, ContinuousLinearMap.sub_apply, ContinuousLinearMap.proj_apply, smul_eq_mul]
  have e1 : ∑ i, t i * (v i - ∑ j, softmax x j * v j) = ∑ i, t i * v i - (∑ i, t i) * ∑ j, softmax x j * v j := by
    rw [sum_mul, ← sum_sub_distrib]
    exact sum_congr rfl fun i _ => by ring
  have e2 : ∑ i, (g * ((1 + 2 * z * logsumexp x) * softmax x i - t i) + g * (∑ j, t j - 1) * softmax x i) * v i =
      g * ((2 * z * logsumexp x + ∑ j, t j) * ∑ i, softmax x i * v i - ∑ i, t i * v i) := by
    rw [mul_sum, ← sum_sub_distrib, mul_sum]
    exact sum_congr rfl fun i _ => by ring
  rw [e1, e2]
  simp
  left
  ring

/-- C13, the form used: targets sum to one, cotangent 1. -/
theorem C13_gradient [Nonempty ι] (x t : ι → ℝ) (z : ℝ) (ht : ∑ j, t j = 1) :
    HasFDerivAt (fun y => (crossEntropy y t z).1)
      (∑ i, (bwd (fwd x t z).2 1).1 i • ContinuousLinearMap.proj (R := ℝ) (φ := fun _ : ι => ℝ) i) x := by
  have := C13_grad_logits x t z 1
  simpa [ht] using this

/-- C13: the cotangent of the targets is the true derivative too. -/
theorem C13_grad_targets [Nonempty ι] (x t : ι → ℝ) (z g : ℝ) :
    HasFDerivAt (fun s => g * (crossEntropy x s z).1)
      (∑ i, (bwd (fwd x t z).2 g).2 i • ContinuousLinearMap.proj (R := ℝ) (φ := fun _ : ι => ℝ) i) t := by
  have h1 : ∀ i ∈ (univ : Finset ι), HasFDerivAt (fun s : ι → ℝ => s i * (x i - logsumexp x))
      ((x i - logsumexp x) • ContinuousLinearMap.proj (R := ℝ) (φ := fun _ : ι => ℝ) i) t :=
    fun i _ => (hasFDerivAt_apply i t).mul_const (x i - logsumexp x)
  have h2 := (((HasFDerivAt.fun_sum h1).neg).add_const (z * logsumexp x ^ 2)).const_mul g
  refine h2.congr_fderiv ?_
  rw [smul_neg, smul_sum, ← sum_neg_distrib]
  apply sum_congr rfl
  intro i _
  show _ = (-g * (fwd x t z).2.logSoftmax i) • _
  rw [(fwd_res x t z i).2.2, log_softmax, smul_smul, ← neg_smul]
  congr 1
  ring


/-- The smoothed targets of a vocabulary of at least two tokens sum to one, so C13_gradient applies to the
loss computed by compute_weighted_cross_entropy. -/
theorem C13_soft_targets_sum [DecidableEq ι] (h2 : 2 ≤ Fintype.card ι) (smoothing : ℝ) (target : ι) :
    ∑ i, softTargets (Fintype.card ι) smoothing target i = 1 := by
  have hV : ((Fintype.card ι : ℝ) - 1) ≠ 0 := by
    have : (2 : ℝ) ≤ Fintype.card ι := by exact_mod_cast h2
    linarith
  have h : ∀ i, softTargets (Fintype.card ι) smoothing target i =
      lowConfidence (Fintype.card ι) smoothing +
        if i = target then 1 - smoothing - lowConfidence (Fintype.card ι) smoothing else 0 := by
    intro i
    unfold softTargets
    split_ifs <;> ring
  simp only [h]
  rw [sum_add_distrib, sum_ite_eq' univ target, if_pos (mem_univ _), sum_const, card_univ, nsmul_eq_mul]
  have hl : lowConfidence (Fintype.card ι) smoothing = smoothing / ((Fintype.card ι : ℝ) - 1) := by
    unfold lowConfidence; dsimp only; rw [if_neg (by omega)]; ring
  rw [hl]
  field_simp
  ring

example : ∑ i, softTargets (Fintype.card (Fin 3)) (1/10) (0 : Fin 3) i = 1 :=
  C13_soft_targets_sum (by simp) _ _

/-- Limit of C13: with a vocabulary of one token the smoothed targets sum to `1 - smoothing` only.  The loss of a position is then
`(1 - smoothing) * log (1 - smoothing)` plus the z-loss, negative without z-loss, and the gradient of the backward pass is off by
`smoothing`: the loss is `z * logit ^ 2` up to a constant. -/
theorem C13_one_token [Unique ι] [DecidableEq ι] (x : ι → ℝ) (s z : ℝ) :
    (tokenLoss x default s z).1 = (1 - s) * Real.log (1 - s) + z * x default ^ 2 ∧
    (0 < s → s < 1 → (tokenLoss x default s 0).1 < 0) ∧
    (bwd (fwd x (softTargets (Fintype.card ι) s default) z).2 1).1 default = 2 * z * x default + s := by
  have hv : ∀ z, (tokenLoss x default s z).1 = (1 - s) * Real.log (1 - s) + z * x default ^ 2 := by
    intro z
    simp [tokenLoss, crossEntropy, logsumexp, normConst, Fintype.card_unique]
    ring
  refine ⟨hv z, fun h0 h1 => ?_, ?_⟩
  · rw [hv 0]
    have := Real.log_neg (by linarith : 0 < 1 - s) (by linarith)
    nlinarith
  · simp [bwd, fwd, maxLogit, softTargets]

example : (tokenLoss (fun _ : Fin 1 => (3 : ℝ)) default (1 / 10) 0).1 < 0 :=
  (C13_one_token _ _ 0).2.1 (by norm_num) (by norm_num)

theorem softmax_pos [Nonempty ι] (x : ι → ℝ) (i : ι) : 0 < softmax x i :=
  div_pos (Real.exp_pos _) (sum_exp_pos x)

theorem softmax_sum [Nonempty ι] (x : ι → ℝ) : ∑ i, softmax x i = 1 := by
  unfold softmax
  rw [← sum_div, div_self (sum_exp_pos x).ne']

/-- Gibbs' inequality. -/
theorem gibbs (q p : ι → ℝ) (hq : ∀ i, 0 ≤ q i) (hp : ∀ i, 0 < p i) (hqs : ∑ i, q i = 1) (hps : ∑ i, p i = 1) :
    -∑ i, q i * Real.log (q i) ≤ -∑ i, q i * Real.log (p i) := by
  have h : ∀ i ∈ (univ : Finset ι), q i * Real.log (p i) - q i * Real.log (q i) ≤ p i - q i := by
    intro i _
    rcases (hq i).eq_or_lt with h0 | h0
    · rw [← h0]; simp [(hp i).le]
    · have := Real.log_le_sub_one_of_pos (div_pos (hp i) h0)
      rw [Real.log_div (hp i).ne' h0.ne'] at this
      have h1 := mul_le_mul_of_nonneg_left this h0.le
      have h2 : q i * (p i / q i - 1) = p i - q i := by field_simp
      rw [h2] at h1
      linarith [mul_sub (q i) (Real.log (p i)) (Real.log (q i))]
  have := sum_le_sum h
  rw [sum_sub_distrib, sum_sub_distrib, hqs, hps] at this
  linarith

theorem sum_onehot [DecidableEq ι] (target : ι) (a b : ℝ) (F : ℝ → ℝ) :
    ∑ i, F (if i = target then a else b) = F a + ((Fintype.card ι : ℝ) - 1) * F b := by
  have h : ∀ i, F (if i = target then a else b) = F b + if i = target then F a - F b else 0 := by
    intro i; split_ifs <;> ring
  simp only [h]
  rw [sum_add_distrib, sum_ite_eq' univ target, if_pos (mem_univ _), sum_const, card_univ, nsmul_eq_mul]
  ring

theorem low_eq (V : ℕ) (h2 : 2 ≤ V) (s : ℝ) : lowConfidence V s = s / ((V : ℝ) - 1) := by
  unfold lowConfidence; dsimp only; rw [if_neg (by omega)]; ring

theorem low_nonneg (V : ℕ) (h2 : 2 ≤ V) (s : ℝ) (hs : 0 ≤ s) : 0 ≤ lowConfidence V s := by
  rw [low_eq V h2]
  have : (2 : ℝ) ≤ V := by exact_mod_cast h2
  exact div_nonneg hs (by linarith)

/-- The normalising constant is at most the entropy of the smoothed targets. -/
theorem normConst_le [DecidableEq ι] (h2 : 2 ≤ Fintype.card ι) (s : ℝ) (hs : 0 ≤ s) (target : ι) :
    normConst (Fintype.card ι) s ≤ -∑ i, softTargets (Fintype.card ι) s target i *
      Real.log (softTargets (Fintype.card ι) s target i) := by
  unfold softTargets
  rw [sum_onehot target (1 - s) (lowConfidence (Fintype.card ι) s) (fun q => q * Real.log q)]
  unfold normConst
  have hV : (2 : ℝ) ≤ Fintype.card ι := by exact_mod_cast h2
  have hl := low_nonneg _ h2 s hs
  have : ((Fintype.card ι : ℝ) - 1) * (lowConfidence (Fintype.card ι) s * Real.log (lowConfidence (Fintype.card ι) s)) ≤
      ((Fintype.card ι : ℝ) - 1) * lowConfidence (Fintype.card ι) s * Real.log (lowConfidence (Fintype.card ι) s + 1e-20) := by
    rcases hl.eq_or_lt with h0 | h0
    · rw [← h0]; simp
    · have := Real.log_le_log h0 (show lowConfidence (Fintype.card ι) s ≤ lowConfidence (Fintype.card ι) s + 1e-20 by
        norm_num)
      have := mul_le_mul_of_nonneg_left this (mul_nonneg (show (0 : ℝ) ≤ (Fintype.card ι : ℝ) - 1 by linarith) h0.le)
      linarith
  dsimp only
  linarith

/-- C14: without the z-loss the loss of a token is never negative, whatever the logits. -/
theorem C14_nonneg [DecidableEq ι] (h2 : 2 ≤ Fintype.card ι) (x : ι → ℝ) (target : ι) (s : ℝ) (h0 : 0 ≤ s)
    (h1 : s < 1) : 0 ≤ (tokenLoss x target s 0).1 := by
  haveI : Nonempty ι := ⟨target⟩
  unfold tokenLoss
  dsimp only
  rw [(C13_forward x _ 0).1]
  unfold textbook
  have hg := gibbs (softTargets (Fintype.card ι) s target) (softmax x) (by
      intro i; unfold softTargets; split_ifs
      · linarith
      · exact low_nonneg _ h2 s h0) (softmax_pos x) (C13_soft_targets_sum h2 s target) (softmax_sum x)
  have hn := normConst_le h2 s h0 target
  have e : ∑ i, softTargets (Fintype.card ι) s target i * -Real.log (softmax x i) =
      -∑ i, softTargets (Fintype.card ι) s target i * Real.log (softmax x i) := by
    rw [← sum_neg_distrib]; exact sum_congr rfl fun i _ => by ring
  rw [e]
  linarith

/-- C14: with no smoothing the loss is minus the log-probability of the target token, plus the z-loss. -/
theorem C14_hard_labels [DecidableEq ι] (h2 : 2 ≤ Fintype.card ι) (x : ι → ℝ) (target : ι) (z : ℝ) :
    (tokenLoss x target 0 z).1 = -Real.log (softmax x target) + z * (Real.log (∑ j, Real.exp (x j))) ^ 2 := by
  haveI : Nonempty ι := ⟨target⟩
  unfold tokenLoss
  dsimp only
  rw [(C13_forward x _ z).1]
  unfold textbook
  have hl : lowConfidence (Fintype.card ι) 0 = 0 := by rw [low_eq _ h2]; simp
  have hn : normConst (Fintype.card ι) 0 = 0 := by unfold normConst; dsimp only; rw [hl]; simp
  rw [hn, sub_zero]
  congr 1
  unfold softTargets
  rw [hl]
  simp

/-- C14: the normalisation is tight: the logits log q, q the smoothed targets, have a loss of at most
1e-20 times (vocabulary size - 1). -/
theorem C14_tight [DecidableEq ι] (h2 : 2 ≤ Fintype.card ι) (target : ι) (s : ℝ) (h0 : 0 < s) (h1 : s < 1) :
    (tokenLoss (fun i => Real.log (softTargets (Fintype.card ι) s target i)) target s 0).1 ≤
      ((Fintype.card ι : ℝ) - 1) * 1e-20 := by
  haveI : Nonempty ι := ⟨target⟩
  have hV : (2 : ℝ) ≤ Fintype.card ι := by exact_mod_cast h2
  have hl : 0 < lowConfidence (Fintype.card ι) s := by
    rw [low_eq _ h2]; exact div_pos h0 (by linarith)
  have hpos : ∀ i, 0 < softTargets (Fintype.card ι) s target i := by
    intro i; unfold softTargets; split_ifs
    · linarith
    · exact hl
  have hlse : logsumexp (fun i => Real.log (softTargets (Fintype.card ι) s target i)) = 0 := by
    unfold logsumexp
    simp only [Real.exp_log (hpos _)]
    rw [C13_soft_targets_sum h2 s target, Real.log_one]
  unfold tokenLoss crossEntropy
  dsimp only
  rw [hlse]
  simp only [sub_zero, zero_mul, add_zero]
  unfold softTargets
  rw [sum_onehot target (1 - s) (lowConfidence (Fintype.card ι) s) (fun q => q * Real.log q)]
  unfold normConst
  dsimp only
  have hb : Real.log (lowConfidence (Fintype.card ι) s + 1e-20) - Real.log (lowConfidence (Fintype.card ι) s) ≤
      1e-20 / lowConfidence (Fintype.card ι) s := by
    rw [← Real.log_div (by positivity) hl.ne']
    refine (Real.log_le_sub_one_of_pos (div_pos (by positivity) hl)).trans ?_
    rw [add_div, div_self hl.ne']
    linarith
  have hc := mul_le_mul_of_nonneg_left hb (mul_nonneg (show (0 : ℝ) ≤ (Fintype.card ι : ℝ) - 1 by linarith) hl.le)
  have hd : ((Fintype.card ι : ℝ) - 1) * lowConfidence (Fintype.card ι) s * (1e-20 / lowConfidence (Fintype.card ι) s) =
      ((Fintype.card ι : ℝ) - 1) * 1e-20 := by field_simp
  rw [hd] at hc
  linarith

example : 2 ≤ Fintype.card (Fin 5) ∧ (0 : ℝ) ≤ 1/10 ∧ (1/10 : ℝ) < 1 := by norm_num [Fintype.card_fin]

/-- C14: positions of weight 0 (padding) have no influence: two batches with the same weights that agree
wherever the weight is not 0 have the same losses, and with non-negative weights, a positive normalising
factor and no z-loss, the total loss is not negative. -/
theorem C14_weighted [DecidableEq ι] (h2 : 2 ≤ Fintype.card ι) (ps ps' : List (Pos ι)) (w : List ℝ) (s z : ℝ)
    (lnf : Option ℝ) (hlen : ps.length = ps'.length)
    (hag : ∀ (k : ℕ) (h : k < ps.length) (hw : k < w.length), w[k] ≠ 0 → ps[k] = ps'[k]) :
    weightedCE ps (some w) s z lnf = weightedCE ps' (some w) s z lnf ∧
    (0 ≤ s → s < 1 → (∀ a ∈ w, 0 ≤ a) → (∀ k, lnf = some k → 0 < k) →
      0 ≤ (weightedCE ps (some w) s 0 lnf).1) := by
  constructor
  · have hz : ∀ F : Pos ι → ℝ, List.zipWith (· * ·) (ps.map F) w = List.zipWith (· * ·) (ps'.map F) w := by
      intro F
      apply List.ext_getElem
      · simp [hlen]
      · intro k h1 h2
        simp only [List.length_zipWith, List.length_map] at h1 h2
        simp only [List.getElem_zipWith, List.getElem_map]
        by_cases hk : w[k]'(by omega) = 0
        · rw [hk]; simp
        · rw [hag k (by omega) (by omega) hk]
    unfold weightedCE
    simp only [hz]
  · intro h0 h1 hw hlnf
    have hnn : ∀ a ∈ List.zipWith (· * ·) (ps.map (fun p => (tokenLoss p.logits p.target s 0).1)) w, 0 ≤ a := by
      intro a ha
      obtain ⟨k, hk, rfl⟩ := List.mem_iff_getElem.1 ha
      simp only [List.getElem_zipWith, List.getElem_map]
      exact mul_nonneg (C14_nonneg h2 _ _ s h0 h1) (hw _ (List.getElem_mem _))
    unfold weightedCE
    cases lnf with
    | none => exact List.sum_nonneg hnn
    | some k =>
      apply List.sum_nonneg
      intro a ha
      obtain ⟨b, hb, rfl⟩ := List.mem_map.1 ha
      exact div_nonneg (hnn b hb) (hlnf k rfl).le

/-- Two batches of two positions that differ only where the weight is 0. -/
example : ∃ (ps ps' : List (Pos (Fin 2))) (w : List ℝ) (hl : ps.length = ps'.length), ps ≠ ps' ∧
    ∀ (k : ℕ) (h : k < ps.length) (hw : k < w.length), w[k] ≠ 0 → ps[k] = ps'[k] := by
  refine ⟨[⟨fun _ => 0, 0⟩, ⟨fun _ => 0, 0⟩], [⟨fun _ => 0, 0⟩, ⟨fun _ => 0, 1⟩], [1, 0], rfl, by simp, ?_⟩
  rintro (_ | _ | k) h hw hk
  · rfl
  · exact absurd rfl hk
  · simp at h

end Verif.Loss
