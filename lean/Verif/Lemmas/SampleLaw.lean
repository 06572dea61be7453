import Verif.Props.SampleToken
import Mathlib.Probability.Distributions.Exponential
import Mathlib.Probability.Independence.InfinitePi
import Mathlib.MeasureTheory.Constructions.Pi
import Mathlib.MeasureTheory.Measure.Prod
/-
The Gumbel-max trick: the argmax of numbers plus independent Gumbel noise has the softmax as its distribution.
-/
namespace Verif.SampleLaw
open MeasureTheory ProbabilityTheory Set
open scoped ENNReal

/-- The distribution of `-log E` for a standard exponential `E`. -/
noncomputable def gumbel : Measure ℝ := (expMeasure 1).map (fun s => -Real.log s)

instance : IsProbabilityMeasure (expMeasure 1) := isProbabilityMeasure_expMeasure one_pos

theorem meas_neglog : Measurable fun s : ℝ => -Real.log s := Real.measurable_log.neg

instance : IsProbabilityMeasure gumbel := Measure.isProbabilityMeasure_map meas_neglog.aemeasurable

theorem exp_eq : expMeasure 1 = volume.withDensity (exponentialPDF 1) := rfl

instance : NullSingletonClass (expMeasure 1) := by
  refine ⟨fun x => ?_⟩
  exact withDensity_absolutelyContinuous _ _ (measure_singleton x)

theorem exp_Iic (x : ℝ) : expMeasure 1 (Iic x) = ENNReal.ofReal (if 0 ≤ x then 1 - Real.exp (-(1 * x)) else 0) := by
  rw [exp_eq, withDensity_apply _ measurableSet_Iic, lintegral_exponentialPDF_eq_antiDeriv one_pos]

theorem exp_pos_ae : expMeasure 1 (Iic 0) = 0 := by
  rw [exp_Iic]
  simp

theorem exp_Ioi (x : ℝ) (hx : 0 ≤ x) : expMeasure 1 (Ioi x) = ENNReal.ofReal (Real.exp (-x)) := by
  have h := prob_compl_eq_one_sub (μ := expMeasure 1) (s := Iic x) measurableSet_Iic
  rw [compl_Iic] at h
  rw [h, exp_Iic, if_pos hx, one_mul, ← ENNReal.ofReal_one, ← ENNReal.ofReal_sub]
  · congr 1; ring
  · have : Real.exp (-x) ≤ 1 := Real.exp_le_one_iff.2 (by linarith)
    linarith

theorem gumbel_Iic (x : ℝ) : gumbel (Iic x) = ENNReal.ofReal (Real.exp (-Real.exp (-x))) := by
  rw [gumbel, Measure.map_apply meas_neglog measurableSet_Iic, ← exp_Ioi _ (Real.exp_pos _).le]
  apply measure_congr
  have h1 : Ioi (Real.exp (-x)) =ᵐ[expMeasure 1] Ici (Real.exp (-x)) := Ioi_ae_eq_Ici
  refine Filter.EventuallyEq.trans ?_ h1.symm
  have h2 : ∀ᵐ s ∂(expMeasure 1), 0 < s := by
    rw [ae_iff]
    simp only [not_lt]
    exact exp_pos_ae
  filter_upwards [h2] with s hs
  apply propext
  show -Real.log s ≤ x ↔ Real.exp (-x) ≤ s
  rw [← Real.le_log_iff_exp_le hs]
  constructor <;> intro h <;> linarith

theorem gumbel_Iio (x : ℝ) : gumbel (Iio x) = ENNReal.ofReal (Real.exp (-Real.exp (-x))) := by
  rw [gumbel, Measure.map_apply meas_neglog measurableSet_Iio, ← exp_Ioi _ (Real.exp_pos _).le]
  apply measure_congr
  have h2 : ∀ᵐ s ∂(expMeasure 1), 0 < s := by
    rw [ae_iff]
    simp only [not_lt]
    exact exp_pos_ae
  filter_upwards [h2] with s hs
  apply propext
  show -Real.log s < x ↔ Real.exp (-x) < s
  rw [← Real.lt_log_iff_exp_lt hs]
  constructor <;> intro h <;> linarith

/-- A measure with the Gumbel distribution function is the Gumbel measure. -/
theorem eq_gumbel (μ : Measure ℝ) [IsFiniteMeasure μ] (h : ∀ x, μ (Iic x) = ENNReal.ofReal (Real.exp (-Real.exp (-x)))) : μ = gumbel :=
  Measure.ext_of_Iic μ gumbel fun x => by rw [h, gumbel_Iic]

theorem lint_gumbel (S : ℝ) (hS : 0 ≤ S) :
    ∫⁻ g, ENNReal.ofReal (Real.exp (-(Real.exp (-g) * S))) ∂gumbel = ENNReal.ofReal (1 / (1 + S)) := by
  have hm : Measurable fun g : ℝ => ENNReal.ofReal (Real.exp (-(Real.exp (-g) * S))) := by fun_prop
  have hr : (0 : ℝ) < 1 + S := by linarith
  rw [gumbel, lintegral_map hm meas_neglog, exp_eq, lintegral_withDensity_eq_lintegral_mul]
  · have e : (∫⁻ a, (exponentialPDF 1 * fun a => ENNReal.ofReal (Real.exp (-(Real.exp (- -Real.log a) * S)))) a) =
        ∫⁻ a, ENNReal.ofReal (1 / (1 + S)) * exponentialPDF (1 + S) a := by
      have hne : ∀ᵐ a : ℝ, a ≠ 0 := by
        rw [ae_iff]
        simp
      apply lintegral_congr_ae
      filter_upwards [hne] with a ha
      simp only [Pi.mul_apply, exponentialPDF_eq, neg_neg]
      by_cases h : 0 ≤ a
      · have hp : 0 < a := lt_of_le_of_ne h (Ne.symm ha)
        rw [if_pos h, if_pos h, Real.exp_log hp, ← ENNReal.ofReal_mul (by positivity), ← ENNReal.ofReal_mul (by positivity)]
        rw [one_mul, ← Real.exp_add, ← mul_assoc, one_div_mul_cancel hr.ne', one_mul]
        ring_nf
      · rw [if_neg h, if_neg h]
        simp
    rw [e, lintegral_const_mul _ (show Measurable (exponentialPDF (1 + S)) from (measurable_exponentialPDFReal _).ennreal_ofReal), lintegral_exponentialPDF_eq_one hr, mul_one]
  · exact (measurable_exponentialPDFReal _).ennreal_ofReal
  · exact hm.comp meas_neglog

open SampleToken (argmax argmax_spec greedy_unique)

/-- The Gumbel-max trick. -/
theorem gumbel_max {n : Nat} (x : Fin (n + 1) → ℝ) (t : Fin (n + 1)) :
    Measure.pi (fun _ : Fin (n + 1) => gumbel) {g | argmax (fun i => x i + g i) = t} =
      ENNReal.ofReal (Real.exp (x t) / ∑ j, Real.exp (x j)) := by
  classical
  let S : ℝ → (j : Fin n) → Set ℝ := fun a j =>
    if t.succAbove j < t then Iio (a + (x t - x (t.succAbove j))) else Iic (a + (x t - x (t.succAbove j)))
  let A : Set (ℝ × (Fin n → ℝ)) := {z | ∀ j, z.2 j ∈ S z.1 j}
  have hA : {g | argmax (fun i => x i + g i) = t} = (MeasurableEquiv.piFinSuccAbove (fun _ => ℝ) t) ⁻¹' A := by
    ext g
    have hz : (MeasurableEquiv.piFinSuccAbove (fun _ => ℝ) t) g = (g t, fun j => g (t.succAbove j)) := rfl
    have hmem : ∀ j, g (t.succAbove j) ∈ S (g t) j ↔
        if t.succAbove j < t then x (t.succAbove j) + g (t.succAbove j) < x t + g t else x (t.succAbove j) + g (t.succAbove j) ≤ x t + g t := by
      intro j
      simp only [S]
      split_ifs
      · rw [mem_Iio]; constructor <;> intro h <;> linarith
      · rw [mem_Iic]; constructor <;> intro h <;> linarith
    rw [mem_preimage, hz]
    show _ = _ ↔ ∀ j, g (t.succAbove j) ∈ S (g t) j
    simp only [hmem]
    constructor
    · intro h j
      have := argmax_spec fun i => x i + g i
      rw [h] at this
      split_ifs with hj
      · exact this.2 _ hj
      · exact this.1 _
    · intro h
      refine greedy_unique _ _ _ (argmax_spec _) ⟨fun j => ?_, fun j hj => ?_⟩
      · by_cases hjt : j = t
        · rw [hjt]
        · obtain ⟨j', rfl⟩ := Fin.exists_succAbove_eq hjt
          have := h j'
          split_ifs at this
          · exact this.le
          · exact this
      · obtain ⟨j', rfl⟩ := Fin.exists_succAbove_eq hj.ne
        have := h j'
        rw [if_pos hj] at this
        exact this
  have hmA : MeasurableSet A := by
    have : A = ⋂ j, {z | z.2 j ∈ S z.1 j} := by ext z; simp [A]
    rw [this]
    refine MeasurableSet.iInter fun j => ?_
    simp only [S]
    split_ifs
    · exact measurableSet_lt (f := fun z : ℝ × (Fin n → ℝ) => z.2 j) (g := fun z => z.1 + (x t - x (t.succAbove j))) (by fun_prop) (by fun_prop)
    · exact measurableSet_le (f := fun z : ℝ × (Fin n → ℝ) => z.2 j) (g := fun z => z.1 + (x t - x (t.succAbove j))) (by fun_prop) (by fun_prop)
  have hmp := measurePreserving_piFinSuccAbove (fun _ : Fin (n + 1) => gumbel) t
  rw [hA, hmp.measure_preimage hmA.nullMeasurableSet, Measure.prod_apply hmA]
  have hin : ∀ a, (Measure.pi fun _ : Fin n => gumbel) (Prod.mk a ⁻¹' A) =
      ENNReal.ofReal (Real.exp (-(Real.exp (-a) * ∑ j : Fin n, Real.exp (x (t.succAbove j) - x t)))) := by
    intro a
    have e : Prod.mk a ⁻¹' A = univ.pi (S a) := by ext h; simp [A]
    rw [e, Measure.pi_pi]
    have e2 : ∀ j, gumbel (S a j) = ENNReal.ofReal (Real.exp (-(Real.exp (-a) * Real.exp (x (t.succAbove j) - x t)))) := by
      intro j
      have : Real.exp (-(a + (x t - x (t.succAbove j)))) = Real.exp (-a) * Real.exp (x (t.succAbove j) - x t) := by
        rw [← Real.exp_add]; congr 1; ring
      simp only [S]
      split_ifs
      · rw [gumbel_Iio, this]
      · rw [gumbel_Iic, this]
    simp only [e2]
    rw [← ENNReal.ofReal_prod_of_nonneg (fun j _ => (Real.exp_pos _).le), ← Real.exp_sum, Finset.mul_sum, Finset.sum_neg_distrib]
  simp only [hin]
  rw [lint_gumbel _ (Finset.sum_nonneg fun j _ => (Real.exp_pos _).le)]
  congr 1
  rw [Fin.sum_univ_succAbove _ t]
  have : ∑ j : Fin n, Real.exp (x (t.succAbove j) - x t) = (∑ j : Fin n, Real.exp (x (t.succAbove j))) / Real.exp (x t) := by
    rw [Finset.sum_div]
    exact Finset.sum_congr rfl fun j _ => Real.exp_sub _ _
  rw [this]
  have := Real.exp_pos (x t)
  field_simp

end Verif.SampleLaw
