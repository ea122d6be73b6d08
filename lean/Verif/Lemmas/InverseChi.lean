import Mathlib.Probability.Distributions.Gaussian.Multivariate
import Mathlib.MeasureTheory.Integral.Pi
import Mathlib.MeasureTheory.Integral.IntegralEqImproper
import Mathlib.Analysis.SpecialFunctions.Gaussian.GaussianIntegral
import Mathlib.Analysis.SpecialFunctions.ImproperIntegrals
/-!
# The mean of the reciprocal of a sum of squares of independent normal variables
-/
namespace DynCF
open MeasureTheory ProbabilityTheory ENNReal

/-- Independent standard normal variables with indices in `ι`. -/
noncomputable def stdN (ι : Type) [Fintype ι] : Measure (ι → ℝ) := Measure.pi fun _ => gaussianReal 0 1

instance (ι : Type) [Fintype ι] : IsProbabilityMeasure (stdN ι) := by
  unfold stdN
  infer_instance

theorem laplace_sq (t : ℝ) (ht : 0 ≤ t) :
    ∫ x, Real.exp (-(t * x ^ 2)) ∂gaussianReal 0 1 = (Real.sqrt (1 + 2 * t))⁻¹ := by
  rw [integral_gaussianReal_eq_integral_smul one_ne_zero]
  have e : ∀ x : ℝ, gaussianPDFReal 0 1 x • Real.exp (-(t * x ^ 2)) =
      (Real.sqrt (2 * Real.pi))⁻¹ * Real.exp (-((1 + 2 * t) / 2) * x ^ 2) := by
    intro x
    rw [gaussianPDFReal, smul_eq_mul, mul_assoc, ← Real.exp_add]
    simp only [NNReal.coe_one, mul_one, sub_zero]
    congr 2
    ring
  simp_rw [e]
  rw [integral_const_mul, integral_gaussian, ← Real.sqrt_inv, ← Real.sqrt_inv, ← Real.sqrt_mul (by positivity)]
  congr 1
  have : (1 + 2 * t) ≠ 0 := by positivity
  field_simp

theorem laplace_sum {ι : Type} [Fintype ι] [DecidableEq ι] (S : Finset ι) (t : ℝ) (ht : 0 ≤ t) :
    ∫⁻ g, ENNReal.ofReal (Real.exp (-(t * ∑ i ∈ S, g i ^ 2))) ∂stdN ι =
      ENNReal.ofReal ((Real.sqrt (1 + 2 * t))⁻¹ ^ S.card) := by
  have hm : Measurable fun g : ι → ℝ => Real.exp (-(t * ∑ i ∈ S, g i ^ 2)) := by fun_prop
  have hb : ∀ g : ι → ℝ, Real.exp (-(t * ∑ i ∈ S, g i ^ 2)) ≤ 1 := by
    intro g
    rw [Real.exp_le_one_iff]
    have : 0 ≤ t * ∑ i ∈ S, g i ^ 2 := mul_nonneg ht (Finset.sum_nonneg fun i _ => sq_nonneg _)
    linarith
  have hi : Integrable (fun g : ι → ℝ => Real.exp (-(t * ∑ i ∈ S, g i ^ 2))) (stdN ι) := by
    refine Integrable.of_bound hm.aestronglyMeasurable 1 (Filter.Eventually.of_forall fun g => ?_)
    rw [Real.norm_eq_abs, abs_of_pos (Real.exp_pos _)]
    exact hb g
  rw [← ofReal_integral_eq_lintegral_ofReal hi (Filter.Eventually.of_forall fun g => (Real.exp_pos _).le)]
  congr 1
  have e : ∀ g : ι → ℝ, Real.exp (-(t * ∑ i ∈ S, g i ^ 2)) =
      ∏ i, (fun x : ℝ => if i ∈ S then Real.exp (-(t * x ^ 2)) else 1) (g i) := by
    intro g
    rw [Finset.mul_sum, ← Finset.sum_neg_distrib, Real.exp_sum]
    simp [Finset.prod_ite_mem]
  simp_rw [e]
  unfold stdN
  rw [integral_fintype_prod_eq_prod (fun i => fun x : ℝ => if i ∈ S then Real.exp (-(t * x ^ 2)) else 1)]
  have e2 : ∀ i, ∫ x, (if i ∈ S then Real.exp (-(t * x ^ 2)) else 1) ∂gaussianReal 0 1 =
      if i ∈ S then (Real.sqrt (1 + 2 * t))⁻¹ else 1 := by
    intro i
    by_cases h : i ∈ S
    · simp only [h, if_true]
      exact laplace_sq t ht
    · simp [h]
  simp_rw [e2]
  rw [Finset.prod_ite_mem]
  simp

theorem inv_eq_laplace (s : ℝ) (hs : 0 ≤ s) :
    (ENNReal.ofReal s)⁻¹ = ∫⁻ t in Set.Ioi (0 : ℝ), ENNReal.ofReal (Real.exp (-(t * s))) := by
  rcases hs.eq_or_lt with rfl | hs
  · simp
  · have h := integrableOn_exp_mul_Ioi (a := -s) (by linarith) 0
    have e := integral_exp_mul_Ioi (a := -s) (by linarith) 0
    have e2 : ∀ t : ℝ, -(t * s) = -s * t := fun t => by ring
    simp_rw [e2]
    rw [← ofReal_integral_eq_lintegral_ofReal h (Filter.Eventually.of_forall fun g => (Real.exp_pos _).le), e,
      ← ENNReal.ofReal_inv_of_pos hs]
    congr 1
    simp

theorem rpow_tail (d : ℕ) (hd : 3 ≤ d) :
    ∫⁻ t in Set.Ioi (0 : ℝ), ENNReal.ofReal ((Real.sqrt (1 + 2 * t))⁻¹ ^ d) = ENNReal.ofReal (1 / ((d : ℝ) - 2)) := by
  have hd' : (3 : ℝ) ≤ d := by exact_mod_cast hd
  have e : ∀ t ∈ Set.Ioi (0 : ℝ), ENNReal.ofReal ((Real.sqrt (1 + 2 * t))⁻¹ ^ d) =
      ENNReal.ofReal ((1 + 2 * t) ^ (-(d : ℝ) / 2)) := by
    intro t ht
    have ht : 0 < t := ht
    congr 1
    rw [Real.sqrt_eq_rpow, ← Real.rpow_neg (by positivity), ← Real.rpow_natCast, ← Real.rpow_mul (by positivity)]
    congr 1
    ring
  rw [setLIntegral_congr_fun measurableSet_Ioi e]
  let F : ℝ → ℝ := fun t => -(1 / ((d : ℝ) - 2)) * (1 + 2 * t) ^ (1 - (d : ℝ) / 2)
  have hF : ∀ t ∈ Set.Ici (0 : ℝ), HasDerivAt F ((1 + 2 * t) ^ (-(d : ℝ) / 2)) t := by
    intro t ht
    have ht : 0 ≤ t := ht
    have h1 : HasDerivAt (fun t : ℝ => 1 + 2 * t) 2 t := by
      simpa using ((hasDerivAt_id t).const_mul 2).const_add 1
    have h2 := (h1.rpow_const (p := 1 - (d : ℝ) / 2) (Or.inl (by positivity))).const_mul (-(1 / ((d : ℝ) - 2)))
    refine h2.congr_deriv ?_
    have : (d : ℝ) - 2 ≠ 0 := by linarith
    rw [show 1 - (d : ℝ) / 2 - 1 = -(d : ℝ) / 2 by ring]
    field_simp
    ring
  have hl : Filter.Tendsto F Filter.atTop (nhds 0) := by
    have h1 : Filter.Tendsto (fun t : ℝ => 1 + 2 * t) Filter.atTop Filter.atTop :=
      Filter.tendsto_atTop_add_const_left _ _ (Filter.tendsto_id.const_mul_atTop (by norm_num))
    have h2 := (tendsto_rpow_neg_atTop (y := (d : ℝ) / 2 - 1) (by linarith)).comp h1
    have h3 := h2.const_mul (-(1 / ((d : ℝ) - 2)))
    rw [mul_zero] at h3
    refine h3.congr fun t => ?_
    simp only [Function.comp, F]
    rw [show -((d : ℝ) / 2 - 1) = 1 - (d : ℝ) / 2 by ring]
  have hp : ∀ t ∈ Set.Ioi (0 : ℝ), 0 ≤ (1 + 2 * t) ^ (-(d : ℝ) / 2) := by
    intro t ht
    have ht : 0 < t := ht
    positivity
  have hi := integrableOn_Ioi_deriv_of_nonneg' hF hp hl
  have hv := integral_Ioi_of_hasDerivAt_of_nonneg' hF hp hl
  rw [← ofReal_integral_eq_lintegral_ofReal hi, hv]
  · congr 1
    simp [F]
  · exact (ae_restrict_iff' measurableSet_Ioi).2 (Filter.Eventually.of_forall hp)

/-- The reciprocal of a sum of `d ≥ 3` squares of independent standard normal variables has mean `1 / (d - 2)`. -/
theorem inverse_chi {ι : Type} [Fintype ι] [DecidableEq ι] (S : Finset ι) (hS : 3 ≤ S.card) :
    ∫⁻ g, (ENNReal.ofReal (∑ i ∈ S, g i ^ 2))⁻¹ ∂stdN ι = ENNReal.ofReal (1 / ((S.card : ℝ) - 2)) := by
  simp_rw [inv_eq_laplace _ (Finset.sum_nonneg fun i _ => sq_nonneg _)]
  rw [lintegral_lintegral_swap, ← rpow_tail _ hS]
  · refine setLIntegral_congr_fun measurableSet_Ioi fun t ht => ?_
    exact laplace_sum S t (le_of_lt ht)
  · refine Measurable.aemeasurable ?_
    refine Measurable.ennreal_ofReal ?_
    fun_prop

end DynCF
