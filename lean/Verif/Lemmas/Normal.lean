import Verif.Spec.Thurstone
import Mathlib.Analysis.SpecialFunctions.Gaussian.GaussianIntegral
import Mathlib.MeasureTheory.Integral.IntervalIntegral.FundThmCalculus
import Mathlib.Analysis.Real.Pi.Bounds
import Mathlib.Tactic.LinearCombination
import Mathlib.Analysis.SpecialFunctions.ExpDeriv
/-! # The standard normal distribution function -/
namespace Sureal.Spec.Thurstone
open MeasureTheory

theorem normalPdf_pos (x : ℝ) : 0 < normalPdf x := by
  unfold normalPdf
  have := Real.pi_pos
  positivity

theorem normalPdf_continuous : Continuous normalPdf := by
  unfold normalPdf
  fun_prop

theorem normalPdf_integrable : Integrable normalPdf := by
  unfold normalPdf
  exact (integrable_exp_neg_mul_sq (by norm_num)).const_mul _

theorem normalPdf_neg (x : ℝ) : normalPdf (-x) = normalPdf x := by
  unfold normalPdf
  rw [neg_sq]

theorem normalCdf_sub (a b : ℝ) : normalCdf b - normalCdf a = ∫ t in a..b, normalPdf t :=
  intervalIntegral.integral_Iic_sub_Iic normalPdf_integrable.integrableOn normalPdf_integrable.integrableOn

theorem normalCdf_zero : normalCdf 0 = 1 / 2 := by
  unfold normalCdf
  have h1 : ∫ t in Set.Iic (0 : ℝ), normalPdf t = ∫ t in Set.Ioi (0 : ℝ), normalPdf t := by
    have := integral_comp_neg_Iic (0 : ℝ) normalPdf
    rw [neg_zero] at this
    rw [← this]
    simp only [normalPdf_neg]
  rw [h1]
  unfold normalPdf
  rw [integral_const_mul, integral_gaussian_Ioi]
  have : Real.pi / (1 / 2) = 2 * Real.pi := by ring
  rw [this]
  have h2 : Real.sqrt (2 * Real.pi) ≠ 0 := (Real.sqrt_pos.mpr (mul_pos two_pos Real.pi_pos)).ne'
  field_simp

theorem normalCdf_pos (x : ℝ) : 0 < normalCdf x := by
  unfold normalCdf
  rw [setIntegral_pos_iff_support_of_nonneg_ae (Filter.Eventually.of_forall fun t => (normalPdf_pos t).le)
    normalPdf_integrable.integrableOn]
  have : Function.support normalPdf = Set.univ := by
    ext t
    simp [(normalPdf_pos t).ne']
  rw [this, Set.univ_inter]
  simp

theorem normalCdf_deriv (x : ℝ) : HasDerivAt normalCdf (normalPdf x) x := by
  have h : normalCdf = fun y => normalCdf 0 + ∫ t in (0 : ℝ)..y, normalPdf t := by
    funext y
    rw [← normalCdf_sub]
    ring
  rw [h]
  exact (intervalIntegral.integral_hasDerivAt_right (normalPdf_continuous.intervalIntegrable _ _)
    (normalPdf_continuous.stronglyMeasurableAtFilter _ _) (normalPdf_continuous.continuousAt)).const_add _

theorem normalPdf_deriv (x : ℝ) : HasDerivAt normalPdf (-x * normalPdf x) x := by
  unfold normalPdf
  have h1 : HasDerivAt (fun x : ℝ => -(1 / 2) * x ^ 2) (-(1 / 2) * (2 * x)) x := by
    have := (hasDerivAt_pow 2 x).const_mul (-(1 / 2) : ℝ)
    simpa using this
  refine (h1.exp.const_mul _).congr_deriv ?_
  ring

theorem normalLike_normal : NormalLike normalCdf normalPdf := ⟨normalCdf_pos, normalCdf_deriv, normalPdf_deriv⟩

theorem normalCdf_neg (x : ℝ) : normalCdf (-x) = 1 - normalCdf x := by
  have h1 := normalCdf_sub 0 x
  have h2 := normalCdf_sub (-x) 0
  have h3 : ∫ t in (0 : ℝ)..x, normalPdf (-t) = ∫ t in -x..-0, normalPdf t := intervalIntegral.integral_comp_neg normalPdf
  simp only [normalPdf_neg, neg_zero] at h3
  rw [normalCdf_zero] at h1 h2
  rw [h3] at h1
  linarith

/-- the curvature is not symmetric -/
theorem curvature_normal_ne : curvature normalCdf normalPdf (1 / 10) ≠ curvature normalCdf normalPdf (-(1 / 10)) := by
  intro h
  unfold curvature at h
  rw [normalPdf_neg, normalCdf_neg] at h
  have hb : 0 < 1 - normalCdf (1 / 10) := by rw [← normalCdf_neg]; exact normalCdf_pos _
  have ha := normalCdf_pos (1 / 10)
  have hφ := normalPdf_pos (1 / 10)
  have hδ : 1 / 10 * normalPdf (1 / 10) ≤ normalCdf (1 / 10) - 1 / 2 := by
    rw [← normalCdf_zero, normalCdf_sub]
    have hmono : ∫ _ in (0 : ℝ)..(1 / 10), normalPdf (1 / 10) ≤ ∫ t in (0 : ℝ)..(1 / 10), normalPdf t := by
      refine intervalIntegral.integral_mono_on (by norm_num) (by simp) (normalPdf_continuous.intervalIntegrable _ _) ?_
      intro t ht
      unfold normalPdf
      refine mul_le_mul_of_nonneg_left (Real.exp_le_exp.mpr ?_) (by positivity)
      have h1 := ht.1
      have h2 := ht.2
      nlinarith
    simpa using hmono
  have hφ2 : 1 / 8 < normalPdf (1 / 10) ^ 2 := by
    unfold normalPdf
    rw [mul_pow, inv_pow, Real.sq_sqrt (by positivity), ← Real.exp_nat_mul]
    have h1 : ((2 : ℕ) : ℝ) * (-(1 / 2) * (1 / 10) ^ 2) = -(1 / 100) := by norm_num
    rw [h1]
    have h2 := Real.add_one_le_exp (-(1 / 100) : ℝ)
    have h3 := Real.pi_lt_d2
    have h4 := Real.pi_pos
    rw [inv_mul_eq_div, lt_div_iff₀ (by positivity)]
    linarith
  set a := normalCdf (1 / 10) with ha'
  set f := normalPdf (1 / 10) with hf'
  have hb0 : (1 - a) ≠ 0 := hb.ne'
  have ha0 : a ≠ 0 := ha.ne'
  have hprod : f * (2 * a - 1) = 1 / 10 * (a * (1 - a)) := by
    field_simp at h
    linear_combination (1 / 10) * h
  have h4 : a * (1 - a) ≤ 1 / 4 := by nlinarith [sq_nonneg (a - 1 / 2)]
  have h5 : f * (1 / 5 * f) ≤ f * (2 * a - 1) := mul_le_mul_of_nonneg_left (by linarith) hφ.le
  nlinarith

end Sureal.Spec.Thurstone
