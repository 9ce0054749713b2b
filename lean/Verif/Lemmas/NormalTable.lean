import Mathlib.Probability.Distributions.Gaussian.Real
import Mathlib.Analysis.Real.Pi.Bounds
import Mathlib.Analysis.SpecialFunctions.Integrals.Basic
import Mathlib.Analysis.Calculus.Deriv.MeanValue
import Mathlib.Analysis.Calculus.Deriv.Pow

/-! A value of the standard normal distribution: the probability of `[-1.95996, 1.95996]` to six decimals. -/

namespace Sureal.Lemmas
open MeasureTheory ProbabilityTheory

/-- the partial sums of the series of `exp (-u)` -/
noncomputable def expSum (n : ℕ) (u : ℝ) : ℝ := ∑ k ∈ Finset.range n, (-u) ^ k / (k.factorial : ℝ)

theorem expSum_succ (n : ℕ) (u : ℝ) : expSum (n + 1) u = expSum n u + (-u) ^ n / (n.factorial : ℝ) := by
  unfold expSum
  rw [Finset.sum_range_succ]

theorem expSum_deriv (n : ℕ) (u : ℝ) : HasDerivAt (expSum (n + 1)) (-expSum n u) u := by
  induction n with
  | zero =>
    have : expSum (0 + 1) = fun _ => (1 : ℝ) := by
      funext v
      simp [expSum]
    rw [this]
    simpa [expSum] using hasDerivAt_const u (1 : ℝ)
  | succ n ih =>
    have e : expSum (n + 1 + 1) = fun v => expSum (n + 1) v + (-v) ^ (n + 1) / ((n + 1).factorial : ℝ) := by
      funext v
      rw [expSum_succ]
    rw [e]
    have h := ((hasDerivAt_id u).neg.pow (n + 1)).div_const ((n + 1).factorial : ℝ)
    refine (ih.add h).congr_deriv ?_
    rw [expSum_succ, Nat.factorial_succ]
    have : (n.factorial : ℝ) ≠ 0 := Nat.cast_ne_zero.mpr (Nat.factorial_ne_zero n)
    have : ((n : ℝ) + 1) ≠ 0 := by positivity
    push_cast
    simp only [id, Pi.neg_apply, Nat.add_sub_cancel]
    field_simp
    ring

/-- the remainder of the series of `exp (-u)` has the sign of its first term -/
theorem expSum_sign (n : ℕ) : ∀ u : ℝ, 0 ≤ u → 0 ≤ (-1) ^ n * (Real.exp (-u) - expSum n u) := by
  induction n with
  | zero =>
    intro u _
    simp [expSum, Real.exp_nonneg]
  | succ n ih =>
    intro u hu
    set f : ℝ → ℝ := fun v => (-1) ^ (n + 1) * (Real.exp (-v) - expSum (n + 1) v) with hf
    have hd : ∀ v, HasDerivAt f ((-1) ^ n * (Real.exp (-v) - expSum n v)) v := by
      intro v
      have h1 : HasDerivAt (fun v : ℝ => Real.exp (-v)) (Real.exp (-v) * -1) v := (hasDerivAt_id v).neg.exp
      refine ((h1.sub (expSum_deriv n v)).const_mul ((-1) ^ (n + 1))).congr_deriv ?_
      ring
    have hm : MonotoneOn f (Set.Ici 0) := by
      refine monotoneOn_of_deriv_nonneg (convex_Ici 0) (fun v _ => (hd v).continuousAt.continuousWithinAt)
        (fun v _ => (hd v).differentiableAt.differentiableWithinAt) fun v hv => ?_
      rw [(hd v).deriv]
      rw [interior_Ici] at hv
      exact ih v (le_of_lt hv)
    have h0 : f 0 = 0 := by
      have : expSum (n + 1) 0 = 1 := by
        unfold expSum
        rw [Finset.sum_range_succ']
        simp
      simp [hf, this]
    calc (0 : ℝ) = f 0 := h0.symm
      _ ≤ f u := hm (Set.mem_Ici.mpr le_rfl) (Set.mem_Ici.mpr hu) hu

theorem expSum_le (m : ℕ) {u : ℝ} (hu : 0 ≤ u) : expSum (2 * m) u ≤ Real.exp (-u) := by
  have h := expSum_sign (2 * m) u hu
  rw [pow_mul] at h
  norm_num at h
  exact h

theorem le_expSum (m : ℕ) {u : ℝ} (hu : 0 ≤ u) : Real.exp (-u) ≤ expSum (2 * m + 1) u := by
  have h := expSum_sign (2 * m + 1) u hu
  rw [pow_succ, pow_mul] at h
  norm_num at h
  exact h

theorem expSum_cont (n : ℕ) : Continuous fun x : ℝ => expSum n (x ^ 2 / 2) := by
  unfold expSum
  fun_prop

theorem expSum_integral (n : ℕ) (c : ℝ) :
    ∫ x in (-c)..c, expSum n (x ^ 2 / 2) =
      ∑ k ∈ Finset.range n, (-1) ^ k / (2 ^ k * (k.factorial : ℝ)) * ((c ^ (2 * k + 1) - (-c) ^ (2 * k + 1)) / (2 * k + 1)) := by
  unfold expSum
  rw [intervalIntegral.integral_finsetSum]
  · refine Finset.sum_congr rfl fun k _ => ?_
    have e : ∀ x : ℝ, (-(x ^ 2 / 2)) ^ k / (k.factorial : ℝ) = (-1) ^ k / (2 ^ k * (k.factorial : ℝ)) * x ^ (2 * k) := by
      intro x
      rw [show -(x ^ 2 / 2) = (-1) * x ^ 2 / 2 by ring, div_pow, mul_pow, ← pow_mul, div_div]
      ring
    simp_rw [e]
    rw [intervalIntegral.integral_const_mul, integral_pow]
    push_cast
    rfl
  · intro k _
    exact (by fun_prop : Continuous _).intervalIntegrable _ _

/-- the integral of `exp (-x²/2)` over `[-1.95996, 1.95996]` -/
theorem bell_bounds :
    2.38129569 < ∫ x in (-1.95996 : ℝ)..1.95996, Real.exp (-(x ^ 2 / 2)) ∧
      ∫ x in (-1.95996 : ℝ)..1.95996, Real.exp (-(x ^ 2 / 2)) < 2.3812957 := by
  have hc : Continuous fun x : ℝ => Real.exp (-(x ^ 2 / 2)) := by fun_prop
  constructor
  · have h := intervalIntegral.integral_mono_on (μ := volume) (a := (-1.95996 : ℝ)) (b := 1.95996) (by norm_num)
      ((expSum_cont (2 * 8)).intervalIntegrable _ _) (hc.intervalIntegrable _ _) fun x _ => expSum_le 8 (by positivity)
    refine lt_of_lt_of_le ?_ h
    rw [expSum_integral]
    norm_num [Finset.sum_range_succ, Nat.factorial]
  · have h := intervalIntegral.integral_mono_on (μ := volume) (a := (-1.95996 : ℝ)) (b := 1.95996) (by norm_num)
      (hc.intervalIntegrable _ _) ((expSum_cont (2 * 8 + 1)).intervalIntegrable _ _) fun x _ => le_expSum 8 (by positivity)
    refine lt_of_le_of_lt h ?_
    rw [expSum_integral]
    norm_num [Finset.sum_range_succ, Nat.factorial]

theorem sqrt_two_pi_bounds : 2.5066282 < √(2 * Real.pi) ∧ √(2 * Real.pi) < 2.5066283 := by
  have h1 := Real.pi_gt_d20
  have h2 := Real.pi_lt_d20
  constructor
  · apply Real.lt_sqrt_of_sq_lt
    norm_num at h1 ⊢
    linarith
  · rw [Real.sqrt_lt' (by norm_num)]
    norm_num at h2 ⊢
    linarith

theorem gaussian_interval (c : ℝ) (hc : 0 ≤ c) :
    (gaussianReal 0 1).real (Set.Icc (-c) c) = (√(2 * Real.pi))⁻¹ * ∫ x in (-c)..c, Real.exp (-(x ^ 2 / 2)) := by
  rw [measureReal_def, gaussianReal_apply_eq_integral 0 one_ne_zero, ENNReal.toReal_ofReal
    (integral_nonneg fun x => gaussianPDFReal_nonneg _ _ _), integral_Icc_eq_integral_Ioc,
    ← intervalIntegral.integral_of_le (by linarith), ← intervalIntegral.integral_const_mul]
  refine intervalIntegral.integral_congr fun x _ => ?_
  simp [gaussianPDFReal, neg_div]

/-- the standard normal probability of `[-1.95996, 1.95996]` -/
theorem gaussian_ci95 : |(gaussianReal 0 1).real (Set.Icc (-1.95996) 1.95996) - 0.95| < 5 / 10 ^ 7 := by
  rw [gaussian_interval _ (by norm_num)]
  obtain ⟨h1, h2⟩ := bell_bounds
  obtain ⟨h3, h4⟩ := sqrt_two_pi_bounds
  have hp : (0 : ℝ) < √(2 * Real.pi) := by linarith
  rw [inv_mul_eq_div, abs_sub_lt_iff]
  constructor
  · rw [sub_lt_iff_lt_add, div_lt_iff₀ hp]
    norm_num at *
    linarith
  · rw [sub_lt_comm, lt_div_iff₀ hp]
    norm_num at *
    linarith

end Sureal.Lemmas
