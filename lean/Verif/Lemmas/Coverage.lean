import Verif.Spec.Coverage
import Verif.Lemmas.NormalTable
import Mathlib.Probability.CentralLimitTheorem
import Mathlib.Probability.StrongLaw
import Mathlib.MeasureTheory.Measure.Portmanteau
import Mathlib.MeasureTheory.Function.ConvergenceInDistribution
import Mathlib.Probability.Moments.Variance

/-! The interval `mean ± c·s/√n` of independent, identically distributed numbers: how often it covers their expectation when
there are many of them. -/

namespace Sureal.Lemmas
open MeasureTheory ProbabilityTheory Filter Sureal.Spec
open scoped Topology

theorem firstN_length (x : ℕ → ℝ) (n : ℕ) : (firstN x n).length = n := by simp [firstN]

theorem firstN_sum (x : ℕ → ℝ) (n : ℕ) : (firstN x n).sum = ∑ k ∈ Finset.range n, x k := by
  simp [firstN, List.sum_ofFn, Finset.sum_range]

theorem firstN_mean (x : ℕ → ℝ) (n : ℕ) : mean (firstN x n) = (∑ k ∈ Finset.range n, x k) / n := by
  unfold mean
  rw [firstN_sum, firstN_length]

theorem firstN_sqDev (x : ℕ → ℝ) (n : ℕ) (hn : n ≠ 0) :
    sqDev (firstN x n) = (∑ k ∈ Finset.range n, x k ^ 2) - n * mean (firstN x n) ^ 2 := by
  have hsum : (∑ k ∈ Finset.range n, x k) = n * mean (firstN x n) := by
    rw [firstN_mean]
    field_simp
  unfold sqDev
  generalize mean (firstN x n) = m at *
  have : ((firstN x n).map fun v => (v - m) ^ 2).sum = ∑ k ∈ Finset.range n, (x k - m) ^ 2 := by
    simp [firstN, List.map_ofFn, List.sum_ofFn, Finset.sum_range]
  rw [this]
  have e : ∀ k, (x k - m) ^ 2 = x k ^ 2 - 2 * m * x k + m ^ 2 := fun k => by ring
  simp_rw [e]
  rw [Finset.sum_add_distrib, Finset.sum_sub_distrib, ← Finset.mul_sum, hsum]
  simp
  ring

theorem sampleVar_nonneg' (l : List ℝ) : 0 ≤ sampleVar l := by
  unfold sampleVar sqDev
  rcases l with _ | ⟨x, l⟩
  · simp
  · refine div_nonneg (List.sum_nonneg ?_) (by simp)
    intro y hy
    obtain ⟨z, _, rfl⟩ := List.mem_map.mp hy
    positivity

/-- the sample variance approaches the variance, for a sequence whose means and means of squares converge -/
theorem sampleVar_tendsto (x : ℕ → ℝ) {m s : ℝ}
    (h1 : Tendsto (fun n : ℕ => (∑ k ∈ Finset.range n, x k) / n) atTop (𝓝 m))
    (h2 : Tendsto (fun n : ℕ => (∑ k ∈ Finset.range n, x k ^ 2) / n) atTop (𝓝 s)) :
    Tendsto (fun n => sampleVar (firstN x n)) atTop (𝓝 (s - m ^ 2)) := by
  have h3 : Tendsto (fun n : ℕ => (n : ℝ) / ((n : ℝ) + (-1))) atTop (𝓝 1) :=
    tendsto_natCast_div_add_atTop (-1 : ℝ)
  have h4 := h3.mul (h2.sub (h1.pow 2))
  rw [one_mul] at h4
  refine h4.congr' ?_
  filter_upwards [eventually_ge_atTop 2] with n hn
  have hn0 : (n : ℝ) ≠ 0 := by positivity
  have hn1 : (n : ℝ) - 1 ≠ 0 := by
    have : (2 : ℝ) ≤ n := by exact_mod_cast hn
    linarith
  unfold sampleVar
  rw [firstN_sqDev x n (by omega), firstN_mean, firstN_length, ← sub_eq_add_neg]
  field_simp

/-- the interval covers `μ` iff the standardised deviation is at most `c` -/
theorem covers_iff {c μ : ℝ} (hc : 0 ≤ c) (x : ℕ → ℝ) (n : ℕ) (hn : n ≠ 0) :
    |mean (firstN x n) - μ| ≤ c * (√(sampleVar (firstN x n)) / √(n : ℝ)) ↔
      ((√(n : ℝ))⁻¹ * ((∑ k ∈ Finset.range n, x k) - n * μ)) ^ 2 - c ^ 2 * sampleVar (firstN x n) ≤ 0 := by
  have hn0 : (0 : ℝ) < n := by positivity
  have hsq : (0 : ℝ) < √(n : ℝ) := Real.sqrt_pos.mpr hn0
  have hss : √(n : ℝ) * √(n : ℝ) = n := Real.mul_self_sqrt hn0.le
  have hG : (√(n : ℝ))⁻¹ * ((∑ k ∈ Finset.range n, x k) - n * μ) = √(n : ℝ) * (mean (firstN x n) - μ) := by
    rw [firstN_mean]
    generalize √(n : ℝ) = t at *
    rw [← hss]
    field_simp
  rw [hG, sub_nonpos]
  have hV := sampleVar_nonneg' (firstN x n)
  generalize sampleVar (firstN x n) = V at *
  generalize mean (firstN x n) - μ = d
  rw [mul_div_assoc', le_div_iff₀ hsq]
  have e1 : c ^ 2 * V = (c * √V) ^ 2 := by rw [mul_pow, Real.sq_sqrt hV]
  have e2 : (√(n : ℝ) * d) ^ 2 = (|d| * √(n : ℝ)) ^ 2 := by rw [mul_pow, mul_pow, sq_abs, mul_comm]
  rw [e1, e2, sq_le_sq₀ (by positivity) (by positivity)]

variable {Ω : Type*} [MeasurableSpace Ω] {P : Measure Ω} [IsProbabilityMeasure P]

theorem normal_square (c : ℝ) (hc : 0 ≤ c) (v : NNReal) (hv : v ≠ 0) :
    gaussianReal 0 v {x | x ^ 2 - c ^ 2 * v ≤ 0} = gaussianReal 0 1 (Set.Icc (-c) c) := by
  have h := gaussianReal_map_const_mul (μ := 0) (v := 1) (√(v : ℝ))
  have hv0 : (0 : ℝ) < v := by positivity
  have : gaussianReal 0 v = (gaussianReal 0 1).map (√(v : ℝ) * ·) := by
    rw [h, mul_zero]
    congr 1
    ext
    simp [Real.sq_sqrt hv0.le]
  rw [this, Measure.map_apply (by fun_prop) (measurableSet_le (by fun_prop) (by fun_prop))]
  congr 1
  ext x
  simp only [Set.mem_preimage, Set.mem_ofPred_eq, Set.mem_Icc, mul_pow, Real.sq_sqrt hv0.le]
  rw [← abs_le, ← sq_le_sq₀ (abs_nonneg x) hc, sq_abs, sub_nonpos, mul_comm, mul_le_mul_iff_left₀ hv0]

theorem coverage_limit {X : ℕ → Ω → ℝ} {c : ℝ} (hc : 0 ≤ c) (hX : MemLp (X 0) 2 P) (hindep : iIndepFun X P)
    (hident : ∀ i, IdentDistrib (X i) (X 0) P P) (hvar : Var[X 0; P] ≠ 0) :
    Tendsto (fun n => P {ω | |mean (firstN (X · ω) n) - P[X 0]| ≤
      c * (√(sampleVar (firstN (X · ω) n)) / √(n : ℝ))}) atTop (𝓝 (gaussianReal 0 1 (Set.Icc (-c) c))) := by
  set v : NNReal := Var[X 0; P].toNNReal with hv
  have hv0 : v ≠ 0 := by
    rw [hv, ne_eq, Real.toNNReal_eq_zero, not_le]
    exact lt_of_le_of_ne (variance_nonneg _ _) (Ne.symm hvar)
  have hvR : (v : ℝ) = Var[X 0; P] := Real.coe_toNNReal _ (variance_nonneg _ _)
  have hmeas : ∀ i, AEMeasurable (X i) P := fun i => (hident i).aemeasurable_fst
  have hclt := tendstoInDistribution_inv_sqrt_mul_sum_sub (P' := gaussianReal 0 v) (Y := id) ⟨by fun_prop, by simp [hv]⟩
    hX hindep hident
  -- the sample variance
  have hint : Integrable (X 0) P := hX.integrable (by norm_num)
  have hint2 : Integrable (fun ω => X 0 ω ^ 2) P := hX.integrable_sq
  have hV : ∀ᵐ ω ∂P, Tendsto (fun n => sampleVar (firstN (X · ω) n)) atTop (𝓝 (v : ℝ)) := by
    have l1 := strong_law_ae_real X hint (fun i j hij => hindep.indepFun hij) hident
    have l2 := strong_law_ae_real (fun i ω => X i ω ^ 2) hint2
      (fun i j hij => (hindep.indepFun hij).comp (measurable_id.pow_const 2) (measurable_id.pow_const 2))
      (fun i => (hident i).comp (measurable_id.pow_const 2))
    filter_upwards [l1, l2] with ω h1 h2
    have := sampleVar_tendsto (X · ω) h1 h2
    rwa [show P[fun ω => X 0 ω ^ 2] - P[X 0] ^ 2 = (v : ℝ) by rw [hvR, variance_eq_sub hX]; rfl] at this
  have hVm : ∀ n, AEMeasurable (fun ω => sampleVar (firstN (X · ω) n)) P := by
    intro n
    by_cases hn : n = 0
    · subst hn
      have : (fun ω => sampleVar (firstN (X · ω) 0)) = fun _ => sampleVar ([] : List ℝ) := by
        funext ω
        simp [firstN]
      rw [this]
      fun_prop
    · have : (fun ω => sampleVar (firstN (X · ω) n)) = fun ω =>
          ((∑ k ∈ Finset.range n, X k ω ^ 2) - n * ((∑ k ∈ Finset.range n, X k ω) / n) ^ 2) / ((n : ℝ) - 1) := by
        funext ω
        unfold sampleVar
        rw [firstN_sqDev _ n hn, firstN_length, firstN_mean]
      rw [this]
      fun_prop
  have hVP : TendstoInMeasure P (fun n ω => sampleVar (firstN (X · ω) n)) atTop (fun _ => (v : ℝ)) :=
    tendstoInMeasure_of_tendsto_ae (fun n => (hVm n).aestronglyMeasurable) hV
  have hD := hclt.continuous_comp_prodMk_of_tendstoInMeasure_const (g := fun p : ℝ × ℝ => p.1 ^ 2 - c ^ 2 * p.2)
    (by fun_prop) hVP hVm
  have hlim := ProbabilityMeasure.tendsto_measure_of_null_frontier_of_tendsto' hD.tendsto (E := Set.Iic 0) (by
    rw [frontier_Iic, ProbabilityMeasure.coe_mk, Measure.map_apply (by fun_prop) (measurableSet_singleton 0)]
    refine measure_mono_null (t := {c * √(v : ℝ), -(c * √(v : ℝ))}) ?_ ?_
    · intro x hx
      have hx' : x ^ 2 - c ^ 2 * (v : ℝ) = 0 := hx
      have : x ^ 2 = (c * √(v : ℝ)) ^ 2 := by
        rw [mul_pow, Real.sq_sqrt (NNReal.coe_nonneg v)]
        linarith
      exact sq_eq_sq_iff_eq_or_eq_neg.mp this
    · have := nullSingletonClass_gaussianReal (μ := 0) hv0
      exact (Set.toFinite _).measure_zero _)
  simp only [ProbabilityMeasure.coe_mk] at hlim
  rw [← normal_square c hc v hv0]
  rw [Measure.map_apply (by fun_prop) measurableSet_Iic] at hlim
  refine hlim.congr' ?_
  filter_upwards [eventually_ge_atTop 1] with n hn
  rw [Measure.map_apply_of_aemeasurable (hD.forall_aemeasurable n) measurableSet_Iic]
  congr 1
  ext ω
  exact (covers_iff hc (X · ω) n (by omega)).symm

end Sureal.Lemmas
