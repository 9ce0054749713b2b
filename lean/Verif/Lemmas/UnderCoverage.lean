import Verif.Lemmas.Coverage
import Mathlib.Probability.Distributions.Gaussian.HasGaussianLaw.Independence
import Mathlib.Probability.Moments.Covariance

/-! Normal votes: the interval `mean ± c·s/√n` covers the expectation less often than a normal number lies in `[-c, c]`, for
every number of votes, as mean and sample variance are independent and the probability is a concave function of the
variance. -/

namespace Sureal.Lemmas
open MeasureTheory ProbabilityTheory Filter Sureal.Spec
open scoped Topology

/-- the probability that a standard normal number lies in `[-t, t]` -/
noncomputable def within (t : ℝ) : ℝ := (gaussianReal 0 1).real (Set.Icc (-t) t)

/-- the standard normal density -/
noncomputable def dens (t : ℝ) : ℝ := (√(2 * Real.pi))⁻¹ * Real.exp (-(t ^ 2 / 2))

theorem within_eq {t : ℝ} (ht : 0 ≤ t) : within t = 2 * ∫ x in (0 : ℝ)..t, dens x := by
  have hc : Continuous dens := by
    unfold dens
    fun_prop
  have h1 : within t = ∫ x in (-t)..t, dens x := by
    unfold within dens
    rw [gaussian_interval t ht, intervalIntegral.integral_const_mul]
  have h2 : ∫ x in (-t)..0, dens x = ∫ x in (0 : ℝ)..t, dens x := by
    have := intervalIntegral.integral_comp_neg (a := 0) (b := t) (f := dens)
    rw [neg_zero] at this
    rw [← this]
    refine intervalIntegral.integral_congr fun x _ => ?_
    simp [dens]
  rw [h1, ← intervalIntegral.integral_add_adjacent_intervals (hc.intervalIntegrable (-t) 0) (hc.intervalIntegrable 0 t), h2]
  ring

theorem dens_anti {s t : ℝ} (hs : 0 ≤ s) (h : s ≤ t) : dens t ≤ dens s := by
  unfold dens
  have : s ^ 2 ≤ t ^ 2 := pow_le_pow_left₀ hs h 2
  gcongr

/-- the tangent lies above -/
theorem within_tangent {c t : ℝ} (hc : 0 ≤ c) (ht : 0 ≤ t) : within t ≤ within c + 2 * dens c * (t - c) := by
  have hd : Continuous dens := by
    unfold dens
    fun_prop
  rw [within_eq hc, within_eq ht]
  have h : ∫ x in c..t, dens x ≤ dens c * (t - c) := by
    rcases le_total c t with h | h
    · have := intervalIntegral.integral_mono_on (μ := volume) h (hd.intervalIntegrable c t)
        (continuous_const.intervalIntegrable c t) (g := fun _ => dens c) fun x hx => dens_anti hc hx.1
      rw [intervalIntegral.integral_const, smul_eq_mul] at this
      linarith
    · have := intervalIntegral.integral_mono_on (μ := volume) h (continuous_const.intervalIntegrable t c)
        (hd.intervalIntegrable t c) (f := fun _ => dens c) fun x hx => dens_anti (ht.trans hx.1) hx.2
      rw [intervalIntegral.integral_const, smul_eq_mul] at this
      rw [intervalIntegral.integral_symm]
      linarith
  have := intervalIntegral.integral_add_adjacent_intervals (hd.intervalIntegrable 0 c) (hd.intervalIntegrable c t) (μ := volume)
  linarith

/-- the probability of a square at most `c² w` lies below a line through its value at `w = v` -/
theorem square_bound {c : ℝ} (hc : 0 ≤ c) {v : NNReal} (hv : v ≠ 0) {w : ℝ} (hw : 0 ≤ w) :
    (gaussianReal 0 v).real {x | x ^ 2 - c ^ 2 * w ≤ 0} ≤ within c + dens c * c * (w / v - 1) := by
  have hv0 : (0 : ℝ) < v := by positivity
  have h1 : gaussianReal 0 v {x | x ^ 2 - c ^ 2 * w ≤ 0} = gaussianReal 0 1 (Set.Icc (-(c * √(w / v))) (c * √(w / v))) := by
    rw [← normal_square (c * √(w / v)) (by positivity) v hv, mul_pow, Real.sq_sqrt (by positivity)]
    congr 1
    ext x
    simp only [Set.mem_ofPred_eq]
    rw [mul_assoc, div_mul_cancel₀ _ hv0.ne']
  have h2 : (gaussianReal 0 v).real {x | x ^ 2 - c ^ 2 * w ≤ 0} = within (c * √(w / v)) := by
    rw [measureReal_def, h1]
    rfl
  rw [h2]
  have h3 := within_tangent hc (by positivity : 0 ≤ c * √(w / v))
  refine h3.trans ?_
  have h4 : √(w / v) - 1 ≤ (w / v - 1) / 2 := by
    have := Real.sq_sqrt (by positivity : 0 ≤ w / (v : ℝ))
    nlinarith [sq_nonneg (√(w / v) - 1)]
  have hd : 0 ≤ dens c := by
    unfold dens
    positivity
  have : 2 * dens c * (c * √(w / v) - c) = 2 * (dens c * c) * (√(w / v) - 1) := by ring
  rw [this]
  have := mul_le_mul_of_nonneg_left h4 (by positivity : 0 ≤ 2 * (dens c * c))
  linarith

variable {Ω : Type*} [MeasurableSpace Ω] {P : Measure Ω} [IsProbabilityMeasure P]

/-- independent `G`, normal with variance `v`, and `V ≥ 0` with expectation `v` -/
theorem studentized_bound {c : ℝ} (hc : 0 ≤ c) {v : NNReal} (hv : v ≠ 0) {G V : Ω → ℝ} (hG : HasLaw G (gaussianReal 0 v) P)
    (hVm : AEMeasurable V P) (hV0 : ∀ ω, 0 ≤ V ω) (hVi : Integrable V P) (hVe : P[V] = (v : ℝ)) (hind : IndepFun G V P) :
    P.real {ω | G ω ^ 2 - c ^ 2 * V ω ≤ 0} ≤ within c := by
  have hv0 : (0 : ℝ) < v := by positivity
  have hGm := hG.aemeasurable
  have hS : MeasurableSet {p : ℝ × ℝ | p.1 ^ 2 - c ^ 2 * p.2 ≤ 0} := measurableSet_le (by fun_prop) (by fun_prop)
  have e1 : P {ω | G ω ^ 2 - c ^ 2 * V ω ≤ 0} = P.map (fun ω => (G ω, V ω)) {p : ℝ × ℝ | p.1 ^ 2 - c ^ 2 * p.2 ≤ 0} := by
    rw [Measure.map_apply_of_aemeasurable (hGm.prodMk hVm) hS]
    rfl
  have := Measure.isProbabilityMeasure_map (μ := P) hVm
  have e2 : P {ω | G ω ^ 2 - c ^ 2 * V ω ≤ 0} = ∫⁻ w, gaussianReal 0 v {x | x ^ 2 - c ^ 2 * w ≤ 0} ∂(P.map V) := by
    rw [e1, (indepFun_iff_map_prod_eq_prod_map_map hGm hVm).mp hind, hG.map_eq, Measure.prod_apply_symm hS]
    rfl
  have e3 : P {ω | G ω ^ 2 - c ^ 2 * V ω ≤ 0} ≤ ∫⁻ ω, ENNReal.ofReal (within c + dens c * c * (V ω / v - 1)) ∂P := by
    rw [e2, lintegral_map' _ hVm]
    · refine lintegral_mono fun ω => ?_
      have := square_bound hc hv (hV0 ω)
      rw [measureReal_def] at this
      exact (ENNReal.le_ofReal_iff_toReal_le (measure_ne_top _ _) (ENNReal.toReal_nonneg.trans this)).mpr this
    · exact (measurable_measure_prodMk_right hS).aemeasurable
  have i1 : Integrable (fun ω => V ω / (v : ℝ) - 1) P := (hVi.div_const _).sub (integrable_const _)
  have i2 : Integrable (fun ω => dens c * c * (V ω / (v : ℝ) - 1)) P := i1.const_mul _
  have hi : Integrable (fun ω => within c + dens c * c * (V ω / v - 1)) P := (integrable_const _).add i2
  rw [← ofReal_integral_eq_lintegral_ofReal hi (ae_of_all _ fun ω =>
    measureReal_nonneg.trans (square_bound hc hv (hV0 ω)))] at e3
  have e4 : ∫ ω, within c + dens c * c * (V ω / v - 1) ∂P = within c := by
    rw [integral_add (integrable_const _) i2, integral_const_mul, integral_sub (hVi.div_const _) (integrable_const _),
      integral_div, hVe]
    simp [hv0.ne']
  rw [e4] at e3
  exact ENNReal.toReal_le_of_le_ofReal measureReal_nonneg e3

/-- the deviations from the mean are independent of the sum -/
theorem sum_indep_dev {X : ℕ → Ω → ℝ} {m : ℝ} {v : NNReal} (hlaw : ∀ i, HasLaw (X i) (gaussianReal m v) P) (hindep : iIndepFun X P)
    {n : ℕ} (hn : n ≠ 0) :
    IndepFun (fun ω (_ : Unit) => ∑ k : Fin n, X k ω) (fun ω (j : Fin n) => X j ω - (∑ k : Fin n, X k ω) / n) P := by
  have hn0 : (n : ℝ) ≠ 0 := Nat.cast_ne_zero.mpr hn
  have hi : iIndepFun (fun k : Fin n => X k) P := hindep.precomp Fin.val_injective
  have hg : HasGaussianLaw (fun ω => (fun k : Fin n => X k ω)) P := hi.hasGaussianLaw fun k => (hlaw k).hasGaussianLaw
  let L : (Fin n → ℝ) →ₗ[ℝ] (Unit → ℝ) × (Fin n → ℝ) :=
    { toFun := fun x => (fun _ => ∑ k, x k, fun j => x j - (∑ k, x k) / n)
      map_add' := by
        intro x y
        ext j
        · simp [Finset.sum_add_distrib]
        · simp only [Pi.add_apply, Finset.sum_add_distrib, Prod.snd_add]
          ring
      map_smul' := by
        intro r x
        ext j
        · simp [Finset.mul_sum]
        · simp only [Pi.smul_apply, smul_eq_mul, ← Finset.mul_sum, Prod.smul_snd, RingHom.id_apply]
          ring }
  have hmem : ∀ k, MemLp (X k) 2 P := fun k => (hlaw k).hasGaussianLaw.memLp_two
  refine HasGaussianLaw.indepFun_of_covariance_eval (X := fun (_ : Unit) ω => ∑ k : Fin n, X k ω)
    (Y := fun (j : Fin n) ω => X j ω - (∑ k : Fin n, X k ω) / n) ?_ ?_
  · exact hg.map_fun (LinearMap.toContinuousLinearMap L)
  · intro _ j
    have hvar : ∀ k, Var[X k; P] = v := fun k => by rw [(hlaw k).variance_eq, variance_id_gaussianReal]
    have hcov : ∀ k : Fin n, cov[fun ω => ∑ k : Fin n, X k ω, X k; P] = v := by
      intro k
      rw [covariance_fun_sum_left (X := fun i : Fin n => X i) (fun i => hmem i) (hmem k), Finset.sum_eq_single k]
      · rw [covariance_self (hlaw k).aemeasurable, hvar]
      · intro b _ hb
        exact (hi.indepFun hb).covariance_eq_zero (hmem b) (hmem k)
      · simp
    have hT : MemLp (fun ω => ∑ k : Fin n, X k ω) 2 P := memLp_finsetSum _ fun k _ => hmem k
    rw [covariance_fun_sub_right hT (hmem j) (by simpa [div_eq_mul_inv] using hT.mul_const _), hcov, covariance_fun_div_right,
      covariance_fun_sum_right (X := fun i : Fin n => X i) (fun i => hmem i) hT]
    simp only [hcov, Finset.sum_const, Finset.card_univ, Fintype.card_fin, nsmul_eq_mul]
    field_simp
    ring

theorem normal_panel {X : ℕ → Ω → ℝ} {m : ℝ} {v : NNReal} (hv : v ≠ 0) (hlaw : ∀ i, HasLaw (X i) (gaussianReal m v) P)
    (hindep : iIndepFun X P) {n : ℕ} (h2 : 2 ≤ n) {c : ℝ} (hc : 0 ≤ c) :
    P.real {ω | |mean (firstN (X · ω) n) - m| ≤ c * (√(sampleVar (firstN (X · ω) n)) / √(n : ℝ))} ≤ within c := by
  have hn : n ≠ 0 := by omega
  have hn0 : (n : ℝ) ≠ 0 := Nat.cast_ne_zero.mpr hn
  have hnp : (0 : ℝ) < n := by positivity
  have hn1 : (n : ℝ) - 1 ≠ 0 := by
    have : (2 : ℝ) ≤ n := by exact_mod_cast h2
    linarith
  have e1 : {ω | |mean (firstN (X · ω) n) - m| ≤ c * (√(sampleVar (firstN (X · ω) n)) / √(n : ℝ))} =
      {ω | ((√(n : ℝ))⁻¹ * ((∑ k ∈ Finset.range n, X k ω) - n * m)) ^ 2 - c ^ 2 * sampleVar (firstN (X · ω) n) ≤ 0} := by
    ext ω
    exact covers_iff hc (X · ω) n hn
  rw [e1]
  have hmem : ∀ k, MemLp (X k) 2 P := fun k => (hlaw k).hasGaussianLaw.memLp_two
  have hvar : ∀ k, Var[X k; P] = v := fun k => by rw [(hlaw k).variance_eq, variance_id_gaussianReal]
  have hexp : ∀ k, P[X k] = m := fun k => by rw [(hlaw k).integral_eq, integral_id_gaussianReal]
  have hT : MemLp (fun ω => ∑ k ∈ Finset.range n, X k ω) 2 P := memLp_finsetSum _ fun k _ => hmem k
  have hTe : ∫ ω, ∑ k ∈ Finset.range n, X k ω ∂P = n * m := by
    rw [integral_finsetSum _ fun k _ => (hmem k).integrable (by norm_num)]
    simp [hexp]
  have hTv : Var[fun ω => ∑ k ∈ Finset.range n, X k ω; P] = n * v := by
    have := IndepFun.variance_sum (μ := P) (s := Finset.range n) (X := X) (fun k _ => hmem k)
      (fun i _ j _ hij => hindep.indepFun hij)
    rw [show (fun ω => ∑ k ∈ Finset.range n, X k ω) = ∑ k ∈ Finset.range n, X k by ext; simp, this]
    simp [hvar]
  have hVeq : (fun ω => sampleVar (firstN (X · ω) n)) =
      fun ω => ((∑ k ∈ Finset.range n, X k ω ^ 2) - (∑ k ∈ Finset.range n, X k ω) ^ 2 / n) / ((n : ℝ) - 1) := by
    funext ω
    unfold sampleVar
    rw [firstN_sqDev _ n hn, firstN_length, firstN_mean]
    field_simp
  have hi1 : Integrable (fun ω => ∑ k ∈ Finset.range n, X k ω ^ 2) P := integrable_finsetSum _ fun k _ => (hmem k).integrable_sq
  have hi2 : Integrable (fun ω => (∑ k ∈ Finset.range n, X k ω) ^ 2 / n) P := hT.integrable_sq.div_const _
  refine studentized_bound hc hv (G := fun ω => (√(n : ℝ))⁻¹ * ((∑ k ∈ Finset.range n, X k ω) - n * m))
    (V := fun ω => sampleVar (firstN (X · ω) n)) ?_ ?_ (fun ω => sampleVar_nonneg' _) ?_ ?_ ?_
  · have hsum : HasGaussianLaw (fun ω => ∑ k ∈ Finset.range n, X k ω) P := by
      have := iIndepFun.hasGaussianLaw_fun_sum (X := fun k : Fin n => X k) (fun k => (hlaw k).hasGaussianLaw)
        (hindep.precomp Fin.val_injective)
      simpa [Finset.sum_range] using this
    have hl : HasLaw (fun ω => ∑ k ∈ Finset.range n, X k ω) (gaussianReal (n * m) (n * v)) P := by
      refine ⟨hsum.aemeasurable, ?_⟩
      rw [hsum.map_eq_gaussianReal, hTe, hTv]
      congr 1
      rw [← NNReal.coe_natCast n, ← NNReal.coe_mul, Real.toNNReal_coe]
    have := gaussianReal_const_mul (gaussianReal_sub_const hl (n * m)) (√(n : ℝ))⁻¹
    convert this using 2
    · simp
    · ext
      simp [Real.sq_sqrt hnp.le]
      field_simp
  · rw [hVeq]
    exact ((hi1.sub hi2).div_const _).aemeasurable
  · rw [hVeq]
    exact (hi1.sub hi2).div_const _
  · rw [hVeq, integral_div, integral_sub hi1 hi2, integral_div, integral_finsetSum _ fun k _ => (hmem k).integrable_sq]
    have h3 : ∀ k, ∫ ω, X k ω ^ 2 ∂P = v + m ^ 2 := by
      intro k
      have := variance_eq_sub (hmem k)
      rw [hvar, hexp] at this
      have h4 : P[X k ^ 2] = ∫ ω, X k ω ^ 2 ∂P := rfl
      linarith
    have h4 : ∫ ω, (∑ k ∈ Finset.range n, X k ω) ^ 2 ∂P = n * v + (n * m) ^ 2 := by
      have := variance_eq_sub hT
      rw [hTv, hTe] at this
      have h4 : P[(fun ω => ∑ k ∈ Finset.range n, X k ω) ^ 2] = ∫ ω, (∑ k ∈ Finset.range n, X k ω) ^ 2 ∂P := rfl
      linarith
    simp only [h3, h4, Finset.sum_const, Finset.card_range, nsmul_eq_mul]
    field_simp
    ring
  · have h := sum_indep_dev hlaw hindep hn
    have h5 := h.comp (φ := fun f : Unit → ℝ => (√(n : ℝ))⁻¹ * (f () - n * m))
      (ψ := fun f : Fin n → ℝ => (∑ j, f j ^ 2) / ((n : ℝ) - 1)) (by fun_prop) (by fun_prop)
    convert h5 using 1
    · funext ω
      simp [Finset.sum_range]
    · funext ω
      unfold sampleVar sqDev
      rw [firstN_length, firstN_mean]
      simp [firstN, List.map_ofFn, List.sum_ofFn, Finset.sum_range]

theorem within_ci95 : within 1.95996 < 0.95 := by
  unfold within
  rw [gaussian_interval _ (by norm_num), inv_mul_eq_div]
  obtain ⟨h1, h2⟩ := bell_bounds
  obtain ⟨h3, h4⟩ := sqrt_two_pi_bounds
  rw [div_lt_iff₀ (by linarith)]
  norm_num at *
  linarith

end Sureal.Lemmas
