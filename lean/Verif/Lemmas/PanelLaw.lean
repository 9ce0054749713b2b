import Verif.Lemmas.Coverage
import Verif.Lemmas.UnderCoverage
import Mathlib.Probability.HasLawExists
/-! Panels of normal votes: the coverage depends on their number only; sums of several normal draws for each vote. -/
set_option linter.unusedSectionVars false
namespace Sureal.Lemmas
open Sureal Spec MeasureTheory ProbabilityTheory Filter
open scoped Topology

/-- the interval `mean ± c·s/√n` of the votes `x` contains `m` -/
def near (c : ℝ) {n : ℕ} (m : ℝ) (x : Fin n → ℝ) : Prop :=
  |mean (List.ofFn x) - m| ≤ c * (√(sampleVar (List.ofFn x)) / √(n : ℝ))

theorem mean_fn {n : ℕ} (x : Fin n → ℝ) : mean (List.ofFn x) = (∑ k, x k) / n := by
  unfold mean
  rw [List.sum_ofFn, List.length_ofFn]

theorem sqDev_fn {n : ℕ} (x : Fin n → ℝ) : sqDev (List.ofFn x) = ∑ k, (x k - (∑ j, x j) / n) ^ 2 := by
  unfold sqDev
  rw [mean_fn, List.map_ofFn, List.sum_ofFn]
  rfl

theorem near_measurable (c m : ℝ) (n : ℕ) : MeasurableSet {x : Fin n → ℝ | near c m x} := by
  unfold near
  simp only [sampleVar, sqDev_fn, mean_fn, List.length_ofFn]
  refine measurableSet_le ?_ ?_
  · exact (((Finset.measurable_sum _ fun k _ => measurable_pi_apply k).div_const _).sub_const _).abs
  · refine ((Measurable.sqrt ?_).div_const _).const_mul _
    refine Measurable.div_const (Finset.measurable_sum _ fun k _ => ?_) _
    exact ((measurable_pi_apply k).sub ((Finset.measurable_sum _ fun k _ => measurable_pi_apply k).div_const _)).pow_const 2

theorem near_affine {c m s : ℝ} (hs : 0 < s) {n : ℕ} (hn : n ≠ 0) (x : Fin n → ℝ) :
    near c m (fun k => m + s * x k) ↔ near c 0 x := by
  have hn0 : (n : ℝ) ≠ 0 := Nat.cast_ne_zero.mpr hn
  have h1 : (∑ k, (m + s * x k)) / n = m + s * ((∑ k, x k) / n) := by
    rw [Finset.sum_add_distrib, ← Finset.mul_sum]
    simp only [Finset.sum_const, Finset.card_univ, Fintype.card_fin, nsmul_eq_mul]
    field_simp
  unfold near
  simp only [sampleVar, sqDev_fn, mean_fn, List.length_ofFn, h1]
  have h2 : ∑ k, (m + s * x k - (m + s * ((∑ k, x k) / n))) ^ 2 = s ^ 2 * ∑ k, (x k - (∑ k, x k) / n) ^ 2 := by
    rw [Finset.mul_sum]
    refine Finset.sum_congr rfl fun k _ => ?_
    ring
  rw [h2, mul_div_assoc, Real.sqrt_mul (sq_nonneg s), Real.sqrt_sq hs.le, add_sub_cancel_left, abs_mul, abs_of_pos hs, sub_zero,
    mul_div_assoc, mul_left_comm, mul_le_mul_iff_right₀ hs]

/-- the probability that the interval of `n` standard normal votes contains 0 -/
noncomputable def panelCoverage (n : ℕ) : ℝ :=
  (Measure.pi fun _ : Fin n => gaussianReal 0 1).real {x | near 1.95996 0 x}

variable {Ω : Type*} [MeasurableSpace Ω] {P : Measure Ω} [IsProbabilityMeasure P]

theorem panel_eq {n : ℕ} (hn : n ≠ 0) {X : Fin n → Ω → ℝ} {m : ℝ} {v : NNReal} (hv : v ≠ 0)
    (hlaw : ∀ i, HasLaw (X i) (gaussianReal m v) P) (hindep : iIndepFun X P) :
    P.real {ω | near 1.95996 m fun k => X k ω} = panelCoverage n := by
  have hv0 : (0 : ℝ) < v := by positivity
  have hX : ∀ i, AEMeasurable (X i) P := fun i => (hlaw i).aemeasurable
  have h1 := (iIndepFun_iff_map_fun_eq_pi_map hX).mp hindep
  have h2 : gaussianReal m v = (gaussianReal 0 1).map fun x => m + √v * x := by
    have e1 : (fun x : ℝ => m + √v * x) = (fun x => m + x) ∘ fun x => √v * x := rfl
    rw [e1, ← Measure.map_map (by fun_prop) (by fun_prop), gaussianReal_map_const_mul, gaussianReal_map_const_add]
    congr 1
    · simp
    · ext
      simp [Real.sq_sqrt hv0.le]
  have h3 : P.map (fun ω k => X k ω) = (Measure.pi fun _ : Fin n => gaussianReal 0 1).map fun x k => m + √v * x k := by
    rw [h1]
    have : ∀ i, P.map (X i) = (gaussianReal 0 1).map fun x => m + √v * x := fun i => by rw [(hlaw i).map_eq, h2]
    simp only [this]
    have hsf : ∀ i : Fin n, SigmaFinite ((gaussianReal 0 1).map fun x => m + √v * x) := fun i => by rw [← h2]; infer_instance
    exact (Measure.pi_map_pi (f := fun _ : Fin n => fun x : ℝ => m + √v * x) fun i => by fun_prop).symm
  have hmap : Measurable fun (x : Fin n → ℝ) k => m + √v * x k := by fun_prop
  unfold panelCoverage
  rw [measureReal_def, measureReal_def]
  congr 1
  have h4 : P {ω | near 1.95996 m fun k => X k ω} = P.map (fun ω k => X k ω) {x | near 1.95996 m x} := by
    rw [Measure.map_apply_of_aemeasurable (aemeasurable_pi_lambda _ hX) (near_measurable _ _ _)]
    rfl
  rw [h4, h3, Measure.map_apply hmap (near_measurable _ _ _)]
  congr 1
  ext x
  exact near_affine (Real.sqrt_pos.mpr hv0) hn x

theorem panel_seq {X : ℕ → Ω → ℝ} (hlaw : ∀ i, HasLaw (X i) (gaussianReal 0 1) P) (hindep : iIndepFun X P) {n : ℕ} (hn : n ≠ 0) :
    panelCoverage n = P.real {ω | |mean (firstN (X · ω) n) - 0| ≤ 1.95996 * (√(sampleVar (firstN (X · ω) n)) / √(n : ℝ))} :=
  (panel_eq (X := fun k : Fin n => X k) hn one_ne_zero (fun i => hlaw i) (hindep.precomp Fin.val_injective)).symm

theorem panelCoverage_lt {n : ℕ} (h2 : 2 ≤ n) : panelCoverage n < 0.95 := by
  obtain ⟨Ω, mΩ, P, X, h1, hl, hi, h4⟩ := exists_iid ℕ (gaussianReal 0 1)
  rw [panel_seq hl hi (by omega)]
  exact lt_of_le_of_lt (normal_panel one_ne_zero hl hi h2 (by norm_num)) within_ci95

theorem panelCoverage_limit : ∃ N, ∀ n ≥ N, |panelCoverage n - 0.95| < 1 / 10 ^ 6 := by
  obtain ⟨Ω, mΩ, P, X, h1, hl, hi, h4⟩ := exists_iid ℕ (gaussianReal 0 1)
  have hm : P[X 0] = 0 := by rw [(hl 0).integral_eq, integral_id_gaussianReal]
  have hmem : MemLp (X 0) 2 P := by
    have := (memLp_id_gaussianReal (μ := 0) (v := 1) 2)
    rw [← (hl 0).map_eq] at this
    exact (memLp_map_measure_iff (by fun_prop) (hl 0).aemeasurable).mp this
  have hvar : Var[X 0; P] ≠ 0 := by
    rw [(hl 0).variance_eq, variance_id_gaussianReal]
    simp
  have hlim := coverage_limit (c := 1.95996) (by norm_num) hmem hi (fun i => (hl i).identDistrib (hl 0)) hvar
  rw [hm] at hlim
  have hlim' := (ENNReal.tendsto_toReal (measure_ne_top _ _)).comp hlim
  have hg := gaussian_ci95
  have hev := (Metric.tendsto_nhds.mp hlim') (5 / 10 ^ 7) (by norm_num)
  rw [← eventually_atTop]
  filter_upwards [hev, eventually_ge_atTop 1] with n hn hn1
  rw [panel_seq hl hi (by omega)]
  rw [Real.dist_eq] at hn
  rw [measureReal_def] at hg ⊢
  have := abs_add_le (a := (P {ω | |mean (firstN (X · ω) n) - 0| ≤
      1.95996 * (√(sampleVar (firstN (X · ω) n)) / √(n : ℝ))}).toReal - (gaussianReal 0 1 (Set.Icc (-1.95996) 1.95996)).toReal)
      (b := (gaussianReal 0 1 (Set.Icc (-1.95996) 1.95996)).toReal - 0.95)
  rw [sub_add_sub_cancel] at this
  have h10 : (1 : ℝ) / 10 ^ 6 = 5 / 10 ^ 7 + 5 / 10 ^ 7 := by norm_num
  rw [h10]
  exact lt_of_le_of_lt this (add_lt_add hn hg)

/-- votes that are sums of several draws each, no draw in two votes -/
theorem mixed_draws {g : ℕ → Ω → ℝ} (hg : ∀ i, HasLaw (g i) (gaussianReal 0 1) P) (hind : iIndepFun g P) {S : ℕ}
    (idx : Fin 3 → Fin S → ℕ) (hi : ∀ u s v t, idx u s = idx v t → u = v ∧ s = t) (w : Fin 3 → ℝ) (a : ℝ) {τ : NNReal}
    (hτ : (τ : ℝ) = ∑ u, w u ^ 2) :
    (∀ s, HasLaw (fun ω => a + ∑ u, w u * g (idx u s) ω) (gaussianReal a τ) P) ∧
      iIndepFun (fun (s : Fin S) ω => a + ∑ u, w u * g (idx u s) ω) P := by
  have hp : iIndepFun (fun (p : Fin 3 × Fin S) => g (idx p.1 p.2)) P := by
    refine hind.precomp (g := fun p : Fin 3 × Fin S => idx p.1 p.2) ?_
    rintro ⟨u, s⟩ ⟨v, t⟩ h
    obtain ⟨rfl, rfl⟩ := hi _ _ _ _ h
    rfl
  have hmem : ∀ i, MemLp (g i) 2 P := by
    intro i
    have := (memLp_id_gaussianReal (μ := 0) (v := 1) 2)
    rw [← (hg i).map_eq] at this
    exact (memLp_map_measure_iff (by fun_prop) (hg i).aemeasurable).mp this
  have hgl : HasGaussianLaw (fun ω => (fun p : Fin 3 × Fin S => g (idx p.1 p.2) ω)) P := hp.hasGaussianLaw fun p => (hg _).hasGaussianLaw
  let L : (Fin 3 × Fin S → ℝ) →ₗ[ℝ] (Fin S → ℝ) :=
    { toFun := fun x s => ∑ u, w u * x (u, s)
      map_add' := by
        intro x y
        ext s
        simp [mul_add, Finset.sum_add_distrib]
      map_smul' := by
        intro r x
        ext s
        simp [Finset.mul_sum, mul_left_comm] }
  have hY : HasGaussianLaw (fun ω => (fun s : Fin S => ∑ u, w u * g (idx u s) ω)) P :=
    hgl.map (LinearMap.toContinuousLinearMap L)
  have hcov : ∀ i j, i ≠ j → cov[g i, g j; P] = 0 := fun i j h => (hind.indepFun h).covariance_eq_zero (hmem i) (hmem j)
  have hvar : ∀ i, Var[g i; P] = 1 := by
    intro i
    rw [(hg i).variance_eq, variance_id_gaussianReal]
    simp
  have hcs : ∀ s t, cov[fun ω => ∑ u, w u * g (idx u s) ω, fun ω => ∑ u, w u * g (idx u t) ω; P] = if s = t then ∑ u, w u ^ 2 else 0 := by
    intro s t
    rw [covariance_fun_sum_fun_sum (X := fun u ω => w u * g (idx u s) ω) (Y := fun u ω => w u * g (idx u t) ω)
      (fun u => (hmem _).const_mul _) (fun u => (hmem _).const_mul _)]
    simp only [covariance_const_mul_left, covariance_const_mul_right]
    by_cases h : s = t
    · subst h
      rw [if_pos rfl]
      refine Finset.sum_congr rfl fun u _ => ?_
      rw [Finset.sum_eq_single u]
      · rw [covariance_self (hg _).aemeasurable, hvar]
        ring
      · intro v _ hv
        rw [hcov _ _ fun h => hv (hi _ _ _ _ h).1.symm]
        ring
      · intro h
        exact absurd (Finset.mem_univ u) h
    · rw [if_neg h]
      refine Finset.sum_eq_zero fun u _ => Finset.sum_eq_zero fun v _ => ?_
      rw [hcov _ _ fun h' => h (hi _ _ _ _ h').2]
      ring
  have hI : iIndepFun (fun (s : Fin S) ω => ∑ u, w u * g (idx u s) ω) P :=
    hY.iIndepFun_of_covariance_eq_zero fun s t h => by rw [hcs, if_neg h]
  constructor
  · intro s
    have hs : HasGaussianLaw (fun ω => ∑ u, w u * g (idx u s) ω) P := hY.eval s
    have hm : P[fun ω => ∑ u, w u * g (idx u s) ω] = 0 := by
      rw [integral_finsetSum _ fun u _ => ((hmem _).integrable one_le_two).const_mul _]
      refine Finset.sum_eq_zero fun u _ => ?_
      rw [integral_const_mul, (hg _).integral_eq, integral_id_gaussianReal, mul_zero]
    have hv : Var[fun ω => ∑ u, w u * g (idx u s) ω; P] = τ := by
      rw [← covariance_self hs.aemeasurable, hcs, if_pos rfl, hτ]
    have h1 : P.map (fun ω => ∑ u, w u * g (idx u s) ω) = gaussianReal 0 τ := by
      rw [hs.map_eq_gaussianReal, hm, hv, Real.toNNReal_coe]
    refine ⟨(hs.aemeasurable.const_add a), ?_⟩
    have e1 : (fun ω => a + ∑ u, w u * g (idx u s) ω) = (fun x => a + x) ∘ fun ω => ∑ u, w u * g (idx u s) ω := rfl
    rw [e1, ← AEMeasurable.map_map_of_aemeasurable (by fun_prop) hs.aemeasurable, h1, gaussianReal_map_const_add, zero_add]
  · exact hI.comp (fun _ x => a + x) fun _ => by fun_prop

end Sureal.Lemmas
