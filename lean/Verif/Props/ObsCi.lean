import Verif.Lemmas.ObsCi
import Verif.Lemmas.Mle
import Verif.Props.Ap
import Verif.Model.Ci
import Mathlib.Probability.CDF
/-!
# C105: the intervals of the observers
-/
set_option linter.unusedSectionVars false
namespace Sureal.Props
open Sureal Spec ObsCi MeasureTheory ProbabilityTheory

/-- what `chi2.ppf` returns for `n` degrees of freedom -/
def QuantilesAt (ppf : Fl ℝ → Nat → Fl ℝ) (n : ℕ) (c d : ℝ) : Prop :=
  ppf (.fin (1 / 40)) n = .fin c ∧ ppf (.fin (39 / 40)) n = .fin d ∧ IsQuantile (chiSq n) (1 / 40) c ∧ IsQuantile (chiSq n) (39 / 40) d

theorem ci_eq {ppf : Fl ℝ → Nat → Fl ℝ} {n : ℕ} (hn : n ≠ 0) {c d : ℝ} (h : QuantilesAt ppf n c d) (v : ℝ) :
    inconsistencyCi ppf n (.fin v) = (.fin ((1 - Real.sqrt (n / d)) * v), .fin ((Real.sqrt (n / c) - 1) * v)) := by
  obtain ⟨h1, h2, h3, h4⟩ := h
  have hc := quantile_pos hn (by norm_num) h3
  have hd := quantile_pos hn (by norm_num) h4
  unfold inconsistencyCi
  have e1 : (Fl.dec 25 1000 : Fl ℝ) = .fin (1 / 40) := by unfold Fl.dec; congr 1; norm_num
  have e2 : (1 - Fl.fin (1 / 40) : Fl ℝ) = .fin (39 / 40) := by
    rw [show (1 : Fl ℝ) = Fl.fin 1 from rfl, Fl.fin_sub]; congr 1; norm_num
  rw [e1, e2, h1, h2, Fl.natCast_def, Fl.fin_div hd.ne', Fl.fin_div hc.ne', Fl.sqrt_fin (by positivity), Fl.sqrt_fin (by positivity)]
  rfl

/-- **C105.** The interval runs from `v √(n / d)` to `v √(n / c)`, where `c` and `d` are the 2.5% and the 97.5% quantile of the
chi-square distribution with as many degrees of freedom as votes; a positive number lies in it exactly if `n v² / σ²` is
between the quantiles. -/
theorem C105_ends {ppf : Fl ℝ → Nat → Fl ℝ} {n : ℕ} (hn : n ≠ 0) {c d : ℝ} (h : QuantilesAt ppf n c d) (v : ℝ) (hv : 0 ≤ v) :
    (.fin v - (inconsistencyCi ppf n (.fin v)).1 = .fin (v * Real.sqrt (n / d))) ∧
    (.fin v + (inconsistencyCi ppf n (.fin v)).2 = .fin (v * Real.sqrt (n / c))) ∧
    ∀ σ : ℝ, 0 < σ → (Ci.inCi (.fin σ) (.fin v) (inconsistencyCi ppf n (.fin v)).1 (inconsistencyCi ppf n (.fin v)).2 = true ↔
      c ≤ n * v ^ 2 / σ ^ 2 ∧ n * v ^ 2 / σ ^ 2 ≤ d) := by
  have hc := quantile_pos hn (by norm_num) h.2.2.1
  have hd := quantile_pos hn (by norm_num) h.2.2.2
  have hn0 : (0:ℝ) < n := by exact_mod_cast Nat.pos_of_ne_zero hn
  rw [ci_eq hn h v]
  dsimp only
  have e1 : (Fl.fin v - Fl.fin ((1 - Real.sqrt (n / d)) * v) : Fl ℝ) = .fin (v * Real.sqrt (n / d)) := by
    rw [Fl.fin_sub]; congr 1; ring
  have e2 : (Fl.fin v + Fl.fin ((Real.sqrt (n / c) - 1) * v) : Fl ℝ) = .fin (v * Real.sqrt (n / c)) := by
    rw [Fl.fin_add]; congr 1; ring
  refine ⟨e1, e2, fun σ hσ => ?_⟩
  unfold Ci.inCi
  rw [e1, e2, Bool.and_eq_true, Fl.le_fin, Fl.le_fin, decide_eq_true_eq, decide_eq_true_eq]
  have s1 : v * Real.sqrt (n / d) ≤ σ ↔ n * v ^ 2 / σ ^ 2 ≤ d := by
    rw [← sq_le_sq₀ (by positivity) hσ.le, mul_pow, Real.sq_sqrt (by positivity), div_le_iff₀ (by positivity)]
    rw [← mul_div_assoc, div_le_iff₀ hd]
    constructor <;> intro h <;> linarith
  have s2 : σ ≤ v * Real.sqrt (n / c) ↔ c ≤ n * v ^ 2 / σ ^ 2 := by
    rw [← sq_le_sq₀ hσ.le (by positivity), mul_pow, Real.sq_sqrt (by positivity), le_div_iff₀ (by positivity)]
    rw [← mul_div_assoc, le_div_iff₀ hc]
    constructor <;> intro h <;> linarith
  rw [s1, s2]
  exact and_comm

variable {Ω : Type} [MeasurableSpace Ω] {P : Measure Ω} [IsProbabilityMeasure P]

/-- law of the sum of squares of independent standard normal numbers -/
theorem map_sumSq {n : ℕ} {Z : Fin n → Ω → ℝ} (hm : ∀ k, Measurable (Z k)) (hi : iIndepFun Z P)
    (hl : ∀ k, P.map (Z k) = gaussianReal 0 1) : P.map (fun ω => ∑ k, Z k ω ^ 2) = chiSq n := by
  have := (iIndepFun_iff_map_fun_eq_pi_map fun k => (hm k).aemeasurable).mp hi
  simp only [hl] at this
  unfold chiSq
  rw [← this, Measure.map_map (measurable_sumSq n) (measurable_pi_lambda _ hm)]
  rfl

/-- **C105, partial.** The full claim, that the interval reported for an observer covers the true inconsistency with probability
95%, is refuted by `C105_refuted_single`.  Proved: if the deviations of the votes from the true score plus the true bias are
independent normal numbers of standard deviation `σ`, and `v` is their root mean square, then the interval computed from `v`
covers `σ` with probability exactly 95%.  Missing: the code takes the standard deviation of the residues around estimated scores
and biases instead. -/
theorem C105_coverage_partial {ppf : Fl ℝ → Nat → Fl ℝ} {n : ℕ} (hn : n ≠ 0) {c d : ℝ} (h : QuantilesAt ppf n c d)
    {Z : Fin n → Ω → ℝ} (hm : ∀ k, Measurable (Z k)) (hi : iIndepFun Z P) (hl : ∀ k, P.map (Z k) = gaussianReal 0 1)
    (σ : ℝ) (hσ : 0 < σ) :
    P {ω | let v : ℝ := Real.sqrt ((∑ k, (σ * Z k ω) ^ 2) / n)
      Ci.inCi (.fin σ) (.fin v) (inconsistencyCi ppf n (.fin v)).1 (inconsistencyCi ppf n (.fin v)).2 = true}
      = ENNReal.ofReal (95 / 100) := by
  have hn0 : (0:ℝ) < n := by exact_mod_cast Nat.pos_of_ne_zero hn
  have hset : {ω | let v : ℝ := Real.sqrt ((∑ k, (σ * Z k ω) ^ 2) / n)
      Ci.inCi (.fin σ) (.fin v) (inconsistencyCi ppf n (.fin v)).1 (inconsistencyCi ppf n (.fin v)).2 = true}
      = (fun ω => ∑ k, Z k ω ^ 2) ⁻¹' Set.Icc c d := by
    ext ω
    have := (C105_ends hn h (Real.sqrt ((∑ k, (σ * Z k ω) ^ 2) / n)) (Real.sqrt_nonneg _)).2.2 σ hσ
    have hs : (n : ℝ) * Real.sqrt ((∑ k, (σ * Z k ω) ^ 2) / n) ^ 2 / σ ^ 2 = ∑ k, Z k ω ^ 2 := by
      rw [Real.sq_sqrt (div_nonneg (Finset.sum_nonneg fun k _ => sq_nonneg _) hn0.le)]
      simp only [mul_pow]
      rw [← Finset.mul_sum]
      field_simp
    rw [hs] at this
    exact this
  have hmeas : Measurable fun ω => ∑ k, Z k ω ^ 2 := Finset.measurable_sum _ fun k _ => (hm k).pow_const 2
  rw [hset, ← Measure.map_apply hmeas measurableSet_Icc, map_sumSq hm hi hl]
  rw [(between hn (by norm_num) (by norm_num) h.2.2.1 h.2.2.2).2]
  norm_num

/-- **C105.** The standard deviation of the deviations, which the code uses, is at most their root mean square; so, even with the true
scores and biases, the interval lies entirely below the true inconsistency with probability at least 2.5%. -/
theorem C105_below {ppf : Fl ℝ → Nat → Fl ℝ} {n : ℕ} (hn : n ≠ 0) {c d : ℝ} (h : QuantilesAt ppf n c d)
    {Z : Fin n → Ω → ℝ} (hm : ∀ k, Measurable (Z k)) (hi : iIndepFun Z P) (hl : ∀ k, P.map (Z k) = gaussianReal 0 1)
    (σ : ℝ) (hσ : 0 < σ) :
    ENNReal.ofReal (25 / 1000) ≤ P {ω | ∃ v u : ℝ, Np.nanstd 0 (List.ofFn fun k => Fl.fin (σ * Z k ω)) = .fin v ∧
      .fin v + (inconsistencyCi ppf n (.fin v)).2 = .fin u ∧ u ≤ σ} := by
  have hn0 : (0:ℝ) < n := by exact_mod_cast Nat.pos_of_ne_zero hn
  have hc := quantile_pos hn (by norm_num) h.2.2.1
  have hmeas : Measurable fun ω => ∑ k, Z k ω ^ 2 := Finset.measurable_sum _ fun k _ => (hm k).pow_const 2
  have h1 : P ((fun ω => ∑ k, Z k ω ^ 2) ⁻¹' Set.Iic c) = ENNReal.ofReal (25 / 1000) := by
    rw [← Measure.map_apply hmeas measurableSet_Iic, map_sumSq hm hi hl, h.2.2.1]
    norm_num
  rw [← h1]
  refine measure_mono fun ω hω => ?_
  have hω : ∑ k, Z k ω ^ 2 ≤ c := hω
  have hclean : Np.Clean (List.ofFn fun k => Fl.fin (σ * Z k ω)) := Np.clean_ofFn.mpr fun k => Or.inr ⟨_, rfl⟩
  have hpres : ((present (List.ofFn fun k => Fl.fin (σ * Z k ω)) : List ℝ) : Multiset ℝ)
      = (Finset.univ : Finset (Fin n)).val.map fun k => σ * Z k ω := by
    have : present (List.ofFn fun k => Fl.fin (σ * Z k ω)) = List.ofFn fun k => σ * Z k ω := by
      unfold present
      rw [List.ofFn_eq_map, List.filterMap_map, List.ofFn_eq_map]
      exact congrFun List.filterMap_eq_map' _
    rw [this, List.ofFn_eq_map]
    rfl
  have hstd := nanstd0_of_coe hclean hpres
  have hne : (Finset.univ : Finset (Fin n)).Nonempty := ⟨⟨0, Nat.pos_of_ne_zero hn⟩, Finset.mem_univ _⟩
  rw [decide_eq_true hne] at hstd
  have hsn : 0 ≤ spread Finset.univ (fun k => σ * Z k ω) := Real.sqrt_nonneg _
  refine ⟨_, _, hstd, (C105_ends hn h _ hsn).2.1, ?_⟩
  generalize hA : avg Finset.univ (fun k => σ * Z k ω) = A
  have hsq : spread Finset.univ (fun k => σ * Z k ω) ^ 2 ≤ σ ^ 2 * c / n := by
    unfold spread
    rw [hA]
    unfold avg
    rw [Real.sq_sqrt (div_nonneg (Finset.sum_nonneg fun k _ => sq_nonneg _) (Nat.cast_nonneg _))]
    rw [Finset.card_univ, Fintype.card_fin]
    refine div_le_div_of_nonneg_right ?_ hn0.le
    have hsum : ∑ k, σ * Z k ω = n * A := by
      rw [← hA]; unfold avg
      rw [Finset.card_univ, Fintype.card_fin]
      field_simp
    have : ∑ k, (σ * Z k ω - A) ^ 2 = σ ^ 2 * (∑ k, Z k ω ^ 2) - n * A ^ 2 := by
      have e : ∀ k, (σ * Z k ω - A) ^ 2 = σ ^ 2 * Z k ω ^ 2 - 2 * A * (σ * Z k ω) + A ^ 2 := fun k => by ring
      simp only [e]
      rw [Finset.sum_add_distrib, Finset.sum_sub_distrib, ← Finset.mul_sum, ← Finset.mul_sum, hsum, Finset.sum_const, Finset.card_univ,
        Fintype.card_fin, nsmul_eq_mul]
      ring
    rw [this]
    have h2 : σ ^ 2 * (∑ k, Z k ω ^ 2) ≤ σ ^ 2 * c := mul_le_mul_of_nonneg_left hω (sq_nonneg σ)
    have h3 : 0 ≤ (n : ℝ) * A ^ 2 := by positivity
    linarith
  rw [← sq_le_sq₀ (mul_nonneg hsn (Real.sqrt_nonneg _)) hσ.le, mul_pow, Real.sq_sqrt (by positivity : (0:ℝ) ≤ n / c)]
  calc spread Finset.univ (fun k => σ * Z k ω) ^ 2 * (n / c) ≤ σ ^ 2 * c / n * (n / c) :=
        mul_le_mul_of_nonneg_right hsq (by positivity)
    _ = σ ^ 2 := by field_simp

/-- **C105, refuted.** For an observer with a single vote the projection solver reports the inconsistency 0 with the interval from 0
to 0, which covers no positive number. -/
theorem C105_refuted_single {J I R : ℕ} (x : Arr3 (Fl ℝ) J I R) (hc : ∀ j i r, NumOrNan (x j i r)) (f : Ap.Fit ℝ J I) (hf : Ap.fit x = .ok f)
    (i : Fin I) (h1 : cnt x i = 1) {ppf : Fl ℝ → Nat → Fl ℝ} {c d : ℝ} (h : QuantilesAt ppf 1 c d) :
    f.vi i = .fin 0 ∧ inconsistencyCi ppf (cnt x i) (f.vi i) = (.fin 0, .fin 0) ∧
    ∀ σ : ℝ, 0 < σ → Ci.inCi (.fin σ) (f.vi i) (inconsistencyCi ppf (cnt x i) (f.vi i)).1 (inconsistencyCi ppf (cnt x i) (f.vi i)).2 = false := by
  have hv : f.vi i = .fin 0 := by
    obtain ⟨P, X, rfl⟩ : ∃ P X, x = Ap.maskX P X := ⟨_, _, exists_mask x hc⟩
    have hcard : (votesOfObserver P i).card = 1 := by
      rw [← h1, cnt]
      unfold Ap.maskX
      rw [Np.countNotNan_eq (mask_col_clean P _ i)]
      exact (length_of_coe (coe_present_col P _ i)).symm
    rcases Ap.fit_mask P X with ⟨_, h⟩ | ⟨_, k, S, B, _, h⟩
    · rw [h] at hf; cases hf
    · rw [h] at hf
      injection hf with hf
      rw [← hf, Ap.step_spec]
      obtain ⟨a, ha⟩ := Finset.card_eq_one.mp hcard
      have hne : (votesOfObserver P i).Nonempty := by rw [ha]; simp
      simp only [Ap.maskB, hne, decide_true, mask_true]
      congr 1
      unfold apSpread spread
      rw [ha]
      simp [avg]
  rw [hv, h1, ci_eq one_ne_zero h]
  simp only [mul_zero, true_and]
  intro σ hσ
  unfold Ci.inCi
  rw [Fl.fin_sub, Fl.fin_add, Fl.le_fin, Fl.le_fin]
  simp [hσ]

/-- **C105.** The interval of the bias reaches 1.95996 standard deviations to either side. -/
theorem C105_bias (s : ℝ) : biasCi (.fin s) = (.fin (195996 / 100000 * s), .fin (195996 / 100000 * s)) := by
  unfold biasCi ci95Factor Fl.dec
  rw [Fl.fin_mul]
  norm_num

/-- quantiles of the chi-square distribution exist -/
theorem exists_quantile (n : ℕ) {p : ℝ} (h0 : 0 < p) (h1 : p < 1) : ∃ c, IsQuantile (chiSq (n + 1)) p c := by
  have hna : NullSingletonClass (chiSq (n + 1)) := ⟨fun c => chiSq_singleton n c⟩
  have hcont : Continuous (cdf (chiSq (n + 1))) := by
    rw [continuous_iff_continuousAt]
    intro x
    rw [(monotone_cdf _).continuousAt_iff_leftLim_eq_rightLim, (cdf _).rightLim_eq]
    have := (cdf (chiSq (n + 1))).measure_singleton x
    rw [measure_cdf, measure_singleton] at this
    have h2 := ENNReal.ofReal_eq_zero.mp this.symm
    have h3 := (monotone_cdf (chiSq (n + 1))).leftLim_le (le_refl x)
    linarith
  obtain ⟨a, ha⟩ := ((tendsto_cdf_atBot (chiSq (n + 1))).eventually (gt_mem_nhds h0)).exists
  obtain ⟨b, hb⟩ := ((tendsto_cdf_atTop (chiSq (n + 1))).eventually (lt_mem_nhds h1)).exists
  obtain ⟨c, hc⟩ := mem_range_of_exists_le_of_exists_ge hcont ⟨a, ha.le⟩ ⟨b, hb.le⟩
  refine ⟨c, ?_⟩
  unfold IsQuantile
  rw [← hc, ofReal_cdf]

/-- the hypotheses of C105 can be met for every number of votes: a `ppf` with the quantiles, and independent normal numbers -/
example (n : ℕ) : ∃ (ppf : Fl ℝ → Nat → Fl ℝ) (c d : ℝ), QuantilesAt ppf (n + 1) c d := by
  obtain ⟨c, hc⟩ := exists_quantile n (p := 1 / 40) (by norm_num) (by norm_num)
  obtain ⟨d, hd⟩ := exists_quantile n (p := 39 / 40) (by norm_num) (by norm_num)
  classical
  refine ⟨fun p _ => if p = .fin (1 / 40) then .fin c else .fin d, c, d, if_pos rfl, if_neg ?_, hc, hd⟩
  intro h
  have := Fl.fin.inj h
  norm_num at this

example (n : ℕ) : ∃ (P : Measure (Fin n → ℝ)) (_ : IsProbabilityMeasure P) (Z : Fin n → (Fin n → ℝ) → ℝ),
    (∀ k, Measurable (Z k)) ∧ iIndepFun Z P ∧ ∀ k, P.map (Z k) = gaussianReal 0 1 := by
  refine ⟨Measure.pi fun _ => gaussianReal 0 1, inferInstance, fun k z => z k, fun k => measurable_pi_apply k, ?_, fun k => ?_⟩
  · exact iIndepFun_pi (X := fun _ x => x) fun k => measurable_id.aemeasurable
  · exact (measurePreserving_eval (fun _ : Fin n => gaussianReal 0 1) k).map_eq

/-- an observer with one vote in a run that succeeds: the second observer of the array of the examples -/
example : ∃ f, Ap.fit exArr = .ok f ∧ cnt exArr 1 = 1 := by
  obtain ⟨res, hr⟩ := (C27_succeeds_iff Ap.sStd (arrReader 2 2 1 exArr) (by unfold ObserversHarmless arrReader; simp) ⟨2, 2, 1, exArr⟩ rfl
    exArr_clean none).1 (fun j => by
      dsimp only at j
      fin_cases j
      · exact ⟨0, 0, 1, rfl⟩
      · exact ⟨0, 0, 4, rfl⟩)
  obtain ⟨p, f, hp, hf, -⟩ := ap_run hr
  rw [show preprocess (arrReader 2 2 1 exArr) { forceSubjbiasZeromean := none } = _ from preprocess_default rfl] at hp
  cases hp
  refine ⟨f, hf, ?_⟩
  have hperm := colL_stack0_perm exArr 1
  unfold cnt
  rw [Np.countNotNan_eq (Np.Clean.perm hperm.symm fun x hx => by
    obtain ⟨e, r, rfl⟩ := (mem_observerCells _ _ _).mp hx
    exact exArr_clean e 1 r), (Np.present_perm hperm).length_eq]
  rfl

end Sureal.Props
