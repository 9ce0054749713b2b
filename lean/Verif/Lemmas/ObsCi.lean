import Verif.Spec.ObsCi
import Verif.Model.ObsCi
import Verif.Lemmas.Ap
import Mathlib.MeasureTheory.Constructions.Pi
/-! Lemmas on the intervals of the observers. -/
namespace Sureal.ObsCi
open MeasureTheory ProbabilityTheory Spec

theorem measurable_sumSq (n : ℕ) : Measurable fun z : Fin n → ℝ => ∑ k, z k ^ 2 :=
  Finset.measurable_sum _ fun k _ => (measurable_pi_apply k).pow_const 2

instance (n : ℕ) : IsProbabilityMeasure (chiSq n) :=
  Measure.isProbabilityMeasure_map (measurable_sumSq n).aemeasurable

theorem gaussian_pair (a : ℝ) : gaussianReal 0 1 {x | x ^ 2 = a} = 0 := by
  have : NullMeasurableSet {x : ℝ | x ^ 2 = a} := by measurability
  have hac : gaussianReal 0 1 ≪ volume := gaussianReal_absolutelyContinuous 0 (by norm_num)
  apply hac
  have hs : {x : ℝ | x ^ 2 = a} ⊆ {Real.sqrt a, -Real.sqrt a} := by
    intro x hx
    have hx : x ^ 2 = a := hx
    have : a = Real.sqrt a ^ 2 := (Real.sq_sqrt (by rw [← hx]; positivity)).symm
    rw [this] at hx
    rcases sq_eq_sq_iff_eq_or_eq_neg.mp hx with h | h
    · exact Or.inl h
    · exact Or.inr h
  exact (Set.Finite.subset (by simp) hs).measure_zero volume

/-- the distribution has no atoms -/
theorem chiSq_singleton (n : ℕ) (c : ℝ) : chiSq (n + 1) {c} = 0 := by
  unfold chiSq
  rw [Measure.map_apply (measurable_sumSq _) (measurableSet_singleton c)]
  have hmp := measurePreserving_piFinSuccAbove (fun _ : Fin (n + 1) => gaussianReal 0 1) 0
  have hset : ((fun z : Fin (n + 1) → ℝ => ∑ k, z k ^ 2) ⁻¹' {c})
      = (MeasurableEquiv.piFinSuccAbove (fun _ => ℝ) 0) ⁻¹' {p : ℝ × (Fin n → ℝ) | p.1 ^ 2 + ∑ k, p.2 k ^ 2 = c} := by
    ext z
    simp [Fin.sum_univ_succ, MeasurableEquiv.piFinSuccAbove, Fin.insertNthEquiv, Fin.tail]
  have hm : MeasurableSet {p : ℝ × (Fin n → ℝ) | p.1 ^ 2 + ∑ k, p.2 k ^ 2 = c} :=
    measurableSet_eq_fun ((measurable_fst.pow_const 2).add ((measurable_sumSq n).comp measurable_snd)) measurable_const
  rw [hset, hmp.measure_preimage hm.nullMeasurableSet, Measure.prod_apply_symm hm]
  refine (lintegral_eq_zero_iff' ?_).mpr ?_
  · exact (measurable_measure_prodMk_right hm).aemeasurable
  · refine Filter.Eventually.of_forall fun y => ?_
    have : (fun x : ℝ => (x, y)) ⁻¹' {p : ℝ × (Fin n → ℝ) | p.1 ^ 2 + ∑ k, p.2 k ^ 2 = c} = {x | x ^ 2 = c - ∑ k, y k ^ 2} := by
      ext x
      simp only [Set.mem_preimage, Set.mem_ofPred_eq]
      constructor <;> intro h <;> linarith
    change gaussianReal 0 1 ((fun x : ℝ => (x, y)) ⁻¹' _) = 0
    rw [this]
    exact gaussian_pair _

theorem chiSq_neg (n : ℕ) {c : ℝ} (hc : c < 0) : chiSq n (Set.Iic c) = 0 := by
  unfold chiSq
  rw [Measure.map_apply (measurable_sumSq _) measurableSet_Iic]
  have : ((fun z : Fin n → ℝ => ∑ k, z k ^ 2) ⁻¹' Set.Iic c) = ∅ := by
    ext z
    simp only [Set.mem_preimage, Set.mem_Iic, Set.mem_empty_iff_false, iff_false, not_le]
    exact lt_of_lt_of_le hc (Finset.sum_nonneg fun k _ => sq_nonneg _)
  rw [this, measure_empty]

/-- quantiles are positive -/
theorem quantile_pos {n : ℕ} (hn : n ≠ 0) {p c : ℝ} (hp : 0 < p) (h : IsQuantile (chiSq n) p c) : 0 < c := by
  obtain ⟨m, rfl⟩ := Nat.exists_eq_succ_of_ne_zero hn
  by_contra hc
  have hc := not_lt.mp hc
  have h0 : chiSq (m + 1) (Set.Iic c) = 0 := by
    rcases lt_or_eq_of_le hc with hlt | rfl
    · exact chiSq_neg _ hlt
    · have hs : Set.Iic (0:ℝ) ⊆ Set.Iio 0 ∪ {0} := by
        intro x hx
        rcases lt_or_eq_of_le (Set.mem_Iic.mp hx) with h | h
        · exact Or.inl h
        · exact Or.inr h
      refine le_antisymm ((measure_mono hs).trans ((measure_union_le _ _).trans ?_)) zero_le
      rw [chiSq_singleton, add_zero]
      have : chiSq (m + 1) (Set.Iio 0) = 0 := by
        unfold chiSq
        rw [Measure.map_apply (measurable_sumSq _) measurableSet_Iio]
        have : ((fun z : Fin (m + 1) → ℝ => ∑ k, z k ^ 2) ⁻¹' Set.Iio 0) = ∅ := by
          ext z
          simp only [Set.mem_preimage, Set.mem_Iio, Set.mem_empty_iff_false, iff_false, not_lt]
          exact Finset.sum_nonneg fun k _ => sq_nonneg _
        rw [this, measure_empty]
      rw [this]
  unfold IsQuantile at h
  rw [h0] at h
  exact absurd h.symm (by simpa using hp)

/-- probability between two quantiles -/
theorem between {n : ℕ} (hn : n ≠ 0) {p q c d : ℝ} (hp : 0 ≤ p) (hpq : p < q) (h1 : IsQuantile (chiSq n) p c)
    (h2 : IsQuantile (chiSq n) q d) : c < d ∧ chiSq n (Set.Icc c d) = ENNReal.ofReal (q - p) := by
  obtain ⟨m, rfl⟩ := Nat.exists_eq_succ_of_ne_zero hn
  have hcd : c < d := by
    by_contra h
    have := measure_mono (μ := chiSq (m + 1)) (Set.Iic_subset_Iic.mpr (not_lt.mp h))
    unfold IsQuantile at h1 h2
    rw [h1, h2, ENNReal.ofReal_le_ofReal_iff hp] at this
    linarith
  refine ⟨hcd, ?_⟩
  have h3 : chiSq (m + 1) (Set.Ioc c d) = ENNReal.ofReal (q - p) := by
    rw [← Set.Iic_sdiff_Iic, measure_sdiff (Set.Iic_subset_Iic.mpr hcd.le) measurableSet_Iic.nullMeasurableSet (measure_ne_top _ _)]
    unfold IsQuantile at h1 h2
    rw [h1, h2, ENNReal.ofReal_sub _ hp]
  rw [← h3, ← Set.Ioc_union_left hcd.le]
  refine le_antisymm ((measure_union_le _ _).trans ?_) (measure_mono Set.subset_union_left)
  rw [chiSq_singleton, add_zero]

end Sureal.ObsCi
