import Verif.Lemmas.Consistent
import Mathlib.Probability.StrongLaw
/-! The strong law of large numbers for functions of the noise of the observers. -/
set_option linter.unusedSectionVars false
namespace Sureal.Consistent
open Sureal Spec Props Ap Filter MeasureTheory ProbabilityTheory
open scoped Topology

variable {J R : ℕ} {Ω : Type*} [MeasurableSpace Ω] {P : Measure Ω} [IsProbabilityMeasure P] {N : ℕ → Ω → Fin J → Fin R → ℝ}

theorem slln (hi : Pairwise fun i k => IndepFun (N i) (N k) P) (hd : ∀ i, IdentDistrib (N i) (N 0) P P) {f : (Fin J → Fin R → ℝ) → ℝ}
    (hf : Measurable f) (hint : Integrable (fun ω => f (N 0 ω)) P) :
    ∀ᵐ ω ∂P, Tendsto (fun n : ℕ => (∑ i ∈ Finset.range n, f (N i ω)) / n) atTop (𝓝 (∫ ω, f (N 0 ω) ∂P)) :=
  strong_law_ae_real (fun i ω => f (N i ω)) hint (fun _ _ h => (hi h).comp hf hf) fun i => (hd i).comp hf

/-- what is odd has mean zero under a symmetric law -/
theorem odd_mean (hs : IdentDistrib (N 0) (fun ω => -N 0 ω) P P) {f : (Fin J → Fin R → ℝ) → ℝ} (hf : Measurable f) (ho : ∀ z, f (-z) = -f z) :
    ∫ ω, f (N 0 ω) ∂P = 0 := by
  have h := (hs.comp hf).integral_eq
  have h2 : ∫ ω, f (-N 0 ω) ∂P = -∫ ω, f (N 0 ω) ∂P := by
    rw [← integral_neg]
    exact integral_congr_ae (ae_of_all _ fun ω => ho _)
  have h3 : ∫ ω, f (N 0 ω) ∂P = ∫ ω, f (-N 0 ω) ∂P := h
  linarith

theorem wOf_neg (z : Fin J → Fin R → ℝ) : wOf (-z) 0 = wOf z 0 := by
  unfold wOf spread avg
  have h : ∀ c : Fin J × Fin R, (-z) c.1 c.2 - (0 : Fin J → ℝ) c.1 = -(z c.1 c.2 - (0 : Fin J → ℝ) c.1) := fun c => by simp
  simp only [h, Finset.sum_neg_distrib]
  congr 3
  refine Finset.sum_congr rfl fun c _ => ?_
  ring

theorem cOf_neg (z : Fin J → Fin R → ℝ) (j : Fin J) : cOf (-z) j = -cOf z j := by
  unfold cOf
  simp only [Pi.neg_apply, Finset.sum_neg_distrib]
  ring

theorem measurable_cOf (j : Fin J) : Measurable fun z : Fin J → Fin R → ℝ => cOf z j := by
  unfold cOf
  fun_prop

theorem measurable_tot : Measurable fun z : Fin J → Fin R → ℝ => tot z := by
  unfold tot
  fun_prop

theorem measurable_wOf : Measurable fun z : Fin J → Fin R → ℝ => wOf z 0 := by
  unfold wOf apWeight spread avg
  fun_prop

/-- **the strong law for the passes**: the noise goes away, whatever the number of passes -/
theorem dev_ae (hJ : 0 < J) (hR : 0 < R) (hi : Pairwise fun i k => IndepFun (N i) (N k) P) (hd : ∀ i, IdentDistrib (N i) (N 0) P P)
    (hs : IdentDistrib (N 0) (fun ω => -N 0 ω) P P) (h2 : ∀ j r, MemLp (fun ω => N 0 ω j r) 2 P) :
    ∀ᵐ ω ∂P, (∀ k j, Tendsto (fun n => dev (fun i => N i ω) n k j) atTop (𝓝 0)) ∧
      Tendsto (fun n : ℕ => (∑ i ∈ Finset.range n, (∑ j, ∑ r, N i ω j r) / (J * R : ℝ)) / n) atTop (𝓝 0) := by
  have hm : AEMeasurable (N 0) P := hs.aemeasurable_fst
  have ht2 : MemLp (fun ω => tot (N 0 ω)) 2 P := by
    unfold tot
    exact memLp_finsetSum _ fun j _ => memLp_finsetSum _ fun r _ => (h2 j r).abs
  have ht : Integrable (fun ω => tot (N 0 ω)) P := ht2.integrable (by norm_num)
  have hmc : ∀ j, AEStronglyMeasurable (fun ω => cOf (N 0 ω) j) P := fun j => ((measurable_cOf j).comp_aemeasurable hm).aestronglyMeasurable
  have hmw : AEStronglyMeasurable (fun ω => wOf (N 0 ω) 0) P := (measurable_wOf.comp_aemeasurable hm).aestronglyMeasurable
  have ic : ∀ j, Integrable (fun ω => cOf (N 0 ω) j) P := fun j =>
    (ht.const_mul 2).mono' (hmc j) (ae_of_all _ fun ω => by rw [Real.norm_eq_abs]; exact cOf_le hJ hR _ j)
  have iwc : ∀ j, Integrable (fun ω => wOf (N 0 ω) 0 * cOf (N 0 ω) j) P := fun j =>
    (ht.const_mul (100000000 * 2)).mono' (hmw.mul (hmc j)) (ae_of_all _ fun ω => by
      rw [Real.norm_eq_abs, abs_mul, abs_of_pos (wOf_pos _ _), mul_assoc]
      exact mul_le_mul (wOf_le _ _) (cOf_le hJ hR _ j) (abs_nonneg _) (by norm_num))
  have iw : Integrable (fun ω => wOf (N 0 ω) 0) P :=
    (integrable_const (100000000 : ℝ)).mono' hmw (ae_of_all _ fun ω => by rw [Real.norm_eq_abs, abs_of_pos (wOf_pos _ _)]; exact wOf_le _ _)
  have isq : Integrable (fun ω => (1 + tot (N 0 ω)) ^ 2) P := ((memLp_const (1 : ℝ)).add ht2).integrable_sq
  have in1 : ∀ j r, Integrable (fun ω => N 0 ω j r) P := fun j r => (h2 j r).integrable (by norm_num)
  have im : Integrable (fun ω => (∑ j, ∑ r, N 0 ω j r) / (J * R : ℝ)) P :=
    (integrable_finsetSum _ fun j _ => integrable_finsetSum _ fun r _ => in1 j r).div_const _
  have hwpos : 0 < ∫ ω, wOf (N 0 ω) 0 ∂P := by
    rw [integral_pos_iff_support_of_nonneg (fun ω => (wOf_pos _ _).le) iw]
    have : Function.support (fun ω => wOf (N 0 ω) 0) = Set.univ := Set.eq_univ_of_forall fun ω => (wOf_pos _ _).ne'
    rw [this, measure_univ]
    exact one_pos
  have A := ae_all_iff.mpr fun j => slln hi hd (measurable_cOf j) (ic j)
  have B := ae_all_iff.mpr fun j => slln hi hd (f := fun z => wOf z 0 * cOf z j) (measurable_wOf.mul (measurable_cOf j)) (iwc j)
  have C := slln hi hd measurable_wOf iw
  have D := slln hi hd (f := fun z => (1 + tot z) ^ 2) ((measurable_const.add measurable_tot).pow_const 2) isq
  have G := slln hi hd (f := fun z => (∑ j, ∑ r, z j r) / (J * R : ℝ)) (by fun_prop) im
  filter_upwards [A, B, C, D, G] with ω a b c d g
  refine ⟨fun k j => dev_limit hJ hR hwpos (fun j => ?_) (fun j => ?_) c d k j, ?_⟩
  · rw [← odd_mean hs (measurable_cOf j) fun z => cOf_neg z j]
    exact a j
  · rw [← odd_mean hs (f := fun z => wOf z 0 * cOf z j) (measurable_wOf.mul (measurable_cOf j)) fun z => by rw [wOf_neg, cOf_neg, mul_neg]]
    exact b j
  · rw [← odd_mean hs (f := fun z => (∑ j, ∑ r, z j r) / (J * R : ℝ)) (by fun_prop) fun z => by
      simp only [Pi.neg_apply, Finset.sum_neg_distrib, neg_div]]
    exact g

end Sureal.Consistent
