import Verif.Lemmas.Ap
import Verif.Spec.ApLik
import Mathlib.Topology.Algebra.InfiniteSum.Real
import Mathlib.Topology.ClusterPt
import Mathlib.Analysis.Normed.Group.Constructions
import Mathlib.Topology.MetricSpace.ProperSpace.Real
/-! Lemmas: a pass of the alternating projection lowers the cost by at least the weighted squared change. -/
set_option linter.unusedSectionVars false
namespace Sureal
namespace Ap
open Spec
variable {J I R : ℕ} (P : Fin J → Fin I → Fin R → Bool) (X : Fin J → Fin I → Fin R → ℝ)

theorem sum_observers (f : Fin J → Fin I → Fin R → ℝ) :
    ∑ i, ∑ c ∈ votesOfObserver P i, f c.1 i c.2 = ∑ j, ∑ c ∈ votesOnVideo P j, f j c.1 c.2 := by
  unfold votesOfObserver votesOnVideo
  simp only [Finset.sum_filter]
  simp only [← Finset.univ_product_univ, Finset.sum_product]
  rw [Finset.sum_comm]

theorem sum_eq_card_avg {ι : Type} (A : Finset ι) (f : ι → ℝ) : ∑ c ∈ A, f c = (A.card : ℝ) * avg A f := by
  unfold avg
  rcases A.eq_empty_or_nonempty with h | h
  · simp [h]
  · have : (A.card : ℝ) ≠ 0 := by simpa using h.ne_empty
    field_simp

theorem apMeanSq_nonneg (S : Fin J → ℝ) (B : Fin I → ℝ) (i : Fin I) : 0 ≤ apMeanSq P X S B i := by
  unfold apMeanSq avg
  exact div_nonneg (Finset.sum_nonneg fun c _ => sq_nonneg _) (Nat.cast_nonneg _)

theorem var_pos (S : Fin J → ℝ) (B : Fin I → ℝ) (i : Fin I) : 0 < apMeanSq P X S B i + 1 / 100000000 := by
  have := apMeanSq_nonneg P X S B i
  positivity

/-- against their own mean the spread of the residuals is their mean square -/
theorem spread_sq (S : Fin J → ℝ) (i : Fin I) :
    apSpread P X S (apBias P X S) i ^ 2 = apMeanSq P X S (apBias P X S) i := by
  unfold apSpread spread
  rw [Real.sq_sqrt]
  · unfold apMeanSq
    rcases (votesOfObserver P i).eq_empty_or_nonempty with h | h
    · simp [avg, h]
    · have hz : avg (votesOfObserver P i) (fun c => X c.1 i c.2 - S c.1 - apBias P X S i) = 0 := by
        have hc : ((votesOfObserver P i).card : ℝ) ≠ 0 := by simpa using h.ne_empty
        unfold avg
        rw [Finset.sum_sub_distrib, Finset.sum_const, nsmul_eq_mul]
        rw [sum_eq_card_avg]
        unfold apBias
        simp
      simp only [hz, sub_zero]
  · unfold avg
    exact div_nonneg (Finset.sum_nonneg fun c _ => sq_nonneg _) (Nat.cast_nonneg _)

theorem weight_eq (S : Fin J → ℝ) (i : Fin I) :
    apWeight (apSpread P X S (apBias P X S) i) = 1 / (apMeanSq P X S (apBias P X S) i + 1 / 100000000) := by
  unfold apWeight
  rw [spread_sq]

/-- the sum of weighted squares against the weighted mean -/
theorem wavg_sq {ι : Type} (A : Finset ι) (w f : ι → ℝ) (hw : ∑ c ∈ A, w c ≠ 0) (s : ℝ) :
    ∑ c ∈ A, w c * (f c - s) ^ 2 = ∑ c ∈ A, w c * (f c - wavg A w f) ^ 2 + (∑ c ∈ A, w c) * (s - wavg A w f) ^ 2 := by
  set m := wavg A w f with hm
  have h0 : ∑ c ∈ A, w c * (f c - m) = 0 := by
    have h1 : ∑ c ∈ A, f c * w c = m * ∑ c ∈ A, w c := by
      rw [hm]; unfold wavg; field_simp
    simp only [mul_sub, Finset.sum_sub_distrib, ← Finset.sum_mul]
    rw [show ∑ c ∈ A, w c * f c = ∑ c ∈ A, f c * w c from Finset.sum_congr rfl fun c _ => mul_comm _ _, h1]
    ring
  have h2 : ∀ c, w c * (f c - s) ^ 2 = w c * (f c - m) ^ 2 + w c * (s - m) ^ 2 - 2 * (s - m) * (w c * (f c - m)) := by
    intro c; ring
  simp only [h2, Finset.sum_sub_distrib, Finset.sum_add_distrib, ← Finset.sum_mul, ← Finset.mul_sum, h0]
  ring

theorem avg_sq_le {ι : Type} (A : Finset ι) (f : ι → ℝ) (s : ℝ) :
    ∑ c ∈ A, (f c - avg A f) ^ 2 ≤ ∑ c ∈ A, (f c - s) ^ 2 := by
  rcases A.eq_empty_or_nonempty with h | h
  · simp [h]
  · have hc : (A.card : ℝ) ≠ 0 := by simpa using h.ne_empty
    have hw := wavg_sq A (fun _ => 1) f (by simpa using hc) s
    have hwa : wavg A (fun _ => 1) f = avg A f := by simp [wavg, avg]
    rw [hwa] at hw
    simp only [one_mul] at hw
    rw [hw]
    have : (0:ℝ) ≤ (∑ _c ∈ A, (1:ℝ)) * (s - avg A f) ^ 2 := by
      apply mul_nonneg _ (sq_nonneg _)
      simp
    linarith

/-- the logarithm lies below its tangent -/
theorem log_tangent {t t' : ℝ} (ht : 0 < t) (ht' : 0 < t') : Real.log t' ≤ Real.log t + (t' - t) / t := by
  have h := Real.log_le_sub_one_of_pos (div_pos ht' ht)
  rw [Real.log_div ht'.ne' ht.ne'] at h
  have : (t' - t) / t = t' / t - 1 := by field_simp
  linarith

/-- the total weight of the votes on a video -/
noncomputable def totalWeight (V : Fin I → ℝ) (j : Fin J) : ℝ := ∑ c ∈ votesOnVideo P j, apWeight (V c.1)

theorem totalWeight_pos (V : Fin I → ℝ) (j : Fin J) (hv : (votesOnVideo P j).Nonempty) : 0 < totalWeight P V j :=
  Finset.sum_pos (fun _ _ => apWeight_pos _) hv

/-- A pass lowers the cost. -/
theorem pass_cost (hv : ∀ j, (votesOnVideo P j).Nonempty) (S : Fin J → ℝ) :
    apCost P X (apQuality P X (apBias P X S) (apSpread P X S (apBias P X S)))
        (apBias P X (apQuality P X (apBias P X S) (apSpread P X S (apBias P X S))))
      + ∑ j, totalWeight P (apSpread P X S (apBias P X S)) j
          * (S j - apQuality P X (apBias P X S) (apSpread P X S (apBias P X S)) j) ^ 2
      ≤ apCost P X S (apBias P X S) := by
  set B := apBias P X S with hB
  set V := apSpread P X S B with hV
  set S' := apQuality P X B V with hS'
  set B' := apBias P X S' with hB'
  -- the tangent at the old variances
  have h1 : apCost P X S' B' ≤ apCost P X S B
      + ∑ i, apWeight (V i) * (∑ c ∈ votesOfObserver P i, (X c.1 i c.2 - S' c.1 - B' i) ^ 2
        - ∑ c ∈ votesOfObserver P i, (X c.1 i c.2 - S c.1 - B i) ^ 2) := by
    unfold apCost
    rw [← Finset.sum_add_distrib]
    apply Finset.sum_le_sum
    intro i _
    have ht := log_tangent (var_pos P X S B i) (var_pos P X S' B' i)
    have h2 := mul_le_mul_of_nonneg_left ht (Nat.cast_nonneg (α := ℝ) (votesOfObserver P i).card)
    refine h2.trans (le_of_eq ?_)
    rw [sum_eq_card_avg, sum_eq_card_avg]
    rw [hV, hB, weight_eq, ← hB]
    unfold apMeanSq
    ring
  -- the new biases are the best for the new scores
  have h2 : ∑ i, apWeight (V i) * (∑ c ∈ votesOfObserver P i, (X c.1 i c.2 - S' c.1 - B' i) ^ 2)
      ≤ ∑ i, apWeight (V i) * (∑ c ∈ votesOfObserver P i, (X c.1 i c.2 - S' c.1 - B i) ^ 2) := by
    apply Finset.sum_le_sum
    intro i _
    apply mul_le_mul_of_nonneg_left _ (apWeight_pos _).le
    exact avg_sq_le (votesOfObserver P i) (fun c => X c.1 i c.2 - S' c.1) (B i)
  -- the new scores are the best for the old biases and weights
  have h3 : ∀ T : Fin J → ℝ, ∑ i, apWeight (V i) * (∑ c ∈ votesOfObserver P i, (X c.1 i c.2 - T c.1 - B i) ^ 2)
      = ∑ j, ∑ c ∈ votesOnVideo P j, apWeight (V c.1) * ((X j c.1 c.2 - B c.1) - T j) ^ 2 := by
    intro T
    have h := sum_observers P fun j i r => apWeight (V i) * (X j i r - T j - B i) ^ 2
    simp only [Finset.mul_sum]
    rw [h]
    refine Finset.sum_congr rfl fun j _ => Finset.sum_congr rfl fun c _ => ?_
    ring
  have h4 : ∑ j, ∑ c ∈ votesOnVideo P j, apWeight (V c.1) * ((X j c.1 c.2 - B c.1) - S j) ^ 2
      = ∑ j, ∑ c ∈ votesOnVideo P j, apWeight (V c.1) * ((X j c.1 c.2 - B c.1) - S' j) ^ 2
        + ∑ j, totalWeight P V j * (S j - S' j) ^ 2 := by
    rw [← Finset.sum_add_distrib]
    refine Finset.sum_congr rfl fun j _ => ?_
    exact wavg_sq (votesOnVideo P j) (fun c => apWeight (V c.1)) (fun c => X j c.1 c.2 - B c.1)
      (totalWeight_pos P V j (hv j)).ne' (S j)
  simp only [mul_sub, Finset.sum_sub_distrib] at h1
  have h3S := h3 S
  have h3S' := h3 S'
  linarith

/-! ## bounds -/

theorem totalVotes_log_le (S : Fin J → ℝ) (B : Fin I → ℝ) :
    (totalVotes P : ℝ) * Real.log (1 / 100000000) ≤ apCost P X S B := by
  unfold totalVotes apCost
  push_cast
  rw [Finset.sum_mul]
  apply Finset.sum_le_sum
  intro i _
  apply mul_le_mul_of_nonneg_left _ (Nat.cast_nonneg _)
  apply Real.log_le_log (by norm_num)
  linarith [apMeanSq_nonneg P X S B i]

/-- how far the cost may fall -/
noncomputable def slack (S : Fin J → ℝ) (B : Fin I → ℝ) : ℝ :=
  apCost P X S B - (totalVotes P : ℝ) * Real.log (1 / 100000000)

theorem slack_nonneg (S : Fin J → ℝ) (B : Fin I → ℝ) : 0 ≤ slack P X S B := by
  unfold slack; linarith [totalVotes_log_le P X S B]

/-- the variances are bounded by the cost -/
theorem var_le (S : Fin J → ℝ) (B : Fin I → ℝ) (i : Fin I) (hi : (votesOfObserver P i).Nonempty) :
    apMeanSq P X S B i + 1 / 100000000 ≤ 1 / 100000000 * Real.exp (slack P X S B) := by
  have h1 : Real.log (apMeanSq P X S B i + 1 / 100000000) - Real.log (1 / 100000000) ≤ slack P X S B := by
    have h2 : slack P X S B = ∑ i, ((votesOfObserver P i).card : ℝ)
        * (Real.log (apMeanSq P X S B i + 1 / 100000000) - Real.log (1 / 100000000)) := by
      unfold slack apCost totalVotes
      push_cast
      rw [Finset.sum_mul, ← Finset.sum_sub_distrib]
      exact Finset.sum_congr rfl fun i _ => by ring
    have h3 : ∀ i, 0 ≤ Real.log (apMeanSq P X S B i + 1 / 100000000) - Real.log (1 / 100000000) := by
      intro i
      have := Real.log_le_log (x := 1 / 100000000) (by norm_num)
        (le_add_of_nonneg_left (apMeanSq_nonneg P X S B i) : (1:ℝ) / 100000000 ≤ apMeanSq P X S B i + 1 / 100000000)
      linarith
    have hc : (1 : ℝ) ≤ (votesOfObserver P i).card := by exact_mod_cast Finset.card_pos.mpr hi
    calc _ ≤ ((votesOfObserver P i).card : ℝ)
          * (Real.log (apMeanSq P X S B i + 1 / 100000000) - Real.log (1 / 100000000)) := by nlinarith [h3 i]
      _ ≤ _ := by
          rw [h2]
          exact Finset.single_le_sum (f := fun i => ((votesOfObserver P i).card : ℝ)
            * (Real.log (apMeanSq P X S B i + 1 / 100000000) - Real.log (1 / 100000000)))
            (fun i _ => mul_nonneg (Nat.cast_nonneg _) (h3 i)) (Finset.mem_univ i)
  have hp := var_pos P X S B i
  have h4 : Real.log (apMeanSq P X S B i + 1 / 100000000) ≤ Real.log (1 / 100000000 * Real.exp (slack P X S B)) := by
    rw [Real.log_mul (by norm_num) (Real.exp_pos _).ne', Real.log_exp]
    linarith
  exact (Real.log_le_log_iff hp (by positivity)).mp h4

/-- the smallest weight possible below a given cost -/
noncomputable def minWeight (D : ℝ) : ℝ := 100000000 * Real.exp (-D)

theorem minWeight_pos (D : ℝ) : 0 < minWeight D := by unfold minWeight; positivity

theorem minWeight_mul (D : ℝ) : minWeight D * (1 / 100000000 * Real.exp D) = 1 := by
  unfold minWeight
  have h : Real.exp (-D) * Real.exp D = 1 := by rw [← Real.exp_add]; simp
  calc 100000000 * Real.exp (-D) * (1 / 100000000 * Real.exp D) = 100000000 * (1 / 100000000) * (Real.exp (-D) * Real.exp D) := by ring
    _ = 1 := by rw [h]; norm_num

theorem le_totalWeight (V : Fin I → ℝ) (j : Fin J) (c : Fin I × Fin R) (hc : c ∈ votesOnVideo P j) :
    apWeight (V c.1) ≤ totalWeight P V j := by
  unfold totalWeight
  exact Finset.single_le_sum (f := fun c : Fin I × Fin R => apWeight (V c.1)) (fun _ _ => (apWeight_pos _).le) hc

theorem minWeight_le (S : Fin J → ℝ) (j : Fin J) (hv : (votesOnVideo P j).Nonempty) {D : ℝ}
    (hD : slack P X S (apBias P X S) ≤ D) : minWeight D ≤ totalWeight P (apSpread P X S (apBias P X S)) j := by
  obtain ⟨⟨i, r⟩, hc⟩ := hv
  have hi : (votesOfObserver P i).Nonempty := by
    simp only [votesOnVideo, Finset.mem_filter, Finset.mem_univ, true_and] at hc
    exact voter_of hc
  have h1 := le_totalWeight P (apSpread P X S (apBias P X S)) j (i, r) hc
  dsimp only at h1
  refine le_trans ?_ h1
  rw [weight_eq]
  have h2 := var_le P X S (apBias P X S) i hi
  have h3 : apMeanSq P X S (apBias P X S) i + 1 / 100000000 ≤ 1 / 100000000 * Real.exp D :=
    h2.trans (mul_le_mul_of_nonneg_left (Real.exp_le_exp.mpr hD) (by norm_num))
  rw [le_div_iff₀ (var_pos P X S (apBias P X S) i)]
  calc minWeight D * (apMeanSq P X S (apBias P X S) i + 1 / 100000000)
      ≤ minWeight D * (1 / 100000000 * Real.exp D) := mul_le_mul_of_nonneg_left h3 (minWeight_pos D).le
    _ = 1 := minWeight_mul D

/-! ## the sequence of passes -/

/-- scores after a pass, from the scores before it -/
noncomputable def next (S : Fin J → ℝ) : Fin J → ℝ := apQuality P X (apBias P X S) (apSpread P X S (apBias P X S))

/-- the mean opinion scores -/
noncomputable def mos0 : Fin J → ℝ := fun j => avg (votesOnVideo P j) fun c => X j c.1 c.2

/-- scores after `k` passes -/
noncomputable def seq : ℕ → Fin J → ℝ
  | 0 => mos0 P X
  | k + 1 => next P X (seq k)

theorem next_cost (hv : ∀ j, (votesOnVideo P j).Nonempty) (S : Fin J → ℝ) :
    apCost P X (next P X S) (apBias P X (next P X S))
      + ∑ j, totalWeight P (apSpread P X S (apBias P X S)) j * (S j - next P X S j) ^ 2
      ≤ apCost P X S (apBias P X S) := pass_cost P X hv S

theorem next_cost_le (hv : ∀ j, (votesOnVideo P j).Nonempty) (S : Fin J → ℝ) :
    apCost P X (next P X S) (apBias P X (next P X S)) ≤ apCost P X S (apBias P X S) := by
  have h := next_cost P X hv S
  have : 0 ≤ ∑ j, totalWeight P (apSpread P X S (apBias P X S)) j * (S j - next P X S j) ^ 2 :=
    Finset.sum_nonneg fun j _ => mul_nonneg (totalWeight_pos P _ j (hv j)).le (sq_nonneg _)
  linarith

theorem next_cost_lt (hv : ∀ j, (votesOnVideo P j).Nonempty) (S : Fin J → ℝ) (hne : next P X S ≠ S) :
    apCost P X (next P X S) (apBias P X (next P X S)) < apCost P X S (apBias P X S) := by
  have h := next_cost P X hv S
  have : 0 < ∑ j, totalWeight P (apSpread P X S (apBias P X S)) j * (S j - next P X S j) ^ 2 := by
    obtain ⟨j, hj⟩ := Function.ne_iff.mp hne
    refine Finset.sum_pos' (fun j _ => mul_nonneg (totalWeight_pos P _ j (hv j)).le (sq_nonneg _)) ⟨j, Finset.mem_univ j, ?_⟩
    exact mul_pos (totalWeight_pos P _ j (hv j)) (by
      have : S j - next P X S j ≠ 0 := sub_ne_zero.mpr (Ne.symm hj)
      positivity)
  linarith

theorem seq_cost_anti (hv : ∀ j, (votesOnVideo P j).Nonempty) (k : ℕ) :
    apCost P X (seq P X k) (apBias P X (seq P X k)) ≤ apCost P X (mos0 P X) (apBias P X (mos0 P X)) := by
  induction k with
  | zero => exact le_refl _
  | succ k ih => exact (next_cost_le P X hv _).trans ih

/-- the slack at the start -/
noncomputable def slack0 : ℝ := slack P X (mos0 P X) (apBias P X (mos0 P X))

theorem seq_slack (hv : ∀ j, (votesOnVideo P j).Nonempty) (k : ℕ) :
    slack P X (seq P X k) (apBias P X (seq P X k)) ≤ slack0 P X := by
  unfold slack0 slack
  linarith [seq_cost_anti P X hv k]

/-- squared change of pass `k` -/
noncomputable def change (k : ℕ) : ℝ := ∑ j, (seq P X k j - seq P X (k + 1) j) ^ 2

theorem change_nonneg (k : ℕ) : 0 ≤ change P X k := Finset.sum_nonneg fun _ _ => sq_nonneg _

theorem change_le (hv : ∀ j, (votesOnVideo P j).Nonempty) (k : ℕ) :
    apCost P X (seq P X (k + 1)) (apBias P X (seq P X (k + 1))) + minWeight (slack0 P X) * change P X k
      ≤ apCost P X (seq P X k) (apBias P X (seq P X k)) := by
  have h := next_cost P X hv (seq P X k)
  have h2 : minWeight (slack0 P X) * change P X k
      ≤ ∑ j, totalWeight P (apSpread P X (seq P X k) (apBias P X (seq P X k))) j
        * (seq P X k j - next P X (seq P X k) j) ^ 2 := by
    unfold change
    rw [Finset.mul_sum]
    apply Finset.sum_le_sum
    intro j _
    exact mul_le_mul_of_nonneg_right (minWeight_le P X _ j (hv j) (seq_slack P X hv k)) (sq_nonneg _)
  show apCost P X (next P X (seq P X k)) (apBias P X (next P X (seq P X k))) + _ ≤ _
  linarith

/-- the squared changes of all passes together are bounded -/
theorem sum_change_le (hv : ∀ j, (votesOnVideo P j).Nonempty) (n : ℕ) :
    ∑ k ∈ Finset.range n, change P X k ≤ slack0 P X / minWeight (slack0 P X) := by
  rw [le_div_iff₀ (minWeight_pos _)]
  have h : apCost P X (seq P X n) (apBias P X (seq P X n)) + minWeight (slack0 P X) * ∑ k ∈ Finset.range n, change P X k
      ≤ apCost P X (mos0 P X) (apBias P X (mos0 P X)) := by
    induction n with
    | zero => simp; exact le_refl _
    | succ n ih =>
      rw [Finset.sum_range_succ, mul_add]
      linarith [change_le P X hv n]
  have h2 := totalVotes_log_le P X (seq P X n) (apBias P X (seq P X n))
  have h3 : slack0 P X = apCost P X (mos0 P X) (apBias P X (mos0 P X)) - (totalVotes P : ℝ) * Real.log (1 / 100000000) := rfl
  linarith

/-! ## shifting -/

theorem apMeanSq_shift (S : Fin J → ℝ) (B : Fin I → ℝ) (m : ℝ) (i : Fin I) :
    apMeanSq P X (fun j => S j + m) (fun i => B i - m) i = apMeanSq P X S B i := by
  unfold apMeanSq
  congr 1
  funext c
  ring

theorem apCost_shift (S : Fin J → ℝ) (B : Fin I → ℝ) (m : ℝ) :
    apCost P X (fun j => S j + m) (fun i => B i - m) = apCost P X S B := by
  unfold apCost
  simp only [apMeanSq_shift]

/-! ## stationary points -/

theorem hasDerivAt_cost_S (S : Fin J → ℝ) (B : Fin I → ℝ) (j : Fin J) :
    HasDerivAt (fun t => apCost P X (Function.update S j t) B)
      (-2 * ∑ c ∈ votesOnVideo P j, (X j c.1 c.2 - S j - B c.1) / (apMeanSq P X S B c.1 + 1 / 100000000)) (S j) := by
  have hm : ∀ i, HasDerivAt (fun t => apMeanSq P X (Function.update S j t) B i)
      ((∑ c ∈ votesOfObserver P i, if c.1 = j then -2 * (X c.1 i c.2 - S c.1 - B i) else 0)
        / ((votesOfObserver P i).card : ℝ)) (S j) := by
    intro i
    unfold apMeanSq avg
    apply HasDerivAt.div_const
    apply HasDerivAt.fun_sum
    intro c _
    by_cases hc : c.1 = j
    · rw [if_pos hc]
      have : (fun t => (X c.1 i c.2 - Function.update S j t c.1 - B i) ^ 2) = fun t => (X c.1 i c.2 - t - B i) ^ 2 := by
        funext t; rw [hc, Function.update_self]
      rw [this, hc]
      have h := (((hasDerivAt_id' (S j)).const_sub (X j i c.2)).sub_const (B i)).fun_pow 2
      simp only [Nat.cast_ofNat, Nat.add_one_sub_one, pow_one] at h
      exact h.congr_deriv (by ring)
    · rw [if_neg hc]
      have : (fun t => (X c.1 i c.2 - Function.update S j t c.1 - B i) ^ 2) = fun _ => (X c.1 i c.2 - S c.1 - B i) ^ 2 := by
        funext t; rw [Function.update_of_ne hc]
      rw [this]
      exact hasDerivAt_const _ _
  have hcost : HasDerivAt (fun t => apCost P X (Function.update S j t) B)
      (∑ i, ((votesOfObserver P i).card : ℝ) * (((∑ c ∈ votesOfObserver P i, if c.1 = j then -2 * (X c.1 i c.2 - S c.1 - B i) else 0)
        / ((votesOfObserver P i).card : ℝ)) / (apMeanSq P X S B i + 1 / 100000000))) (S j) := by
    unfold apCost
    apply HasDerivAt.fun_sum
    intro i _
    apply HasDerivAt.const_mul
    have h := (hm i).add_const (1 / 100000000)
    have h2 := h.log (by rw [Function.update_eq_self]; exact (var_pos P X S B i).ne')
    rw [Function.update_eq_self] at h2
    exact h2
  convert hcost using 1
  have h1 : ∀ i, ((votesOfObserver P i).card : ℝ) * (((∑ c ∈ votesOfObserver P i, if c.1 = j then -2 * (X c.1 i c.2 - S c.1 - B i) else 0)
        / ((votesOfObserver P i).card : ℝ)) / (apMeanSq P X S B i + 1 / 100000000))
      = ∑ c ∈ votesOfObserver P i, if c.1 = j then -2 * ((X c.1 i c.2 - S c.1 - B i) / (apMeanSq P X S B i + 1 / 100000000)) else 0 := by
    intro i
    rcases (votesOfObserver P i).eq_empty_or_nonempty with h | h
    · simp [h]
    · have hc : ((votesOfObserver P i).card : ℝ) ≠ 0 := by simpa using h.ne_empty
      have hp := (var_pos P X S B i).ne'
      rw [show ∀ a b c : ℝ, a * (b / a / c) = a / a * (b / c) from fun a b c => by ring, div_self hc, one_mul, Finset.sum_div]
      refine Finset.sum_congr rfl fun c _ => ?_
      split
      · ring
      · simp
  rw [Finset.sum_congr rfl fun i _ => h1 i]
  rw [sum_observers P fun j' i r => if j' = j then -2 * ((X j' i r - S j' - B i) / (apMeanSq P X S B i + 1 / 100000000)) else 0]
  rw [Finset.sum_eq_single j]
  · simp only [if_true, Finset.mul_sum]
  · intro j' _ hne
    simp [hne]
  · simp

theorem hasDerivAt_cost_B (S : Fin J → ℝ) (B : Fin I → ℝ) (i : Fin I) :
    HasDerivAt (fun t => apCost P X S (Function.update B i t))
      (-2 * (∑ c ∈ votesOfObserver P i, (X c.1 i c.2 - S c.1 - B i)) / (apMeanSq P X S B i + 1 / 100000000)) (B i) := by
  have hm : HasDerivAt (fun t => apMeanSq P X S (Function.update B i t) i)
      ((∑ c ∈ votesOfObserver P i, -2 * (X c.1 i c.2 - S c.1 - B i)) / ((votesOfObserver P i).card : ℝ)) (B i) := by
    unfold apMeanSq avg
    apply HasDerivAt.div_const
    apply HasDerivAt.fun_sum
    intro c _
    simp only [Function.update_self]
    have h := ((hasDerivAt_id' (B i)).const_sub (X c.1 i c.2 - S c.1)).fun_pow 2
    simp only [Nat.cast_ofNat, Nat.add_one_sub_one, pow_one] at h
    exact h.congr_deriv (by ring)
  have hcost : HasDerivAt (fun t => apCost P X S (Function.update B i t))
      (∑ i', if i' = i then ((votesOfObserver P i).card : ℝ) * (((∑ c ∈ votesOfObserver P i, -2 * (X c.1 i c.2 - S c.1 - B i))
        / ((votesOfObserver P i).card : ℝ)) / (apMeanSq P X S B i + 1 / 100000000)) else 0) (B i) := by
    unfold apCost
    apply HasDerivAt.fun_sum
    intro i' _
    by_cases hi : i' = i
    · subst hi
      rw [if_pos rfl]
      apply HasDerivAt.const_mul
      have h := hm.add_const (1 / 100000000)
      have h2 := h.log (by rw [Function.update_eq_self]; exact (var_pos P X S B i').ne')
      rw [Function.update_eq_self] at h2
      exact h2
    · rw [if_neg hi]
      have : (fun t => ((votesOfObserver P i').card : ℝ) * Real.log (apMeanSq P X S (Function.update B i t) i' + 1 / 100000000))
          = fun _ => ((votesOfObserver P i').card : ℝ) * Real.log (apMeanSq P X S B i' + 1 / 100000000) := by
        funext t
        unfold apMeanSq
        rw [Function.update_of_ne hi]
      rw [this]
      exact hasDerivAt_const _ _
  convert hcost using 1
  rw [Finset.sum_ite_eq' Finset.univ i, if_pos (Finset.mem_univ i)]
  rcases (votesOfObserver P i).eq_empty_or_nonempty with h | h
  · simp [h]
  · have hc : ((votesOfObserver P i).card : ℝ) ≠ 0 := by simpa using h.ne_empty
    rw [show ∀ a b c : ℝ, a * (b / a / c) = a / a * (b / c) from fun a b c => by ring, div_self hc, one_mul, ← Finset.mul_sum]

theorem avg_eq_iff {ι : Type} (A : Finset ι) (hA : A.Nonempty) (f : ι → ℝ) (b : ℝ) :
    ∑ c ∈ A, (f c - b) = 0 ↔ b = avg A f := by
  have hc : (A.card : ℝ) ≠ 0 := by simpa using hA.ne_empty
  rw [Finset.sum_sub_distrib, Finset.sum_const, nsmul_eq_mul]
  unfold avg
  rw [eq_div_iff hc]
  constructor <;> intro h <;> linarith

theorem wavg_eq_iff {ι : Type} (A : Finset ι) (w f : ι → ℝ) (hw : ∑ c ∈ A, w c ≠ 0) (s : ℝ) :
    ∑ c ∈ A, w c * (f c - s) = 0 ↔ s = wavg A w f := by
  simp only [mul_sub, Finset.sum_sub_distrib, ← Finset.sum_mul]
  unfold wavg
  rw [eq_div_iff hw, show ∑ c ∈ A, w c * f c = ∑ c ∈ A, f c * w c from Finset.sum_congr rfl fun c _ => mul_comm _ _]
  constructor <;> intro h <;> linarith

/-- the stationary points of the cost are the fixed points of a pass -/
theorem stationary_iff (hv : ∀ j, (votesOnVideo P j).Nonempty) (ho : ∀ i, (votesOfObserver P i).Nonempty)
    (S : Fin J → ℝ) (B : Fin I → ℝ) : ApStationary P X S B ↔ B = apBias P X S ∧ next P X S = S := by
  have hB : (∀ i, HasDerivAt (fun t => apCost P X S (Function.update B i t)) 0 (B i)) ↔ B = apBias P X S := by
    rw [funext_iff]
    refine forall_congr' fun i => ?_
    have hd := hasDerivAt_cost_B P X S B i
    have hp := (var_pos P X S B i).ne'
    rw [show (B i = apBias P X S i) ↔ _ from (avg_eq_iff (votesOfObserver P i) (ho i) (fun c => X c.1 i c.2 - S c.1) (B i)).symm]
    constructor
    · intro h0
      have h := hd.unique h0
      rw [div_eq_zero_iff] at h
      rcases h with h | h
      · linarith
      · exact absurd h hp
    · intro h0
      rw [h0] at hd
      simpa using hd
  unfold ApStationary
  rw [hB, and_comm]
  refine and_congr_right fun hBS => ?_
  subst hBS
  rw [funext_iff]
  refine forall_congr' fun j => ?_
  have hd := hasDerivAt_cost_S P X S (apBias P X S) j
  have hsum : ∑ c ∈ votesOnVideo P j, (X j c.1 c.2 - S j - apBias P X S c.1) / (apMeanSq P X S (apBias P X S) c.1 + 1 / 100000000)
      = ∑ c ∈ votesOnVideo P j, apWeight (apSpread P X S (apBias P X S) c.1) * ((X j c.1 c.2 - apBias P X S c.1) - S j) := by
    refine Finset.sum_congr rfl fun c _ => ?_
    rw [weight_eq]
    ring
  rw [hsum] at hd
  have hw := wavg_eq_iff (votesOnVideo P j) (fun c => apWeight (apSpread P X S (apBias P X S) c.1))
    (fun c => X j c.1 c.2 - apBias P X S c.1) (totalWeight_pos P (apSpread P X S (apBias P X S)) j (hv j)).ne' (S j)
  rw [eq_comm, show (S j = next P X S j) ↔ _ from hw.symm]
  constructor
  · intro h0
    have h := hd.unique h0
    linarith
  · intro h0
    rw [h0] at hd
    simpa using hd

/-! ## limit points -/

theorem continuous_avg {ι α : Type} [TopologicalSpace α] (A : Finset ι) (f : α → ι → ℝ) (hf : ∀ c, Continuous fun a => f a c) :
    Continuous fun a => avg A (f a) := by
  unfold avg
  exact (continuous_finsetSum _ fun c _ => hf c).div_const _

theorem continuous_apBias (i : Fin I) : Continuous fun S : Fin J → ℝ => apBias P X S i := by
  unfold apBias
  exact continuous_avg _ (fun (S : Fin J → ℝ) (c : Fin J × Fin R) => X c.1 i c.2 - S c.1) fun c => continuous_const.sub (continuous_apply _)

theorem continuous_meanSq (i : Fin I) : Continuous fun S : Fin J → ℝ => apMeanSq P X S (apBias P X S) i := by
  unfold apMeanSq
  refine continuous_avg _ (fun (S : Fin J → ℝ) (c : Fin J × Fin R) => (X c.1 i c.2 - S c.1 - apBias P X S i) ^ 2) fun c => ?_
  exact ((continuous_const.sub (continuous_apply _)).sub (continuous_apBias P X i)).pow 2

theorem continuous_next (hv : ∀ j, (votesOnVideo P j).Nonempty) : Continuous (next P X) := by
  refine continuous_pi fun j => ?_
  have hw : ∀ i, Continuous fun S : Fin J → ℝ => apWeight (apSpread P X S (apBias P X S) i) := by
    intro i
    simp only [weight_eq]
    exact continuous_const.div ((continuous_meanSq P X i).add continuous_const) fun S => (var_pos P X S _ i).ne'
  unfold next apQuality wavg
  refine Continuous.div ?_ ?_ fun S => (totalWeight_pos P (apSpread P X S (apBias P X S)) j (hv j)).ne'
  · exact continuous_finsetSum _ fun c _ => (continuous_const.sub (continuous_apBias P X c.1)).mul (hw c.1)
  · exact continuous_finsetSum _ fun c _ => hw c.1

theorem change_tendsto (hv : ∀ j, (votesOnVideo P j).Nonempty) : Filter.Tendsto (change P X) Filter.atTop (nhds 0) := by
  have hs : Summable (change P X) := summable_of_sum_range_le (change_nonneg P X) (sum_change_le P X hv)
  exact hs.tendsto_atTop_zero

theorem cluster_fixed (hv : ∀ j, (votesOnVideo P j).Nonempty) (S : Fin J → ℝ)
    (hS : MapClusterPt S Filter.atTop (seq P X)) : next P X S = S := by
  have hg : Continuous fun S : Fin J → ℝ => ∑ j, (S j - next P X S j) ^ 2 := by
    refine continuous_finsetSum _ fun j _ => Continuous.pow ?_ 2
    exact (continuous_apply j).sub ((continuous_apply j).comp (continuous_next P X hv))
  have h1 : MapClusterPt (∑ j, (S j - next P X S j) ^ 2) Filter.atTop (change P X) :=
    hS.continuousAt_comp (f := fun S : Fin J → ℝ => ∑ j, (S j - next P X S j) ^ 2) hg.continuousAt
  have h0 : (∑ j, (S j - next P X S j) ^ 2) = 0 := by
    have h2 : MapClusterPt (∑ j, (S j - next P X S j) ^ 2) Filter.atTop (change P X) := h1
    have h3 := change_tendsto P X hv
    have : ClusterPt (∑ j, (S j - next P X S j) ^ 2) (nhds 0) := ClusterPt.mono h2 h3
    exact eq_of_nhds_neBot (by rwa [ClusterPt] at this)
  funext j
  have := (Finset.sum_eq_zero_iff_of_nonneg (fun j _ => sq_nonneg (S j - next P X S j))).mp h0 j (Finset.mem_univ j)
  have h4 : S j - next P X S j = 0 := by simpa using this
  linarith

/-! ## complete data -/

theorem complete_videos (hP : ∀ j i r, P j i r = true) (j : Fin J) : votesOnVideo P j = Finset.univ := by
  ext c; simp [votesOnVideo, hP]

theorem complete_observers (hP : ∀ j i r, P j i r = true) (i : Fin I) : votesOfObserver P i = Finset.univ := by
  ext c; simp [votesOfObserver, hP]

/-- on complete data a pass keeps the sum of the scores -/
theorem sum_next (hP : ∀ j i r, P j i r = true) (hI : 0 < I) (hR : 0 < R) (S : Fin J → ℝ) :
    ∑ j, next P X S j = ∑ j, S j := by
  rcases Nat.eq_zero_or_pos J with hJ | hJ
  · subst hJ; simp
  have : NeZero I := ⟨hI.ne'⟩
  have : NeZero R := ⟨hR.ne'⟩
  set w : Fin I → ℝ := fun i => apWeight (apSpread P X S (apBias P X S) i) with hw
  have hW : ∀ j, totalWeight P (apSpread P X S (apBias P X S)) j = (R : ℝ) * ∑ i, w i := by
    intro j
    unfold totalWeight
    rw [complete_videos P hP, ← Finset.univ_product_univ, Finset.sum_product]
    simp only [Finset.sum_const, Finset.card_univ, Fintype.card_fin, nsmul_eq_mul, ← Finset.mul_sum]
    rfl
  have hWpos : 0 < (R : ℝ) * ∑ i, w i := by
    rw [← hW ⟨0, hJ⟩]
    refine totalWeight_pos P _ _ ?_
    rw [complete_videos P hP]
    exact Finset.univ_nonempty
  have hb : ∀ i, ∑ j, ∑ r, (X j i r - apBias P X S i) = (R : ℝ) * ∑ j, S j := by
    intro i
    have h1 : ∑ c ∈ votesOfObserver P i, ((X c.1 i c.2 - S c.1) - apBias P X S i) = 0 := by
      refine (avg_eq_iff (votesOfObserver P i) ?_ (fun c => X c.1 i c.2 - S c.1) (apBias P X S i)).mpr rfl
      rw [complete_observers P hP]
      exact ⟨(⟨0, hJ⟩, 0), Finset.mem_univ _⟩
    rw [complete_observers P hP, ← Finset.univ_product_univ, Finset.sum_product] at h1
    have h2 : ∑ j : Fin J, ∑ r : Fin R, ((X j i r - S j) - apBias P X S i)
        = ∑ j, ∑ r, (X j i r - apBias P X S i) - (R : ℝ) * ∑ j, S j := by
      rw [Finset.mul_sum, ← Finset.sum_sub_distrib]
      refine Finset.sum_congr rfl fun j _ => ?_
      have : (R : ℝ) * S j = ∑ _r : Fin R, S j := by simp
      rw [this, ← Finset.sum_sub_distrib]
      exact Finset.sum_congr rfl fun r _ => by ring
    dsimp only at h1
    rw [h2] at h1
    linarith
  have hn : ∀ j, next P X S j = (∑ i, ∑ r, (X j i r - apBias P X S i) * w i) / ((R : ℝ) * ∑ i, w i) := by
    intro j
    rw [← hW j]
    unfold next apQuality wavg totalWeight
    congr 1
    rw [complete_videos P hP, ← Finset.univ_product_univ, Finset.sum_product]
  simp only [hn]
  rw [← Finset.sum_div, div_eq_iff hWpos.ne', Finset.sum_comm]
  have h3 : ∀ i, ∑ j, ∑ r, (X j i r - apBias P X S i) * w i = ((R : ℝ) * ∑ j, S j) * w i := by
    intro i
    simp only [← Finset.sum_mul]
    rw [hb]
  rw [Finset.sum_congr rfl fun i _ => h3 i, ← Finset.mul_sum]
  ring

/-- on complete data the passes stay in a bounded region -/
theorem seq_bounded (hP : ∀ j i r, P j i r = true) (hI : 0 < I) (hR : 0 < R) : ∃ C, ∀ k j, |seq P X k j| ≤ C := by
  rcases Nat.eq_zero_or_pos J with hJ | hJ
  · subst hJ; exact ⟨0, fun k j => j.elim0⟩
  have : NeZero I := ⟨hI.ne'⟩
  have : NeZero R := ⟨hR.ne'⟩
  have hv : ∀ j, (votesOnVideo P j).Nonempty := fun j => by
    rw [complete_videos P hP]; exact Finset.univ_nonempty
  have hsum : ∀ k, ∑ j, seq P X k j = ∑ j, seq P X 0 j := by
    intro k
    induction k with
    | zero => rfl
    | succ k ih => rw [← ih]; exact sum_next P X hP hI hR _
  set i0 : Fin I := 0
  set r0 : Fin R := 0
  have hne : (votesOfObserver P i0).Nonempty := by
    rw [complete_observers P hP]
    exact ⟨(⟨0, hJ⟩, 0), Finset.mem_univ _⟩
  set M : ℝ := ((votesOfObserver P i0).card : ℝ) * (1 / 100000000 * Real.exp (slack0 P X)) with hM
  have hres : ∀ k j, (X j i0 r0 - seq P X k j - apBias P X (seq P X k) i0) ^ 2 ≤ M := by
    intro k j
    have h1 := var_le P X (seq P X k) (apBias P X (seq P X k)) i0 hne
    have h2 : 1 / 100000000 * Real.exp (slack P X (seq P X k) (apBias P X (seq P X k))) ≤ 1 / 100000000 * Real.exp (slack0 P X) :=
      mul_le_mul_of_nonneg_left (Real.exp_le_exp.mpr (seq_slack P X hv k)) (by norm_num)
    have h3 : apMeanSq P X (seq P X k) (apBias P X (seq P X k)) i0 ≤ 1 / 100000000 * Real.exp (slack0 P X) := by
      have h0 : (0:ℝ) ≤ 1 / 100000000 := by norm_num
      linarith
    have h4 : (X j i0 r0 - seq P X k j - apBias P X (seq P X k) i0) ^ 2
        ≤ ∑ c ∈ votesOfObserver P i0, (X c.1 i0 c.2 - seq P X k c.1 - apBias P X (seq P X k) i0) ^ 2 :=
      Finset.single_le_sum (f := fun c : Fin J × Fin R => (X c.1 i0 c.2 - seq P X k c.1 - apBias P X (seq P X k) i0) ^ 2)
        (fun c _ => sq_nonneg _) (show (j, r0) ∈ votesOfObserver P i0 by rw [complete_observers P hP]; exact Finset.mem_univ _)
    rw [sum_eq_card_avg] at h4
    exact h4.trans (mul_le_mul_of_nonneg_left h3 (Nat.cast_nonneg _))
  set C1 : ℝ := ∑ j, |X j i0 r0| with hC1
  have hX : ∀ j, |X j i0 r0| ≤ C1 := fun j =>
    Finset.single_le_sum (f := fun j => |X j i0 r0|) (fun j _ => abs_nonneg _) (Finset.mem_univ j)
  have hroot : ∀ k j, |X j i0 r0 - seq P X k j - apBias P X (seq P X k) i0| ≤ Real.sqrt M := fun k j => Real.abs_le_sqrt (hres k j)
  have hdiff : ∀ k j j', |seq P X k j - seq P X k j'| ≤ 2 * C1 + 2 * Real.sqrt M := by
    intro k j j'
    have h1 := abs_le.mp (hroot k j)
    have h2 := abs_le.mp (hroot k j')
    have h3 := abs_le.mp (hX j)
    have h4 := abs_le.mp (hX j')
    rw [abs_le]
    constructor <;> linarith [h1.1, h1.2, h2.1, h2.2, h3.1, h3.2, h4.1, h4.2]
  refine ⟨2 * C1 + 2 * Real.sqrt M + |∑ j, seq P X 0 j|, fun k j => ?_⟩
  have hJr : (0 : ℝ) < J := by exact_mod_cast hJ
  have hJ1 : (1 : ℝ) ≤ J := by exact_mod_cast hJ
  have h5 : (J : ℝ) * seq P X k j = ∑ j', (seq P X k j - seq P X k j') + ∑ j', seq P X 0 j' := by
    rw [← hsum k, ← Finset.sum_add_distrib]
    simp
  have h6 : |∑ j', (seq P X k j - seq P X k j')| ≤ (J : ℝ) * (2 * C1 + 2 * Real.sqrt M) := by
    refine (Finset.abs_sum_le_sum_abs _ _).trans ?_
    refine (Finset.sum_le_sum fun j' _ => hdiff k j j').trans (le_of_eq ?_)
    rw [Finset.sum_const, Finset.card_univ, Fintype.card_fin, nsmul_eq_mul]
  have h7 : (J : ℝ) * |seq P X k j| ≤ (J : ℝ) * (2 * C1 + 2 * Real.sqrt M) + |∑ j', seq P X 0 j'| := by
    rw [← abs_of_pos hJr, ← abs_mul, abs_of_pos hJr, h5]
    exact (abs_add_le _ _).trans (add_le_add h6 (le_refl _))
  have h8 : |∑ j', seq P X 0 j'| ≤ (J : ℝ) * |∑ j', seq P X 0 j'| := by nlinarith [abs_nonneg (∑ j', seq P X 0 j')]
  have h9 : (J : ℝ) * |seq P X k j| ≤ (J : ℝ) * (2 * C1 + 2 * Real.sqrt M + |∑ j', seq P X 0 j'|) := by
    rw [mul_add]; linarith
  exact le_of_mul_le_mul_left h9 hJr

theorem seq_cluster (hP : ∀ j i r, P j i r = true) (hI : 0 < I) (hR : 0 < R) :
    ∃ S, MapClusterPt S Filter.atTop (seq P X) := by
  obtain ⟨C, hC⟩ := seq_bounded P X hP hI hR
  have hk : IsCompact (Metric.closedBall (0 : Fin J → ℝ) (max C 0)) := isCompact_closedBall _ _
  obtain ⟨S, _, hS⟩ := hk.exists_mapClusterPt (f := Filter.atTop) (u := seq P X) (by
    rw [Filter.le_principal_iff, Filter.mem_map]
    refine Filter.Eventually.of_forall fun k => ?_
    show seq P X k ∈ Metric.closedBall 0 (max C 0)
    rw [mem_closedBall_zero_iff, pi_norm_le_iff_of_nonneg (le_max_right _ _)]
    intro j
    rw [Real.norm_eq_abs]
    exact (hC k j).trans (le_max_left _ _))
  exact ⟨S, hS⟩

/-! ## the deviance -/

theorem deviance_ge (S : Fin J → ℝ) (B T : Fin I → ℝ) (hT : ∀ i, 0 < T i) :
    apCost P X S B + totalVotes P ≤ apDeviance P X S B T := by
  unfold apCost totalVotes apDeviance
  push_cast
  rw [← Finset.sum_add_distrib]
  apply Finset.sum_le_sum
  intro i _
  rw [sum_eq_card_avg]
  have h0 : ((votesOfObserver P i).card : ℝ) * avg (votesOfObserver P i)
      (fun c => Real.log (T i) + ((X c.1 i c.2 - S c.1 - B i) ^ 2 + 1 / 100000000) / T i)
      = ((votesOfObserver P i).card : ℝ) * (Real.log (T i) + (apMeanSq P X S B i + 1 / 100000000) / T i) := by
    rcases (votesOfObserver P i).eq_empty_or_nonempty with h | h
    · simp [h]
    · congr 1
      have hc : ((votesOfObserver P i).card : ℝ) ≠ 0 := by simpa using h.ne_empty
      unfold apMeanSq avg
      simp only [add_div, Finset.sum_add_distrib, Finset.sum_const, nsmul_eq_mul, ← Finset.sum_div]
      field_simp
  rw [h0, show ((votesOfObserver P i).card : ℝ) * Real.log (apMeanSq P X S B i + 1 / 100000000) + ((votesOfObserver P i).card : ℝ)
    = ((votesOfObserver P i).card : ℝ) * (Real.log (apMeanSq P X S B i + 1 / 100000000) + 1) by ring]
  apply mul_le_mul_of_nonneg_left _ (Nat.cast_nonneg _)
  have h1 := log_tangent (hT i) (var_pos P X S B i)
  have h2 : (apMeanSq P X S B i + 1 / 100000000 - T i) / T i = (apMeanSq P X S B i + 1 / 100000000) / T i - 1 := by
    rw [sub_div, div_self (hT i).ne']
  linarith

theorem deviance_best (S : Fin J → ℝ) (B : Fin I → ℝ) :
    apDeviance P X S B (fun i => apMeanSq P X S B i + 1 / 100000000) = apCost P X S B + totalVotes P := by
  unfold apCost totalVotes apDeviance
  push_cast
  rw [← Finset.sum_add_distrib]
  refine Finset.sum_congr rfl fun i _ => ?_
  rcases (votesOfObserver P i).eq_empty_or_nonempty with h | h
  · simp [h]
  · have hc : ((votesOfObserver P i).card : ℝ) ≠ 0 := by simpa using h.ne_empty
    have hp := (var_pos P X S B i).ne'
    rw [Finset.sum_add_distrib, ← Finset.sum_div, Finset.sum_add_distrib]
    have h1 : ∑ c ∈ votesOfObserver P i, (X c.1 i c.2 - S c.1 - B i) ^ 2 = (votesOfObserver P i).card * apMeanSq P X S B i :=
      sum_eq_card_avg _ _
    rw [h1]
    simp only [Finset.sum_const, nsmul_eq_mul]
    rw [← mul_add, mul_div_assoc, div_self hp, mul_one]

end Ap
end Sureal
