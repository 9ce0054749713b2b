import Verif.Lemmas.ApMean
import Verif.Spec.ApComplete
/-! The alternating projection on complete panels: the mean of the scores and the biases do not change from pass to pass. -/
set_option linter.unusedSectionVars false
namespace Sureal.Ap
open Sureal Spec Props

section
variable {J I R : ℕ} {X : Fin J → Fin I → Fin R → ℝ} (hJ : 0 < J) (hI : 0 < I) (hR : 0 < R)

/-- everybody voted on everything -/
abbrev allP (J I R : ℕ) : Fin J → Fin I → Fin R → Bool := fun _ _ _ => true

theorem allP_video (j : Fin J) : votesOnVideo (allP J I R) j = Finset.univ := by
  simp [votesOnVideo]

theorem allP_observer (i : Fin I) : votesOfObserver (allP J I R) i = Finset.univ := by
  simp [votesOfObserver]

include hJ hI hR in
theorem allP_voted : Voted (allP J I R) :=
  ⟨fun _ => ⟨⟨0, hI⟩, ⟨0, hR⟩, rfl⟩, fun _ => ⟨⟨0, hJ⟩, ⟨0, hR⟩, rfl⟩⟩

include hJ hR in
theorem bias_complete (S : Fin J → ℝ) (i : Fin I) : apBias (allP J I R) X S i = observerMean X i - (∑ j, S j) / J := by
  have hJ' : (J : ℝ) ≠ 0 := by positivity
  have hR' : (R : ℝ) ≠ 0 := by positivity
  unfold apBias avg observerMean
  rw [allP_observer, Fintype.sum_prod_type, Finset.card_univ, Fintype.card_prod, Fintype.card_fin, Fintype.card_fin]
  simp only [Finset.sum_sub_distrib, Finset.sum_const, Finset.card_univ, Fintype.card_fin, nsmul_eq_mul]
  rw [← Finset.mul_sum]
  push_cast
  field_simp

/-- the weights of the observers in a pass -/
noncomputable def passWeight (X : Fin J → Fin I → Fin R → ℝ) (S : Fin J → ℝ) (i : Fin I) : ℝ :=
  apWeight (apSpread (allP J I R) X S (apBias (allP J I R) X S) i)

theorem passWeight_pos (S : Fin J → ℝ) (i : Fin I) : 0 < passWeight X S i := apWeight_pos _

include hJ hI hR in
theorem next_complete (S : Fin J → ℝ) (j : Fin J) :
    next (allP J I R) X S j = (∑ i, passWeight X S i * (cellMean X j i - observerMean X i)) / (∑ i, passWeight X S i) + (∑ j, S j) / J := by
  have hR' : (R : ℝ) ≠ 0 := by positivity
  have hW : (∑ i, passWeight X S i) ≠ 0 :=
    (Finset.sum_pos (fun i _ => passWeight_pos S i) ⟨⟨0, hI⟩, Finset.mem_univ _⟩).ne'
  unfold next apQuality wavg
  rw [allP_video, Fintype.sum_prod_type, Fintype.sum_prod_type]
  simp only [Finset.sum_const, Finset.card_univ, Fintype.card_fin, nsmul_eq_mul]
  rw [← Finset.mul_sum]
  have h1 : ∀ i, ∑ r, (X j i r - apBias (allP J I R) X S i) * apWeight (apSpread (allP J I R) X S (apBias (allP J I R) X S) i) =
      R * (passWeight X S i * (cellMean X j i - observerMean X i)) + R * ((∑ j, S j) / J * passWeight X S i) := by
    intro i
    rw [← Finset.sum_mul, bias_complete hJ hR]
    simp only [Finset.sum_sub_distrib, Finset.sum_const, Finset.card_univ, Fintype.card_fin, nsmul_eq_mul]
    unfold cellMean
    show (∑ r, X j i r - (R * observerMean X i - R * ((∑ j, S j) / J))) * passWeight X S i = _
    have h : (∑ r, X j i r) = R * ((∑ r, X j i r) / R) := by field_simp
    generalize hq : (∑ r, X j i r) / R = q at *
    rw [h]
    ring
  rw [Finset.sum_congr rfl fun i _ => h1 i, Finset.sum_add_distrib, ← Finset.mul_sum, ← Finset.mul_sum, ← Finset.mul_sum, ← mul_add]
  show R * _ / (R * ∑ i, passWeight X S i) = _
  rw [mul_div_mul_left _ _ hR', add_div, mul_div_cancel_right₀ _ hW]

include hJ hR in
theorem centred_sum (i : Fin I) : ∑ j, (cellMean X j i - observerMean X i) = 0 := by
  have hJ' : (J : ℝ) ≠ 0 := by positivity
  have hR' : (R : ℝ) ≠ 0 := by positivity
  unfold cellMean observerMean
  rw [Finset.sum_sub_distrib, ← Finset.sum_div]
  simp only [Finset.sum_const, Finset.card_univ, Fintype.card_fin, nsmul_eq_mul]
  field_simp
  ring

include hJ hI hR in
theorem next_sum (S : Fin J → ℝ) : ∑ j, next (allP J I R) X S j = ∑ j, S j := by
  have hJ' : (J : ℝ) ≠ 0 := by positivity
  rw [Finset.sum_congr rfl fun j _ => next_complete hJ hI hR S j, Finset.sum_add_distrib, ← Finset.sum_div, Finset.sum_comm]
  have h0 : ∑ i, ∑ j, passWeight X S i * (cellMean X j i - observerMean X i) = 0 := by
    refine Finset.sum_eq_zero fun i _ => ?_
    rw [← Finset.mul_sum, centred_sum hJ hR, mul_zero]
  rw [h0, zero_div, zero_add]
  simp only [Finset.sum_const, Finset.card_univ, Fintype.card_fin, nsmul_eq_mul]
  field_simp

include hJ hI hR in
theorem seq_sum (k : ℕ) : (∑ j, seq (allP J I R) X k j) / J = grandMean X := by
  have hI' : (I : ℝ) ≠ 0 := by positivity
  have hJ' : (J : ℝ) ≠ 0 := by positivity
  have hR' : (R : ℝ) ≠ 0 := by positivity
  induction k with
  | zero =>
    show (∑ j, mos0 (allP J I R) X j) / J = _
    unfold mos0 avg grandMean
    simp only [allP_video, Fintype.sum_prod_type, Finset.card_univ, Fintype.card_prod, Fintype.card_fin]
    rw [← Finset.sum_div]
    push_cast
    field_simp
  | succ k ih =>
    rw [← ih]
    show (∑ j, next (allP J I R) X (seq (allP J I R) X k) j) / J = _
    rw [next_sum hJ hI hR]

include hJ hI hR in
theorem observerMean_mean : (∑ i, observerMean X i) / I = grandMean X := by
  unfold observerMean grandMean
  rw [← Finset.sum_div, Finset.sum_comm, div_div]
  congr 1
  ring

include hJ hI hR in
theorem meanB_complete : meanB (allP J I R) X = 0 := by
  have hI' : (I : ℝ) ≠ 0 := by positivity
  unfold meanB
  rw [Finset.sum_congr rfl fun i _ => bias_complete hJ hR (lastS (allP J I R) X) i]
  rw [Finset.sum_sub_distrib, sub_div, observerMean_mean hJ hI hR]
  simp only [Finset.sum_const, Finset.card_univ, Fintype.card_fin, nsmul_eq_mul]
  rw [mul_div_cancel_left₀ _ hI']
  unfold lastS
  rw [seq_sum hJ hI hR, sub_self]

include hJ hI hR in
theorem estB_complete (i : Fin I) : estB (allP J I R) X i = observerMean X i - grandMean X := by
  unfold estB
  rw [meanB_complete hJ hI hR, bias_complete hJ hR]
  unfold lastS
  rw [seq_sum hJ hI hR, sub_zero]

theorem apWeight_precision (v : ℝ) : apWeight v = precision v := by
  unfold apWeight precision
  norm_num

include hJ hI hR in
theorem estQ_complete (j : Fin J) : estQ (allP J I R) X j = grandMean X +
    (∑ i, precision (estV (allP J I R) X i) * (cellMean X j i - observerMean X i)) / ∑ i, precision (estV (allP J I R) X i) := by
  unfold estQ
  rw [meanB_complete hJ hI hR, add_zero, add_comm]
  show next (allP J I R) X (seq (allP J I R) X (stopAt (allP J I R) X)) j = _
  rw [next_complete hJ hI hR, seq_sum hJ hI hR]
  simp only [← apWeight_precision]
  rfl

end

end Sureal.Ap
