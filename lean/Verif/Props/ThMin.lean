import Verif.Lemmas.ThMin
import Verif.Props.Bt
import Verif.Props.Thurstone
/-!
# C95: what the search for the Thurstone scores finds
-/
set_option linter.unusedSectionVars false
namespace Sureal.Props
open Spec Spec.BT Spec.Thurstone BtMath
variable {M : ℕ} {A : Fin M → Fin M → ℝ} {v w : Fin M → ℝ}

theorem thEps_pos (hM : M ≠ 0) : 0 < thEps M := by
  have : (0 : ℝ) < M := Nat.cast_pos.mpr (Nat.pos_of_ne_zero hM)
  unfold thEps
  positivity

theorem thEps_le (M : ℕ) : thEps M ≤ 1 / 10 ^ 8 := by
  unfold thEps
  rcases Nat.eq_zero_or_pos M with h | h
  · subst h; norm_num
  · refine div_le_self (by norm_num) ?_
    exact_mod_cast h

theorem Stationary_of_localMin {f : (Fin M → ℝ) → ℝ} (hd : ∀ i, DifferentiableAt ℝ (fun t => f (setEntry v i t)) (v i)) (hl : IsLocalMin f v) :
    Stationary f v := by
  intro i
  have hc : ContinuousAt (fun t => setEntry v i t) (v i) := by
    refine continuousAt_pi.mpr fun j => ?_
    exact (hasDeriv_entry v i j (v i)).continuousAt
  have h1 : IsLocalMin (fun t => f (setEntry v i t)) (v i) := by
    have h2 : Filter.Tendsto (fun t => setEntry v i t) (nhds (v i)) (nhds v) := by
      have := hc.tendsto
      rwa [setEntry_self] at this
    have h3 := h2.eventually hl
    refine h3.mono fun t ht => ?_
    dsimp only
    rw [setEntry_self]
    exact ht
  have h2 := (hd i).hasDerivAt
  rwa [h1.hasDerivAt_eq_zero h2] at h2

/-- **C95, partial.** If the search ends in scores `v` where the partial derivatives of the log-likelihood vanish (for example at a local
optimum), no two of them more than four standard deviations apart, then the model reports `v`, and `v` is the only best choice: all
other scores of that spread, unless they are `v` shifted, have a larger negative log-likelihood.

Missing: the likelihood of scores that are further apart, see `C95_refuted_convex`. -/
theorem C95_unique_partial (hM : M ≠ 0) (hA : ∀ i j, 0 ≤ A i j) (hc : Connected A) (minimize) {pinv} {simplified : Flag} {r : Bt.ThResult ℝ M}
    (hmin : (minimize M (Bt.nllf (lift normalCdf) (mat A)) (fun _ => 0)).2 = vec v)
    (hr : Bt.thResolve (lift normalCdf) (lift normalPdf) minimize pinv simplified (mat A) = .ok r)
    (hs : Stationary (nll normalCdf (thEps M) A) v) (hv : WithinFour v) :
    r.v = vec v ∧ ∀ w, WithinFour w → ¬ ShiftOf v w →
      Fl.lt (Bt.nllf (lift normalCdf) (mat A) (vec v)) (Bt.nllf (lift normalCdf) (mat A) (vec w)) = true := by
  constructor
  · unfold Bt.thResolve at hr
    split at hr
    · cases hr
    · dsimp only at hr
      split at hr
      · split at hr
        · cases hr
        · cases hr
          exact hmin
      · cases hr
  · intro w hw hsh
    rw [C60_twice _ (fun x => (normalCdf_pos x).le) hM, C60_twice _ (fun x => (normalCdf_pos x).le) hM]
    have h1 := (nll_min (thEps_pos hM).le (thEps_le M) hA hv hw hs).2 (by
      by_contra hno
      push Not at hno
      exact hsh (shift_of_gaps hc hno))
    simp only [Fl.lt, decide_eq_true_eq]
    linarith

/-- **C95.** A local optimum is such a point. -/
theorem C95_local (hM : M ≠ 0) (hl : IsLocalMin (nll normalCdf (thEps M) A) v) : Stationary (nll normalCdf (thEps M) A) v :=
  Stationary_of_localMin (fun i => (nll_partial (thEps_pos hM).le A v i).differentiableAt) hl

/-- **C95.** If one of the videos wins at least once and never loses, then there is no best choice: whatever the scores, raising that of the
video improves the likelihood. -/
theorem C95_refuted_exists (hA : ∀ i j, 0 ≤ A i j) {k j : Fin M} (hj : j ≠ k) (hwin : 0 < A k j) (hlose : ∀ i, A i k = 0) (v : Fin M → ℝ) {t : ℝ}
    (ht : v k < t) :
    Fl.lt (Bt.nllf (lift normalCdf) (mat A) (vec (setEntry v k t))) (Bt.nllf (lift normalCdf) (mat A) (vec v)) = true := by
  have hM : M ≠ 0 := by rintro rfl; exact k.elim0
  have he := thEps_pos hM
  rw [C60_twice _ (fun x => (normalCdf_pos x).le) hM, C60_twice _ (fun x => (normalCdf_pos x).le) hM]
  simp only [Fl.lt, decide_eq_true_eq]
  have hmono : StrictMono (logTerm (thEps M)) := strictMono_of_hasDerivAt_pos (logTerm_deriv he.le) (logSlope_pos he.le)
  have hle : ∀ i l, A i l * logTerm (thEps M) (v i - v l) ≤ A i l * logTerm (thEps M) (setEntry v k t i - setEntry v k t l) := by
    intro i l
    by_cases hl : l = k
    · subst hl
      rw [hlose i, zero_mul, zero_mul]
    · refine mul_le_mul_of_nonneg_left (hmono.monotone ?_) (hA i l)
      unfold setEntry
      rw [if_neg hl]
      split_ifs with hi
      · subst hi; linarith
      · exact le_refl _
  have : nll normalCdf (thEps M) A (setEntry v k t) < nll normalCdf (thEps M) A v := by
    rw [nll_eq, nll_eq]
    refine neg_lt_neg (Finset.sum_lt_sum (fun i _ => Finset.sum_le_sum fun l _ => hle i l) ⟨k, Finset.mem_univ _, ?_⟩)
    refine Finset.sum_lt_sum (fun l _ => hle k l) ⟨j, Finset.mem_univ _, ?_⟩
    refine mul_lt_mul_of_pos_left (hmono ?_) hwin
    unfold setEntry
    rw [if_pos rfl, if_neg hj]
    linarith
  linarith

/-- **C95.** The function that is minimised is not convex, whatever the comparisons (with the constant added to the probabilities it is bounded). -/
theorem C95_refuted_convex (hA : ∀ i j, 0 ≤ A i j) {i j : Fin M} (hij : i ≠ j) (hwin : 0 < A i j) :
    ¬ ConvexOn ℝ Set.univ (nll normalCdf (thEps M) A) := by
  intro hf
  have hM : M ≠ 0 := by rintro rfl; exact i.elim0
  have hcst := const_of_convex hf (nll_le (thEps_pos hM) hA)
  have hst : Stationary (nll normalCdf (thEps M) A) fun _ => 0 := by
    intro k
    have : (fun t => nll normalCdf (thEps M) A (setEntry (fun _ => (0 : ℝ)) k t)) = fun _ => nll normalCdf (thEps M) A fun _ => 0 := by
      funext t
      exact hcst _ _
    rw [this]
    exact hasDerivAt_const _ _
  have h4 : WithinFour (setEntry (fun _ => (0 : ℝ)) i 1) := by
    intro a b
    unfold setEntry
    split_ifs <;> norm_num
  have := (nll_min (w := setEntry (fun _ => (0 : ℝ)) i 1) (thEps_pos hM).le (thEps_le M) hA (fun _ _ => by norm_num) h4 hst).2
    ⟨i, j, hwin, by simp [setEntry, Ne.symm hij]⟩
  rw [hcst _ (setEntry (fun _ => (0 : ℝ)) i 1)] at this
  exact lt_irrefl _ this

/-! ## Examples -/

theorem normalCdf_four : normalCdf (-4) < 1 / 10 := by
  have h1 := mills (-4)
  have h2 : normalPdf (-4) ≤ 2 / 5 := by
    unfold normalPdf
    have h3 : Real.exp (-(1 / 2) * (-4) ^ 2) ≤ 1 := Real.exp_le_one_iff.mpr (by norm_num)
    have h4 : (5 / 2 : ℝ) ≤ Real.sqrt (2 * Real.pi) := by
      refine Real.le_sqrt_of_sq_le ?_
      have := Real.pi_gt_d4
      norm_num
      linarith
    have h5 : (Real.sqrt (2 * Real.pi))⁻¹ ≤ (5 / 2 : ℝ)⁻¹ := inv_anti₀ (by norm_num) h4
    calc (Real.sqrt (2 * Real.pi))⁻¹ * Real.exp (-(1 / 2) * (-4) ^ 2) ≤ (5 / 2 : ℝ)⁻¹ * 1 :=
          mul_le_mul h5 h3 (Real.exp_pos _).le (by norm_num)
      _ = 2 / 5 := by norm_num
  linarith

/-- A video that beat the other one in three of four comparisons: the scores where the objective is stationary. -/
theorem threeOne_scores : ∃ d, 0 < d ∧ d ≤ 4 ∧ Stationary (nll normalCdf (thEps 2) threeOne) ![d, 0] := by
  have he := thEps_pos (M := 2) (by norm_num)
  have he' := thEps_le 2
  have hcont : Continuous fun d : ℝ => normalCdf d - 3 * normalCdf (-d) - 2 * thEps 2 := by
    have hc : Continuous normalCdf := continuous_iff_continuousAt.mpr fun x => (normalCdf_deriv x).continuousAt
    exact (hc.sub (continuous_const.mul (hc.comp continuous_neg))).sub continuous_const
  have h0 : normalCdf 0 - 3 * normalCdf (-0) - 2 * thEps 2 ≤ 0 := by
    rw [neg_zero, normalCdf_zero]
    linarith
  have h4 : 0 ≤ normalCdf 4 - 3 * normalCdf (-4) - 2 * thEps 2 := by
    have e := normalCdf_neg 4
    have := normalCdf_four
    norm_num at he'
    linarith
  obtain ⟨d, hd, hz⟩ := intermediate_value_Icc (show (0 : ℝ) ≤ 4 by norm_num) hcont.continuousOn ⟨h0, h4⟩
  dsimp only at hz
  refine ⟨d, lt_of_le_of_ne hd.1 ?_, hd.2, ?_⟩
  · rintro rfl
    rw [neg_zero, normalCdf_zero] at hz
    linarith
  · have hg : ∀ k, thGrad (thEps 2) threeOne ![d, 0] k = 0 := by
      have key : 3 * logSlope (thEps 2) d = logSlope (thEps 2) (-d) := by
        unfold logSlope
        rw [normalPdf_neg]
        have p1 := cdf_eps_pos he.le d
        have p2 := cdf_eps_pos he.le (-d)
        have : normalCdf d + thEps 2 = 3 * (normalCdf (-d) + thEps 2) := by linarith
        rw [this]
        field_simp
      intro k
      fin_cases k <;> simp [thGrad, threeOne, Fin.sum_univ_two] <;> linarith
    intro k
    have := nll_partial he.le threeOne ![d, 0] k
    rwa [hg k] at this

theorem threeOne_connected : Connected threeOne := by
  intro i j
  by_cases h : i = j
  · exact h ▸ .refl
  · refine .single ?_
    fin_cases i <;> fin_cases j <;> simp [games, threeOne] at h ⊢ <;> norm_num

/-- hypotheses of `C95_unique_partial` -/
example : ∃ d, 0 < d ∧ Stationary (nll normalCdf (thEps 2) threeOne) ![d, 0] ∧ WithinFour ![d, 0] ∧ Connected threeOne ∧
    ∃ r, Bt.thResolve (lift normalCdf) (lift normalPdf)
      (fun k _ _ => if h : k = 2 then (true, fun i => vec ![d, 0] (i.cast h)) else (false, fun _ => .nan))
      (fun _ m => .ok m) none (mat threeOne) = .ok r := by
  obtain ⟨d, h1, h2, h3⟩ := threeOne_scores
  refine ⟨d, h1, h3, ?_, threeOne_connected, ?_⟩
  · intro i j
    fin_cases i <;> fin_cases j <;> simp <;> linarith
  · unfold Bt.thResolve
    simp

/-- hypotheses of `C95_refuted_exists` and `C95_refuted_convex` -/
example : (∀ i j, 0 ≤ shutOut i j) ∧ (0 : ℝ) < shutOut 0 1 ∧ ∀ i, shutOut i 0 = 0 := by
  refine ⟨?_, by norm_num [shutOut], ?_⟩
  · intro i j
    fin_cases i <;> fin_cases j <;> norm_num [shutOut]
  · intro i
    fin_cases i <;> norm_num [shutOut]

end Sureal.Props
