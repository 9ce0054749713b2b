import Verif.Lemmas.Normal
import Verif.Lemmas.BtGrad
import Mathlib.Data.Fin.VecNotation
import Mathlib.Algebra.BigOperators.Fin
/-!
# Properties C60, C77: the Thurstone model
-/
set_option linter.unusedSectionVars false
namespace Sureal.Props
open Spec.BT Spec.Thurstone BtMath
variable {M : ℕ} {A : Fin M → Fin M → ℝ} {v : Fin M → ℝ}

/-- the constant added to the probabilities -/
noncomputable def thEps (M : ℕ) : ℝ := 1 / 10 ^ 8 / M

/-- The function that is minimised is twice the negative log-likelihood of the comparisons (each pair is counted in both
orders), for any distribution function. -/
theorem C60_twice (Φ : ℝ → ℝ) (hΦ : ∀ x, 0 ≤ Φ x) (hM : M ≠ 0) :
    Bt.nllf (lift Φ) (mat A) (vec v) = .fin (2 * nll Φ (thEps M) A v) := by
  have hM0 : (M : ℝ) ≠ 0 := Nat.cast_ne_zero.mpr hM
  have hMp : (0 : ℝ) < M := Nat.cast_pos.mpr (Nat.pos_of_ne_zero hM)
  have heps : (Fl.dec 1 (10 ^ 8) / ((M : ℕ) : Fl ℝ) : Fl ℝ) = .fin (thEps M) := by
    unfold Fl.dec
    rw [Fl.natCast_def, Fl.fin_div hM0]
    unfold thEps
    norm_num
  have he : 0 < thEps M := by unfold thEps; positivity
  unfold Bt.nllf
  dsimp only
  rw [heps]
  have hl : ∀ x : ℝ, (lift Φ (.fin x) + .fin (thEps M) : Fl ℝ).log = .fin (Real.log (Φ x + thEps M)) := by
    intro x
    unfold lift
    rw [Fl.fin_add, Fl.log_fin (add_pos_of_nonneg_of_pos (hΦ x) he)]
    rfl
  have h1 : ∀ i, Np.sum (List.ofFn fun j => mat A i j * (lift Φ (vec v i - vec v j) + .fin (thEps M)).log +
      mat A j i * (lift Φ (vec v j - vec v i) + .fin (thEps M)).log) =
      .fin (∑ j, (A i j * Real.log (Φ (v i - v j) + thEps M) + A j i * Real.log (Φ (v j - v i) + thEps M))) := by
    intro i
    unfold vec mat
    simp only [Fl.fin_sub, hl, Fl.fin_mul, Fl.fin_add]
    exact Bt.sum_vec _
  simp only [h1]
  rw [Bt.sum_vec, Fl.fin_neg]
  congr 1
  unfold nll
  simp only [Finset.sum_add_distrib]
  rw [← sum_swap fun i j => A i j * Real.log (Φ (v i - v j) + thEps M)]
  ring

/-- Adding a constant to all scores does not change it. -/
theorem C60_shift (cdf : Fl ℝ → Fl ℝ) (al : Arr2 (Fl ℝ) M M) (c : ℝ) :
    Bt.nllf cdf al (vec fun i => v i + c) = Bt.nllf cdf al (vec v) := by
  unfold Bt.nllf vec
  simp only [Fl.fin_sub, add_sub_add_right_eq_sub]

/-- Relabelling the videos consistently does not change it. -/
theorem C60_relabel (Φ : ℝ → ℝ) (hΦ : ∀ x, 0 ≤ Φ x) (σ : Equiv.Perm (Fin M)) :
    Bt.nllf (lift Φ) (mat fun i j => A (σ i) (σ j)) (vec fun i => v (σ i)) = Bt.nllf (lift Φ) (mat A) (vec v) := by
  rcases Nat.eq_zero_or_pos M with h0 | h0
  · subst h0
    congr 1
    · funext i; exact i.elim0
    · funext i; exact i.elim0
  · rw [C60_twice Φ hΦ h0.ne', C60_twice Φ hΦ h0.ne']
    congr 2
    unfold nll
    congr 1
    rw [← Equiv.sum_comp σ fun i => ∑ j, A i j * Real.log (Φ (v i - v j) + thEps M)]
    refine Finset.sum_congr rfl fun i _ => ?_
    exact Equiv.sum_comp σ fun j => A (σ i) j * Real.log (Φ (v (σ i) - v j) + thEps M)

/-- it is not constant: two equally good videos that beat each other once, with equal and with different scores -/
example : Bt.nllf (lift Real.exp) (mat ![![(0 : ℝ), 1], ![0, 0]]) (vec ![0, 0]) ≠
    Bt.nllf (lift Real.exp) (mat ![![(0 : ℝ), 1], ![0, 0]]) (vec ![1, 0]) := by
  rw [C60_twice _ (fun x => (Real.exp_pos x).le) (by norm_num), C60_twice _ (fun x => (Real.exp_pos x).le) (by norm_num)]
  simp only [ne_eq, Fl.fin_inj]
  have h0 : 0 < thEps 2 := by unfold thEps; norm_num
  have : Real.log (1 + thEps 2) < Real.log (Real.exp 1 + thEps 2) := by
    refine Real.log_lt_log (by linarith) ?_
    have := Real.add_one_lt_exp (one_ne_zero)
    linarith
  have e1 : nll Real.exp (thEps 2) ![![(0 : ℝ), 1], ![0, 0]] ![0, 0] = -Real.log (1 + thEps 2) := by
    simp [nll, Fin.sum_univ_two]
  have e2 : nll Real.exp (thEps 2) ![![(0 : ℝ), 1], ![0, 0]] ![1, 0] = -Real.log (Real.exp 1 + thEps 2) := by
    simp [nll, Fin.sum_univ_two]
  rw [e1, e2]
  intro h
  linarith

/-! ## C77 -/

section curvature
variable {Φ φ : ℝ → ℝ}

theorem hasDeriv_log_cdf (h : NormalLike Φ φ) (x : ℝ) : HasDerivAt (fun x => Real.log (Φ x)) (φ x / Φ x) x :=
  (h.cdf x).log (h.pos x).ne'

theorem hasDeriv_ratio (h : NormalLike Φ φ) (x : ℝ) : HasDerivAt (fun x => φ x / Φ x) (curvature Φ φ x) x := by
  have := (h.pdf x).fun_div (h.cdf x) (h.pos x).ne'
  refine this.congr_deriv ?_
  unfold curvature
  ring

theorem curvSimplified_eq (h : NormalLike Φ φ) (i j : Fin M) :
    Bt.curvSimplified (lift Φ) (lift φ) (mat A) (vec v) i j = .fin ((A i j + A j i) * curvature Φ φ (v i - v j)) := by
  unfold Bt.curvSimplified mat vec
  have hne : Φ (v i - v j) * Φ (v i - v j) ≠ 0 := (mul_pos (h.pos _) (h.pos _)).ne'
  simp only [Fl.fin_sub, Fl.fin_add, lift, Fl.fin_neg, Fl.fin_mul, Fl.sq_fin, Fl.fin_div hne]
  unfold curvature
  congr 1
  field_simp

/-- The two ways to compute the curvature give the same numbers. -/
theorem C77_variants_agree (h : NormalLike Φ φ) (i j : Fin M) :
    Bt.curvFull (lift Φ) (lift φ) (mat A) (vec v) i j = Bt.curvSimplified (lift Φ) (lift φ) (mat A) (vec v) i j := by
  rw [curvSimplified_eq h]
  unfold Bt.curvFull mat vec
  have hp := (h.pos (v i - v j)).ne'
  have h1 : Φ (v i - v j) * Φ (v i - v j) ≠ 0 := mul_ne_zero hp hp
  have h2 : -Φ (v i - v j) * -Φ (v i - v j) ≠ 0 := mul_ne_zero (neg_ne_zero.mpr hp) (neg_ne_zero.mpr hp)
  simp only [Fl.fin_sub, Fl.fin_add, lift, Fl.fin_neg, Fl.fin_mul, Fl.sq_fin, Fl.fin_div h1, Fl.fin_div h2]
  unfold curvature
  congr 1
  field_simp

/-- the second derivative of the log-likelihood for the pair `i`, `j` in the score of `i` -/
theorem pair_curvature (h : NormalLike Φ φ) (a b s t : ℝ) :
    Spec.Derivs (fun x => a * Real.log (Φ (x - t)) + b * Real.log (Φ (t - x))) s
      (a * (φ (s - t) / Φ (s - t)) - b * (φ (t - s) / Φ (t - s)))
      (a * curvature Φ φ (s - t) + b * curvature Φ φ (t - s)) := by
  refine ⟨fun x => a * (φ (x - t) / Φ (x - t)) - b * (φ (t - x) / Φ (t - x)), Filter.Eventually.of_forall fun x => ?_, rfl, ?_⟩
  · have h1 := ((hasDeriv_log_cdf h (x - t)).comp x ((hasDerivAt_id x).sub_const t)).const_mul a
    have h2 := ((hasDeriv_log_cdf h (t - x)).comp x ((hasDerivAt_id x).const_sub t)).const_mul b
    refine (h1.add h2).congr_deriv ?_
    ring
  · have h1 := ((hasDeriv_ratio h (s - t)).comp s ((hasDerivAt_id s).sub_const t)).const_mul a
    have h2 := ((hasDeriv_ratio h (t - s)).comp s ((hasDerivAt_id s).const_sub t)).const_mul b
    refine (h1.sub h2).congr_deriv ?_
    ring

/-- The entry the code uses for a pair is the second derivative of the pair's log-likelihood if the curvature of `log Φ` is
the same at `v_i - v_j` and at `v_j - v_i`, or `j` never beat `i`.

Missing: in general the entry is wrong, see `C77_refuted`. -/
theorem C77_partial (h : NormalLike Φ φ) (i j : Fin M)
    (hs : A j i = 0 ∨ curvature Φ φ (v i - v j) = curvature Φ φ (v j - v i)) :
    ∃ d1 d2 : ℝ, Spec.Derivs (fun x => A i j * Real.log (Φ (x - v j)) + A j i * Real.log (Φ (v j - x))) (v i) d1 d2 ∧
      Bt.curvSimplified (lift Φ) (lift φ) (mat A) (vec v) i j = .fin d2 := by
  refine ⟨_, _, pair_curvature h _ _ _ _, ?_⟩
  rw [curvSimplified_eq h]
  congr 1
  rcases hs with h0 | h0
  · rw [h0]; ring
  · rw [← h0]; ring

/-- It is only then. -/
theorem C77_refuted (h : NormalLike Φ φ) (i j : Fin M) (d1 d2 : ℝ)
    (hd : Spec.Derivs (fun x => A i j * Real.log (Φ (x - v j)) + A j i * Real.log (Φ (v j - x))) (v i) d1 d2)
    (he : Bt.curvSimplified (lift Φ) (lift φ) (mat A) (vec v) i j = .fin d2) :
    A j i = 0 ∨ curvature Φ φ (v i - v j) = curvature Φ φ (v j - v i) := by
  obtain ⟨f', hev, -, hf⟩ := hd
  obtain ⟨g', hev', -, hg⟩ := pair_curvature h (A i j) (A j i) (v i) (v j)
  have : f' =ᶠ[nhds (v i)] g' := by
    filter_upwards [hev, hev'] with x h1 h2
    exact h1.unique h2
  have hd2 : d2 = A i j * curvature Φ φ (v i - v j) + A j i * curvature Φ φ (v j - v i) :=
    hf.unique (hg.congr_of_eventuallyEq this)
  rw [curvSimplified_eq h, Fl.fin_inj, hd2] at he
  have : A j i * (curvature Φ φ (v i - v j) - curvature Φ φ (v j - v i)) = 0 := by linarith
  rcases mul_eq_zero.mp this with h0 | h0
  · exact Or.inl h0
  · exact Or.inr (by linarith)

/-- The standard normal distribution meets the assumptions. -/
example : NormalLike normalCdf normalPdf := normalLike_normal

/-- And for it the entry is wrong for two videos whose scores differ by 1/10 and that both won. -/
theorem C77_refuted_normal {i j : Fin M} (hv : v i - v j = 1 / 10) (hA : A j i ≠ 0) (d1 d2 : ℝ)
    (hd : Spec.Derivs (fun x => A i j * Real.log (normalCdf (x - v j)) + A j i * Real.log (normalCdf (v j - x))) (v i) d1 d2) :
    Bt.curvSimplified (lift normalCdf) (lift normalPdf) (mat A) (vec v) i j ≠ .fin d2 := by
  intro he
  rcases C77_refuted normalLike_normal i j d1 d2 hd he with h | h
  · exact hA h
  · rw [show v j - v i = -(1 / 10) by linarith, hv] at h
    exact curvature_normal_ne h

end curvature
end Sureal.Props
