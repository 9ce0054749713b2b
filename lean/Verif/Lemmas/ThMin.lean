import Verif.Lemmas.PcCi
import Verif.Spec.ThMin
import Mathlib.Analysis.Calculus.MeanValue
import Mathlib.Analysis.Complex.ExponentialBounds
/-!
# The Thurstone objective where scores differ by at most four standard deviations
-/
namespace Sureal.Spec.Thurstone
open Spec.BT BtMath
variable {M : ℕ} {A : Fin M → Fin M → ℝ} {v w : Fin M → ℝ}

theorem normalPdf_five : 7 / 10 ^ 7 ≤ normalPdf 5 := by
  unfold normalPdf
  have h1 : Real.sqrt (2 * Real.pi) ≤ 3 := by
    rw [Real.sqrt_le_left (by norm_num)]
    have := Real.pi_lt_d2
    linarith
  have h0 : 0 < Real.sqrt (2 * Real.pi) := Real.sqrt_pos.mpr (by positivity)
  have h2 : (3 : ℝ)⁻¹ ≤ (Real.sqrt (2 * Real.pi))⁻¹ := inv_anti₀ h0 h1
  have h3 : Real.exp (-13) ≤ Real.exp (-(1 / 2) * 5 ^ 2) := Real.exp_le_exp.mpr (by norm_num)
  have h4 : (1 / 450000 : ℝ) ≤ Real.exp (-13) := by
    have h5 : Real.exp 13 ≤ 450000 := by
      have : Real.exp 13 = Real.exp 1 ^ 13 := by rw [← Real.exp_nat_mul]; norm_num
      rw [this]
      calc Real.exp 1 ^ 13 ≤ (2.7182818286 : ℝ) ^ 13 := pow_le_pow_left₀ (Real.exp_pos _).le Real.exp_one_lt_d9.le _
        _ ≤ 450000 := by norm_num
    rw [Real.exp_neg, ← one_div]
    exact one_div_le_one_div_of_le (Real.exp_pos _) h5
  calc (7 / 10 ^ 7 : ℝ) ≤ 3⁻¹ * (1 / 450000) := by norm_num
    _ ≤ (Real.sqrt (2 * Real.pi))⁻¹ * Real.exp (-(1 / 2) * 5 ^ 2) :=
      mul_le_mul h2 (h4.trans h3) (by norm_num) (inv_nonneg.mpr h0.le)

theorem normalPdf_le {x y : ℝ} (h : x ^ 2 ≤ y ^ 2) : normalPdf y ≤ normalPdf x := by
  unfold normalPdf
  exact mul_le_mul_of_nonneg_left (Real.exp_le_exp.mpr (by linarith)) (by positivity)

theorem normalCdf_strictMono : StrictMono normalCdf :=
  strictMono_of_hasDerivAt_pos normalCdf_deriv normalPdf_pos

/-- the function in Mills' inequality -/
noncomputable def millsG (x : ℝ) : ℝ := x * normalCdf x + normalPdf x

theorem millsG_deriv (x : ℝ) : HasDerivAt millsG (normalCdf x) x := by
  unfold millsG
  refine (((hasDerivAt_id x).mul (normalCdf_deriv x)).add (normalPdf_deriv x)).congr_deriv ?_
  simp only [id]
  ring

theorem millsG_strictMono : StrictMono millsG := strictMono_of_hasDerivAt_pos millsG_deriv normalCdf_pos

theorem millsG_four : 15 / 10 ^ 8 ≤ millsG (-4) := by
  obtain ⟨c, hc, h1⟩ := exists_hasDerivAt_eq_slope normalCdf normalPdf (show (-5 : ℝ) < -9 / 2 by norm_num)
    (fun x _ => (normalCdf_deriv x).continuousAt.continuousWithinAt) (fun x _ => normalCdf_deriv x)
  obtain ⟨d, hd, h2⟩ := exists_hasDerivAt_eq_slope millsG normalCdf (show (-9 / 2 : ℝ) < -4 by norm_num)
    (fun x _ => (millsG_deriv x).continuousAt.continuousWithinAt) (fun x _ => millsG_deriv x)
  have h3 : normalPdf 5 ≤ normalPdf c := normalPdf_le (by nlinarith [hc.1, hc.2])
  have h4 := normalCdf_strictMono hd.1
  have h5 := normalCdf_pos (-5)
  have h6 := mills (-9 / 2)
  have h7 := normalPdf_five
  rw [h1] at h3
  rw [h2] at h4
  change 0 < millsG (-9 / 2) at h6
  norm_num at h3 h4 h7 ⊢
  linarith

/-- as long as `-4 ≤ x` a small constant does not disturb Mills' inequality -/
theorem mills_eps {eps x : ℝ} (he : 0 ≤ eps) (he' : eps ≤ 1 / 10 ^ 8) (hx : -4 ≤ x) : 0 < x * (normalCdf x + eps) + normalPdf x := by
  have h1 := millsG_strictMono.monotone hx
  have h2 := millsG_four
  have h3 : -4 * (1 / 10 ^ 8) ≤ x * eps := by
    rcases le_total 0 x with h | h
    · have := mul_nonneg h he
      norm_num
      linarith
    · nlinarith
  have h4 : x * (normalCdf x + eps) + normalPdf x = millsG x + x * eps := by unfold millsG; ring
  rw [h4]
  norm_num at h2 h3 ⊢
  linarith

/-- one term of the log-likelihood -/
noncomputable def logTerm (eps x : ℝ) : ℝ := Real.log (normalCdf x + eps)
/-- its derivative -/
noncomputable def logSlope (eps x : ℝ) : ℝ := normalPdf x / (normalCdf x + eps)

section
variable {eps : ℝ} (he : 0 ≤ eps)
include he

theorem cdf_eps_pos (x : ℝ) : 0 < normalCdf x + eps := by have := normalCdf_pos x; linarith

theorem logTerm_deriv (x : ℝ) : HasDerivAt (logTerm eps) (logSlope eps x) x :=
  ((normalCdf_deriv x).add_const eps).log (cdf_eps_pos he x).ne'

theorem logSlope_deriv (x : ℝ) : HasDerivAt (logSlope eps)
    (-(normalPdf x * (x * (normalCdf x + eps) + normalPdf x)) / (normalCdf x + eps) ^ 2) x := by
  refine ((normalPdf_deriv x).div ((normalCdf_deriv x).add_const eps) (cdf_eps_pos he x).ne').congr_deriv ?_
  congr 1
  ring

theorem logSlope_pos (x : ℝ) : 0 < logSlope eps x := div_pos (normalPdf_pos x) (cdf_eps_pos he x)

variable (he' : eps ≤ 1 / 10 ^ 8)
include he'

theorem logSlope_lt {x y : ℝ} (hx : -4 ≤ x) (hxy : x < y) : logSlope eps y < logSlope eps x := by
  have h : StrictAntiOn (logSlope eps) (Set.Ici (-4)) := by
    refine strictAntiOn_of_hasDerivWithinAt_neg (convex_Ici _)
      (fun x _ => (logSlope_deriv he x).continuousAt.continuousWithinAt) (fun x _ => (logSlope_deriv he x).hasDerivWithinAt) ?_
    intro x hx
    rw [interior_Ici] at hx
    refine div_neg_of_neg_of_pos (neg_neg_of_pos (mul_pos (normalPdf_pos x) (mills_eps he he' hx.le))) ?_
    exact pow_pos (cdf_eps_pos he x) 2
  exact h hx (show (-4 : ℝ) ≤ y by linarith) hxy

/-- the term lies below its tangents -/
theorem logTerm_tangent {x y : ℝ} (hx : -4 ≤ x) (hy : -4 ≤ y) (hne : x ≠ y) :
    logTerm eps y < logTerm eps x + logSlope eps x * (y - x) := by
  rcases lt_or_gt_of_ne hne with h | h
  · obtain ⟨c, hc, h1⟩ := exists_hasDerivAt_eq_slope (logTerm eps) (logSlope eps) h
      (fun z _ => (logTerm_deriv he z).continuousAt.continuousWithinAt) (fun z _ => logTerm_deriv he z)
    have h2 := logSlope_lt he he' hx hc.1
    rw [h1, div_lt_iff₀ (by linarith)] at h2
    linarith
  · obtain ⟨c, hc, h1⟩ := exists_hasDerivAt_eq_slope (logTerm eps) (logSlope eps) h
      (fun z _ => (logTerm_deriv he z).continuousAt.continuousWithinAt) (fun z _ => logTerm_deriv he z)
    have h2 := logSlope_lt he he' (show -4 ≤ c by linarith [hc.1]) hc.2
    rw [h1, lt_div_iff₀ (by linarith)] at h2
    linarith

theorem logTerm_tangent_le {x y : ℝ} (hx : -4 ≤ x) (hy : -4 ≤ y) : logTerm eps y ≤ logTerm eps x + logSlope eps x * (y - x) := by
  rcases eq_or_ne x y with rfl | h
  · simp
  · exact (logTerm_tangent he he' hx hy h).le

end

theorem nll_eq (eps : ℝ) (A : Fin M → Fin M → ℝ) (v : Fin M → ℝ) : nll normalCdf eps A v = -∑ i, ∑ j, A i j * logTerm eps (v i - v j) := rfl

/-- partial derivatives of the objective -/
noncomputable def thGrad (eps : ℝ) (A : Fin M → Fin M → ℝ) (v : Fin M → ℝ) (k : Fin M) : ℝ :=
  -(∑ j, A k j * logSlope eps (v k - v j) - ∑ i, A i k * logSlope eps (v i - v k))

theorem nll_partial {eps : ℝ} (he : 0 ≤ eps) (A : Fin M → Fin M → ℝ) (v : Fin M → ℝ) (k : Fin M) :
    HasDerivAt (fun t => nll normalCdf eps A (setEntry v k t)) (thGrad eps A v k) (v k) := by
  have h1 : ∀ i j, HasDerivAt (fun t => A i j * logTerm eps (setEntry v k t i - setEntry v k t j))
      (A i j * (logSlope eps (v i - v j) * (dl i k - dl j k))) (v k) := by
    intro i j
    have h := (hasDeriv_entry v k i (v k)).sub (hasDeriv_entry v k j (v k))
    have h2 : HasDerivAt (logTerm eps) (logSlope eps (v i - v j)) (setEntry v k (v k) i - setEntry v k (v k) j) := by
      rw [setEntry_self]
      exact logTerm_deriv he _
    exact (h2.comp (v k) h).const_mul (A i j)
  have h2 : HasDerivAt (fun t => nll normalCdf eps A (setEntry v k t))
      (-∑ i, ∑ j, A i j * (logSlope eps (v i - v j) * (dl i k - dl j k))) (v k) := by
    simp only [nll_eq]
    exact (HasDerivAt.fun_sum fun i _ => HasDerivAt.fun_sum fun j _ => h1 i j).neg
  refine h2.congr_deriv ?_
  unfold thGrad
  congr 1
  have e : ∀ i j, A i j * (logSlope eps (v i - v j) * (dl i k - dl j k)) =
      dl i k * (A i j * logSlope eps (v i - v j)) - dl j k * (A i j * logSlope eps (v i - v j)) := fun i j => by ring
  simp only [e, Finset.sum_sub_distrib, sum_dl, ← Finset.mul_sum]

/-- the derivative in a direction -/
theorem thGrad_dir (eps : ℝ) (A : Fin M → Fin M → ℝ) (v u : Fin M → ℝ) :
    ∑ k, u k * thGrad eps A v k = -∑ i, ∑ j, A i j * logSlope eps (v i - v j) * (u i - u j) := by
  unfold thGrad
  have e : ∀ i j, A i j * logSlope eps (v i - v j) * (u i - u j) =
      u i * (A i j * logSlope eps (v i - v j)) - u j * (A i j * logSlope eps (v i - v j)) := fun i j => by ring
  simp only [e, Finset.sum_sub_distrib, mul_neg, mul_sub, Finset.sum_neg_distrib, Finset.mul_sum]
  rw [Finset.sum_comm (f := fun i j => u j * (A i j * logSlope eps (v i - v j)))]

theorem nll_min {eps : ℝ} (he : 0 ≤ eps) (he' : eps ≤ 1 / 10 ^ 8) (hA : ∀ i j, 0 ≤ A i j) (hv : WithinFour v) (hw : WithinFour w)
    (hs : Stationary (nll normalCdf eps A) v) :
    nll normalCdf eps A v ≤ nll normalCdf eps A w ∧
    ((∃ i j, 0 < A i j ∧ v i - v j ≠ w i - w j) → nll normalCdf eps A v < nll normalCdf eps A w) := by
  have hz : ∀ k, thGrad eps A v k = 0 := fun k => (nll_partial he A v k).unique (hs k)
  have hd := thGrad_dir eps A v fun i => w i - v i
  simp only [hz, mul_zero, Finset.sum_const_zero] at hd
  have hv4 : ∀ i j, -4 ≤ v i - v j := fun i j => by have := hv j i; linarith
  have hw4 : ∀ i j, -4 ≤ w i - w j := fun i j => by have := hw j i; linarith
  have ht : ∀ i j, A i j * logTerm eps (w i - w j) ≤
      A i j * logTerm eps (v i - v j) + A i j * logSlope eps (v i - v j) * ((w i - v i) - (w j - v j)) := by
    intro i j
    have := mul_le_mul_of_nonneg_left (logTerm_tangent_le he he' (hv4 i j) (hw4 i j)) (hA i j)
    linarith [this]
  have hsum : ∑ i, ∑ j, (A i j * logTerm eps (v i - v j) + A i j * logSlope eps (v i - v j) * ((w i - v i) - (w j - v j))) =
      ∑ i, ∑ j, A i j * logTerm eps (v i - v j) := by
    simp only [Finset.sum_add_distrib]
    linarith
  rw [nll_eq, nll_eq, ← hsum]
  refine ⟨neg_le_neg (Finset.sum_le_sum fun i _ => Finset.sum_le_sum fun j _ => ht i j), ?_⟩
  rintro ⟨i, j, hij, hne⟩
  refine neg_lt_neg (Finset.sum_lt_sum (fun i _ => Finset.sum_le_sum fun j _ => ht i j) ⟨i, Finset.mem_univ _, ?_⟩)
  refine Finset.sum_lt_sum (fun j _ => ht i j) ⟨j, Finset.mem_univ _, ?_⟩
  have := mul_lt_mul_of_pos_left (logTerm_tangent he he' (hv4 i j) (hw4 i j) hne) hij
  linarith [this]

/-- linked scores with the same differences are the same up to a shift -/
theorem shift_of_gaps (hc : Connected A) (h : ∀ i j, 0 < A i j → v i - v j = w i - w j) : ShiftOf v w := by
  have hg : ∀ i j, Relation.ReflTransGen (fun i j => 0 < games A i j) i j → w i - v i = w j - v j := by
    intro i j hij
    induction hij with
    | refl => rfl
    | @tail b c _ hbc ih =>
      rw [ih]
      unfold games at hbc
      rcases lt_or_ge 0 (A b c) with h1 | h1
      · have := h b c h1; linarith
      · have := h c b (by linarith); linarith
  rcases Nat.eq_zero_or_pos M with h0 | h0
  · subst h0
    exact ⟨0, fun i => i.elim0⟩
  · refine ⟨w ⟨0, h0⟩ - v ⟨0, h0⟩, fun i => ?_⟩
    have := hg i ⟨0, h0⟩ (hc _ _)
    linarith

/-- the objective is bounded -/
theorem nll_le {eps : ℝ} (he : 0 < eps) (hA : ∀ i j, 0 ≤ A i j) (v : Fin M → ℝ) :
    nll normalCdf eps A v ≤ -∑ i, ∑ j, A i j * Real.log eps := by
  rw [nll_eq]
  refine neg_le_neg (Finset.sum_le_sum fun i _ => Finset.sum_le_sum fun j _ => mul_le_mul_of_nonneg_left ?_ (hA i j))
  refine Real.log_le_log he ?_
  have := normalCdf_pos (v i - v j)
  linarith

/-- a convex function that is bounded above is constant -/
theorem const_of_convex {f : (Fin M → ℝ) → ℝ} (hf : ConvexOn ℝ Set.univ f) {B : ℝ} (hB : ∀ v, f v ≤ B) (v w : Fin M → ℝ) : f v = f w := by
  have key : ∀ v w : Fin M → ℝ, f w ≤ f v := by
    intro v w
    by_contra hlt
    push Not at hlt
    obtain ⟨n, hn⟩ := exists_nat_gt ((B - f v) / (f w - f v))
    rw [div_lt_iff₀ (by linarith)] at hn
    have hn0 : (0 : ℝ) < n := by
      rcases Nat.eq_zero_or_pos n with h0 | h0
      · subst h0
        have := hB v
        simp at hn
        linarith
      · exact_mod_cast h0
    have h1n : (1 : ℝ) ≤ n := by
      have : 0 < n := by exact_mod_cast hn0
      exact_mod_cast this
    have hc := hf.2 (Set.mem_univ v) (Set.mem_univ (v + (n : ℝ) • (w - v)))
      (show (0 : ℝ) ≤ 1 - 1 / n by rw [sub_nonneg, div_le_one hn0]; exact h1n) (show (0 : ℝ) ≤ 1 / n by positivity) (by ring)
    have he : (1 - 1 / (n : ℝ)) • v + (1 / (n : ℝ)) • (v + (n : ℝ) • (w - v)) = w := by
      funext i
      simp only [Pi.add_apply, Pi.smul_apply, smul_eq_mul, Pi.sub_apply]
      field_simp
      ring
    rw [he] at hc
    simp only [smul_eq_mul] at hc
    have h2 := hB (v + (n : ℝ) • (w - v))
    have h3 : f w ≤ (1 - 1 / n) * f v + 1 / n * B := by
      have := mul_le_mul_of_nonneg_left h2 (show (0 : ℝ) ≤ 1 / n by positivity)
      linarith
    have h4 : (n : ℝ) * f w ≤ (n - 1) * f v + B := by
      have := mul_le_mul_of_nonneg_left h3 hn0.le
      have e : (n : ℝ) * ((1 - 1 / n) * f v + 1 / n * B) = (n - 1) * f v + B := by field_simp
      linarith
    nlinarith
  exact le_antisymm (key w v) (key v w)

end Sureal.Spec.Thurstone
