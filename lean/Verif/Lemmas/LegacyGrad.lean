import Verif.Lemmas.Legacy
import Mathlib.Analysis.SpecialFunctions.ExpDeriv
/-! The updates of the early maximum likelihood model are Newton steps. -/
set_option linter.unusedSectionVars false
namespace Sureal.Legacy
open Sureal Spec
variable {E S C : ℕ} {P : Fin E → Fin S → Fin 1 → Bool} {X : Fin E → Fin S → Fin 1 → ℝ}

/-- derivatives in the logarithm of a standard deviation -/
theorem derivs_logstd (μ x θ : ℝ) :
    Derivs (fun t => Real.log (normalDensity μ (Real.exp t ^ 2 + 0 ^ 2) x)) θ
      (-1 + (x - μ) ^ 2 / Real.exp θ ^ 2) (-2 * (x - μ) ^ 2 / Real.exp θ ^ 2) := by
  have hE : ∀ t : ℝ, HasDerivAt (fun t => (Real.exp t ^ 2)⁻¹) (-2 * (Real.exp t ^ 2)⁻¹) t := by
    intro t
    have h1 : HasDerivAt (fun t => Real.exp t ^ 2) (2 * Real.exp t ^ 1 * Real.exp t) t :=
      (Real.hasDerivAt_exp t).pow 2
    refine (h1.inv (pow_pos (Real.exp_pos t) 2).ne').congr_deriv ?_
    have := Real.exp_pos t
    field_simp
  refine ⟨fun t => -1 + (x - μ) ^ 2 * (Real.exp t ^ 2)⁻¹, Filter.Eventually.of_forall fun t => ?_, by rw [div_eq_mul_inv], ?_⟩
  · have hf : (fun t => Real.log (normalDensity μ (Real.exp t ^ 2 + 0 ^ 2) x)) =
        fun t => -(Real.log (2 * Real.pi) / 2) - t - (x - μ) ^ 2 / 2 * (Real.exp t ^ 2)⁻¹ := by
      funext t
      have := Real.exp_pos t
      rw [Mle.log_normalDensity (by positivity)]
      rw [show Real.exp t ^ 2 + 0 ^ 2 = Real.exp t ^ 2 by ring, Real.log_pow, Real.log_exp]
      field_simp
      push_cast
      ring
    rw [hf]
    have h2 := (((hasDerivAt_id t).const_sub (-(Real.log (2 * Real.pi) / 2))).sub ((hE t).const_mul ((x - μ) ^ 2 / 2)))
    refine h2.congr_deriv ?_
    ring
  · have h2 := ((hE θ).const_mul ((x - μ) ^ 2)).const_add (-1)
    refine h2.congr_deriv ?_
    rw [div_eq_mul_inv]
    ring

/-- partial derivatives in the logarithm of the inconsistency of one observer -/
theorem derivs_lv {cid : Fin E → Fin C} {ξ : Fin E → ℝ} {β ν : Fin S → ℝ} (s : Fin S) (hs : 0 < ν s) :
    Derivs (fun t => logLik P X cid ξ β (setEntry ν s (Real.exp t)) (fun _ => 0)) (Real.log (ν s))
      (∑ e, if P e s 0 = true then -1 + (X e s 0 - ξ e - β s) ^ 2 / ν s ^ 2 else 0)
      (∑ e, if P e s 0 = true then -2 * (X e s 0 - ξ e - β s) ^ 2 / ν s ^ 2 else 0) := by
  unfold logLik
  apply Mle.Derivs.sum
  intro e
  refine Mle.Derivs.congr (Mle.Derivs.sum
    (d1 := fun s' => if s' = s then ∑ r, if P e s r = true then -1 + (X e s r - ξ e - β s) ^ 2 / ν s ^ 2 else 0 else 0)
    (d2 := fun s' => if s' = s then ∑ r, if P e s r = true then -2 * (X e s r - ξ e - β s) ^ 2 / ν s ^ 2 else 0 else 0) ?_)
    (by simp) (by simp)
  intro s'
  by_cases h : s' = s
  · subst h
    rw [if_pos rfl, if_pos rfl]
    apply Mle.Derivs.sum
    intro r
    apply Mle.Derivs.ite
    intro hP
    have := derivs_logstd (ξ e + β s') (X e s' r) (Real.log (ν s'))
    rw [Real.exp_log hs] at this
    refine Mle.Derivs.congr (by simpa [setEntry] using this) ?_ ?_
    · rw [← sub_sub]
    · rw [← sub_sub]; ring
  · rw [if_neg h, if_neg h]
    simpa [setEntry, h] using Mle.Derivs.const (∑ r, if P e s' r = true then Real.log (normalDensity (ξ e + β s') (ν s' ^ 2) (X e s' r)) else 0) (Real.log (ν s))

/-- `v * 0.9 + 0.1 * ((v * d2 - d1) c / (d2 c))` is a Newton step -/
theorem newton_fraction {θ d1 d2 c : ℝ} (hc : 0 < c) :
    Mle.refresh (.fin θ) (.fin (c * (θ * d2 - d1)) / .fin (c * d2)) = newtonStep θ d1 d2 := by
  by_cases h : d2 = 0
  · subst h
    rw [Mle.refresh_eq]
    unfold newtonStep
    congr 2
    rw [mul_zero, mul_zero, zero_sub]
    rcases lt_trichotomy d1 0 with h1 | h1 | h1
    · rw [Fl.fin_div_zero_pos (by nlinarith), Fl.fin_div_zero_neg h1]; rfl
    · subst h1
      rw [neg_zero, mul_zero]
      have : (Fl.fin (0 : ℝ)) / Fl.fin 0 = .nan := Fl.zero_div_zero
      rw [this]; rfl
    · rw [Fl.fin_div_zero_neg (by nlinarith), Fl.fin_div_zero_pos h1]; rfl
  · rw [Mle.newtonStep_of_ne h, Mle.refresh_eq, Fl.fin_div (mul_ne_zero hc.ne' h), Fl.fin_mul, Fl.fin_mul, Fl.fin_add,
      mul_div_mul_left _ _ hc.ne']
    congr 1
    field_simp

end Sureal.Legacy
