import Verif.Lemmas.BtFl
import Mathlib.Analysis.SpecialFunctions.Log.Deriv
import Mathlib.Analysis.SpecialFunctions.ExpDeriv
/-! # Derivatives of the Bradley-Terry log-likelihood -/
set_option linter.unusedSectionVars false
namespace Sureal.BtMath
open Spec.BT
open Spec (setEntry)
variable {M : ℕ} {A : Fin M → Fin M → ℝ} {p q : Fin M → ℝ}

/-- 1 on the diagonal -/
def dl (i j : Fin M) : ℝ := if i = j then 1 else 0

theorem setEntry_self (p : Fin M → ℝ) (i : Fin M) : setEntry p i (p i) = p := by
  funext k
  unfold setEntry
  split_ifs with h
  · rw [h]
  · rfl

theorem hasDeriv_entry (p : Fin M → ℝ) (j i : Fin M) (t : ℝ) : HasDerivAt (fun t => setEntry p j t i) (dl i j) t := by
  unfold setEntry dl
  by_cases h : i = j
  · simp only [if_pos h]
    exact hasDerivAt_id t
  · simp only [if_neg h]
    exact hasDerivAt_const t _

/-- the partial derivative of the log-likelihood -/
noncomputable def gradP (A : Fin M → Fin M → ℝ) (i : Fin M) (q : Fin M → ℝ) : ℝ := wins A i / q i - den A q i

theorem sum_dl (i : Fin M) (f : Fin M → ℝ) : ∑ k, dl k i * f k = f i := by
  unfold dl
  simp

theorem partial_logLik (i : Fin M) : Partial Positive (logLik A) i (gradP A i) := by
  intro q hq
  have h1 : HasDerivAt (fun t => logLik A (setEntry q i t))
      (∑ k, ∑ l, A k l * (((dl k i * (q k + q l) - q k * (dl k i + dl l i)) / (q k + q l) ^ 2) / (q k / (q k + q l)))) (q i) := by
    unfold Spec.BT.logLik
    refine HasDerivAt.fun_sum fun k _ => HasDerivAt.fun_sum fun l _ => HasDerivAt.const_mul _ ?_
    have hk := hasDeriv_entry q i k (q i)
    have hl := hasDeriv_entry q i l (q i)
    have e := setEntry_self q i
    have hs := add_pos (hq k) (hq l)
    have hd := (hk.fun_div (hk.fun_add hl) (by rw [e]; exact hs.ne')).log (by rw [e]; exact (div_pos (hq k) hs).ne')
    rw [e] at hd
    exact hd
  refine h1.congr_deriv ?_
  have h2 : ∀ k l, ((dl k i * (q k + q l) - q k * (dl k i + dl l i)) / (q k + q l) ^ 2) / (q k / (q k + q l))
      = dl k i / q k - (dl k i + dl l i) * (1 / (q k + q l)) := by
    intro k l
    have := (hq k).ne'
    have := (add_pos (hq k) (hq l)).ne'
    field_simp
  simp only [h2, mul_sub, Finset.sum_sub_distrib]
  have h3 := sum_pairs (A := A) (fun k => dl k i) (fun k l => 1 / (q k + q l)) (fun k l => by rw [add_comm])
  rw [h3, sum_dl]
  unfold gradP den wins
  congr 1
  · have : ∀ k, ∑ l, A k l * (dl k i / q k) = dl k i * (∑ l, A k l / q k) := by
      intro k
      rw [Finset.mul_sum]
      exact Finset.sum_congr rfl fun l _ => by ring
    simp only [this]
    rw [sum_dl, Finset.sum_div]
  · exact Finset.sum_congr rfl fun l _ => by ring

theorem hasDeriv_gradP (i j : Fin M) (hp : Positive p) :
    HasDerivAt (fun t => gradP A i (setEntry p j t))
      (-(wins A i * dl i j) / p i ^ 2 + ∑ l, games A i l * (dl i j + dl l j) / (p i + p l) ^ 2) (p j) := by
  unfold gradP den
  have hi := hasDeriv_entry p j i (p j)
  have e := setEntry_self p j
  have h1 := (hi.fun_inv (by rw [e]; exact (hp i).ne')).const_mul (wins A i)
  have h2 : HasDerivAt (fun t => ∑ l, games A i l / (setEntry p j t i + setEntry p j t l))
      (∑ l, games A i l * (-(dl i j + dl l j) / (p i + p l) ^ 2)) (p j) := by
    refine HasDerivAt.fun_sum fun l _ => ?_
    have hl := hasDeriv_entry p j l (p j)
    have h3 := ((hi.fun_add hl).fun_inv (by rw [e]; exact (add_pos (hp i) (hp l)).ne')).const_mul (games A i l)
    rw [e] at h3
    simpa only [div_eq_mul_inv] using h3
  rw [e] at h1
  have h3 := h1.fun_sub h2
  simp only [div_eq_mul_inv] at h3 ⊢
  refine h3.congr_deriv ?_
  have : ∑ l, games A i l * (-(dl i j + dl l j) * ((p i + p l) ^ 2)⁻¹) =
      -∑ l, games A i l * (dl i j + dl l j) * ((p i + p l) ^ 2)⁻¹ := by
    rw [← Finset.sum_neg_distrib]
    exact Finset.sum_congr rfl fun l _ => by ring
  rw [this]
  ring

theorem hessian_logLik (i j : Fin M) (hp : Positive p) :
    Hessian Positive (logLik A) p i j
      (-(wins A i * dl i j) / p i ^ 2 + ∑ l, games A i l * (dl i j + dl l j) / (p i + p l) ^ 2) :=
  ⟨_, partial_logLik i, hasDeriv_gradP i j hp⟩

theorem hessian_off {i j : Fin M} (hij : i ≠ j) (hp : Positive p) :
    Hessian Positive (logLik A) p i j (games A i j / (p i + p j) ^ 2) := by
  have := hessian_logLik (A := A) i j hp
  have e : -(wins A i * dl i j) / p i ^ 2 + ∑ l, games A i l * (dl i j + dl l j) / (p i + p l) ^ 2 =
      games A i j / (p i + p j) ^ 2 := by
    have h0 : dl i j = 0 := if_neg hij
    rw [h0]
    have h1 : ∀ l, games A i l * (0 + dl l j) / (p i + p l) ^ 2 = dl l j * (games A i l / (p i + p l) ^ 2) := by
      intro l; ring
    simp only [h1]
    rw [sum_dl]
    simp
  rwa [e] at this

theorem hessian_diag (hA : ∀ i, A i i = 0) (i : Fin M) (hp : Positive p) :
    Hessian Positive (logLik A) p i i (-wins A i / p i ^ 2 + ∑ l, games A i l / (p i + p l) ^ 2) := by
  have := hessian_logLik (A := A) i i hp
  have e : -(wins A i * dl i i) / p i ^ 2 + ∑ l, games A i l * (dl i i + dl l i) / (p i + p l) ^ 2 =
      -wins A i / p i ^ 2 + ∑ l, games A i l / (p i + p l) ^ 2 := by
    have h0 : dl i i = 1 := if_pos rfl
    rw [h0, mul_one]
    congr 1
    have h1 : ∀ l, games A i l * (1 + dl l i) / (p i + p l) ^ 2 =
        games A i l / (p i + p l) ^ 2 + dl l i * (games A i l / (p i + p l) ^ 2) := by
      intro l; ring
    simp only [h1]
    rw [Finset.sum_add_distrib, sum_dl]
    simp [games, hA i]
  rwa [e] at this

/-- second partial derivatives on the positive vectors are unique -/
theorem hessian_unique {f : (Fin M → ℝ) → ℝ} {i j : Fin M} {h h' : ℝ} (hp : Positive p)
    (h1 : Hessian Positive f p i j h) (h2 : Hessian Positive f p i j h') : h = h' := by
  obtain ⟨g, hg, hd⟩ := h1
  obtain ⟨g', hg', hd'⟩ := h2
  have hgg : ∀ q, Positive q → g q = g' q := fun q hq => (hg q hq).unique (hg' q hq)
  have hev : (fun t => g (setEntry p j t)) =ᶠ[nhds (p j)] fun t => g' (setEntry p j t) := by
    filter_upwards [lt_mem_nhds (hp j)] with t ht
    refine hgg _ fun k => ?_
    unfold setEntry
    split_ifs
    · exact ht
    · exact hp k
  exact hd.unique (hd'.congr_of_eventuallyEq hev)

/-! ## in the scores -/

/-- the gradient in the scores -/
noncomputable def gradG (A : Fin M → Fin M → ℝ) (i : Fin M) (γ : Fin M → ℝ) : ℝ :=
  wins A i - ∑ l, games A i l * (Real.exp (γ i) / (Real.exp (γ i) + Real.exp (γ l)))

theorem expV_setEntry (γ : Fin M → ℝ) (i : Fin M) (t : ℝ) : expV (setEntry γ i t) = setEntry (expV γ) i (Real.exp t) := by
  funext k
  unfold expV setEntry
  split_ifs <;> rfl

theorem expV_pos (γ : Fin M → ℝ) : Positive (expV γ) := fun i => Real.exp_pos _

theorem partial_scores (i : Fin M) : Partial (fun _ => True) (fun γ => logLik A (expV γ)) i (gradG A i) := by
  intro γ _
  have h := partial_logLik (A := A) i (expV γ) (expV_pos γ)
  have h2 := HasDerivAt.comp (γ i) (h₂ := fun t => logLik A (setEntry (expV γ) i t)) (h := Real.exp) h (Real.hasDerivAt_exp (γ i))
  have e : ((fun t => logLik A (setEntry (expV γ) i t)) ∘ Real.exp) = fun t => logLik A (expV (setEntry γ i t)) := by
    funext t
    rw [Function.comp, expV_setEntry]
  rw [e] at h2
  refine h2.congr_deriv ?_
  unfold gradP gradG den expV
  have := (Real.exp_pos (γ i)).ne'
  rw [sub_mul, Finset.sum_mul]
  congr 1
  · field_simp
  · exact Finset.sum_congr rfl fun l _ => by ring

/-- probability that `i` beats `l` -/
noncomputable def winP (γ : Fin M → ℝ) (i l : Fin M) : ℝ := Real.exp (γ i) / (Real.exp (γ i) + Real.exp (γ l))

theorem hasDeriv_gradG (γ : Fin M → ℝ) (i j : Fin M) :
    HasDerivAt (fun t => gradG A i (setEntry γ j t))
      (-∑ l, games A i l * (winP γ i l * (1 - winP γ i l)) * (dl i j - dl l j)) (γ j) := by
  unfold gradG
  have e := setEntry_self γ j
  have h2 : HasDerivAt (fun t => ∑ l, games A i l *
      (Real.exp (setEntry γ j t i) / (Real.exp (setEntry γ j t i) + Real.exp (setEntry γ j t l))))
      (∑ l, games A i l * (winP γ i l * (1 - winP γ i l)) * (dl i j - dl l j)) (γ j) := by
    refine HasDerivAt.fun_sum fun l _ => ?_
    have hi := (hasDeriv_entry γ j i (γ j)).exp
    have hl := (hasDeriv_entry γ j l (γ j)).exp
    have hs : Real.exp (γ i) + Real.exp (γ l) ≠ 0 := (add_pos (Real.exp_pos _) (Real.exp_pos _)).ne'
    have h3 := (hi.fun_div (hi.fun_add hl) (by rw [e]; exact hs)).const_mul (games A i l)
    rw [e] at h3
    refine h3.congr_deriv ?_
    unfold winP
    field_simp
    ring
  have h3 := (hasDerivAt_const (γ j) (wins A i)).fun_sub h2
  rw [zero_sub] at h3
  exact h3

theorem hessian_scores_off (γ : Fin M → ℝ) {i j : Fin M} (hij : i ≠ j) :
    Hessian (fun _ => True) (fun γ => logLik A (expV γ)) γ i j (games A i j * (winP γ i j * (1 - winP γ i j))) := by
  refine ⟨_, partial_scores i, (hasDeriv_gradG γ i j).congr_deriv ?_⟩
  have h0 : dl i j = 0 := if_neg hij
  rw [h0]
  have h1 : ∀ l, games A i l * (winP γ i l * (1 - winP γ i l)) * (0 - dl l j) =
      -(dl l j * (games A i l * (winP γ i l * (1 - winP γ i l)))) := by intro l; ring
  simp only [h1]
  rw [Finset.sum_neg_distrib, sum_dl, neg_neg]

theorem hessian_scores_diag (hA : ∀ i, A i i = 0) (γ : Fin M → ℝ) (i : Fin M) :
    Hessian (fun _ => True) (fun γ => logLik A (expV γ)) γ i i
      (-∑ l, games A i l * (winP γ i l * (1 - winP γ i l))) := by
  refine ⟨_, partial_scores i, (hasDeriv_gradG γ i i).congr_deriv ?_⟩
  congr 1
  refine Finset.sum_congr rfl fun l _ => ?_
  have h0 : dl i i = 1 := if_pos rfl
  rw [h0]
  by_cases hl : l = i
  · subst hl
    simp [games, hA l]
  · have : dl l i = 0 := if_neg hl
    rw [this]
    ring

end Sureal.BtMath
