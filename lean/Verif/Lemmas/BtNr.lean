import Verif.Lemmas.BtGrad
import Mathlib.LinearAlgebra.Matrix.ToLinearEquiv
import Mathlib.Analysis.Calculus.MeanValue
import Mathlib.Tactic.LinearCombination
/-! # The Newton-Raphson passes of the model over the reals -/
set_option linter.unusedSectionVars false
namespace Sureal.BtMath
open Spec.BT
open Spec (setEntry)
variable {n : ℕ} {A : Fin (n + 1) → Fin (n + 1) → ℝ} {γ : Fin (n + 1) → ℝ}

/-- curvature of one pair -/
noncomputable def curvG (A : Fin (n + 1) → Fin (n + 1) → ℝ) (γ : Fin (n + 1) → ℝ) (i l : Fin (n + 1)) : ℝ :=
  games A i l * (winP γ i l * (1 - winP γ i l))

theorem winP_pos (i l : Fin (n + 1)) : 0 < winP γ i l :=
  div_pos (Real.exp_pos _) (add_pos (Real.exp_pos _) (Real.exp_pos _))

theorem winP_compl (i l : Fin (n + 1)) : 1 - winP γ i l = winP γ l i := by
  unfold winP
  have h1 : Real.exp (γ i) + Real.exp (γ l) ≠ 0 := (add_pos (Real.exp_pos _) (Real.exp_pos _)).ne'
  have h2 : Real.exp (γ l) + Real.exp (γ i) ≠ 0 := (add_pos (Real.exp_pos _) (Real.exp_pos _)).ne'
  field_simp
  ring

theorem curvG_symm (i l : Fin (n + 1)) : curvG A γ i l = curvG A γ l i := by
  unfold curvG
  rw [winP_compl, winP_compl, games_symm i l]
  ring

theorem curvG_nonneg (hA : ∀ i j, 0 ≤ A i j) (i l : Fin (n + 1)) : 0 ≤ curvG A γ i l := by
  unfold curvG
  rw [winP_compl]
  exact mul_nonneg (games_nonneg hA i l) (mul_nonneg (winP_pos i l).le (winP_pos l i).le)

theorem curvG_le (hA : ∀ i j, 0 ≤ A i j) (i l : Fin (n + 1)) : curvG A γ i l ≤ games A i l / 4 := by
  unfold curvG
  have h := games_nonneg hA i l
  nlinarith [sq_nonneg (winP γ i l - 1 / 2)]

/-- the Hessian without the last video -/
noncomputable def hessR (A : Fin (n + 1) → Fin (n + 1) → ℝ) (γ : Fin (n + 1) → ℝ) (i j : Fin n) : ℝ :=
  if i = j then -∑ l, curvG A γ i.castSucc l else curvG A γ i.castSucc j.castSucc

/-- a vector with a zero for the last video -/
def ext0 (x : Fin n → ℝ) (i : Fin (n + 1)) : ℝ := if h : i.val < n then x ⟨i, h⟩ else 0

theorem ext0_castSucc (x : Fin n → ℝ) (i : Fin n) : ext0 x i.castSucc = x i := by
  unfold ext0
  rw [dif_pos (show i.castSucc.val < n from i.isLt)]
  rfl

theorem ext0_last (x : Fin n → ℝ) : ext0 x (Fin.last n) = 0 := by
  unfold ext0
  rw [dif_neg (by simp)]

theorem hessR_mul (hA : ∀ i, A i i = 0) (x : Fin n → ℝ) (i : Fin n) :
    ∑ j, hessR A γ i j * x j = ∑ l, curvG A γ i.castSucc l * (ext0 x l - ext0 x i.castSucc) := by
  have hii : curvG A γ i.castSucc i.castSucc = 0 := by
    unfold curvG games
    rw [hA]
    ring
  have h1 : ∀ j, hessR A γ i j * x j = curvG A γ i.castSucc j.castSucc * x j -
      dl j i * ((∑ l, curvG A γ i.castSucc l) * x j) := by
    intro j
    unfold hessR dl
    by_cases h : i = j
    · subst h
      rw [if_pos rfl, if_pos rfl, hii]
      ring
    · rw [if_neg h, if_neg (fun h' => h h'.symm)]
      ring
  simp only [h1]
  rw [Finset.sum_sub_distrib, sum_dl]
  simp only [mul_sub, Finset.sum_sub_distrib, ← Finset.sum_mul, ext0_castSucc]
  congr 1
  rw [Fin.sum_univ_castSucc, ext0_last, mul_zero, add_zero]
  simp only [ext0_castSucc]

/-- the quadratic form of a symmetric weight -/
theorem quad (c : Fin (n + 1) → Fin (n + 1) → ℝ) (hc : ∀ i l, c i l = c l i) (x : Fin (n + 1) → ℝ) :
    2 * ∑ i, x i * ∑ l, c i l * (x l - x i) = -∑ i, ∑ l, c i l * (x i - x l) ^ 2 := by
  have h1 : ∑ i, x i * ∑ l, c i l * (x l - x i) = ∑ i, ∑ l, c i l * (x l - x i) * x i := by
    refine Finset.sum_congr rfl fun i _ => ?_
    rw [Finset.mul_sum]
    exact Finset.sum_congr rfl fun l _ => by ring
  have h2 : ∑ i, ∑ l, c i l * (x l - x i) * x i = ∑ i, ∑ l, c i l * (x i - x l) * x l := by
    rw [sum_swap fun i l => c i l * (x l - x i) * x i]
    exact Finset.sum_congr rfl fun i _ => Finset.sum_congr rfl fun l _ => by rw [hc l i]
  have h3 : 2 * ∑ i, x i * ∑ l, c i l * (x l - x i) =
      ∑ i, ∑ l, c i l * (x l - x i) * x i + ∑ i, ∑ l, c i l * (x i - x l) * x l := by
    rw [← h2, h1]; ring
  rw [h3, ← Finset.sum_neg_distrib, ← Finset.sum_add_distrib]
  refine Finset.sum_congr rfl fun i _ => ?_
  rw [← Finset.sum_neg_distrib, ← Finset.sum_add_distrib]
  exact Finset.sum_congr rfl fun l _ => by ring

/-- linked comparisons make the Hessian injective -/
theorem hessR_inj (hA : ∀ i j, 0 ≤ A i j) (hD : ∀ i, A i i = 0) (hc : Connected A) (x : Fin n → ℝ)
    (h : ∀ i, ∑ j, hessR A γ i j * x j = 0) : x = 0 := by
  simp only [hessR_mul hD] at h
  have hz : ∑ i, ext0 x i * ∑ l, curvG A γ i l * (ext0 x l - ext0 x i) = 0 := by
    rw [Fin.sum_univ_castSucc, ext0_last, zero_mul, add_zero]
    exact Finset.sum_eq_zero fun i _ => by rw [h i, mul_zero]
  have hq := quad (curvG A γ) curvG_symm (ext0 x)
  rw [hz, mul_zero] at hq
  have hnn : ∀ i l, 0 ≤ curvG A γ i l * (ext0 x i - ext0 x l) ^ 2 := fun i l => mul_nonneg (curvG_nonneg hA i l) (sq_nonneg _)
  have hz0 : ∑ i, ∑ l, curvG A γ i l * (ext0 x i - ext0 x l) ^ 2 = 0 := by linarith
  have hz1 : ∀ i l, curvG A γ i l * (ext0 x i - ext0 x l) ^ 2 = 0 := by
    intro i l
    have h1 := (Finset.sum_eq_zero_iff_of_nonneg (fun i _ => Finset.sum_nonneg fun j _ => hnn i j)).mp hz0 i (Finset.mem_univ i)
    exact (Finset.sum_eq_zero_iff_of_nonneg (fun j _ => hnn i j)).mp h1 l (Finset.mem_univ l)
  have hadj : ∀ i l, 0 < games A i l → ext0 x i = ext0 x l := by
    intro i l hg
    have hcp : 0 < curvG A γ i l := by
      unfold curvG
      rw [winP_compl]
      exact mul_pos hg (mul_pos (winP_pos i l) (winP_pos l i))
    have := (mul_eq_zero.mp (hz1 i l)).resolve_left hcp.ne'
    have := pow_eq_zero_iff (two_ne_zero) |>.mp this
    linarith
  have hall' : ∀ i j, ext0 x i = ext0 x j := by
    intro i j
    have := hc i j
    induction this with
    | refl => rfl
    | tail _ hbc ih => rw [ih]; exact hadj _ _ hbc
  have hall : ∀ i, ext0 x i = ext0 x (Fin.last n) := fun i => hall' i _
  funext i
  rw [← ext0_castSucc x i, hall, ext0_last]
  rfl

/-- so it has an inverse -/
theorem hessR_inverse (hA : ∀ i j, 0 ≤ A i j) (hD : ∀ i, A i i = 0) (hc : Connected A) :
    ∃ G : Fin n → Fin n → ℝ, (∀ i j, ∑ l, hessR A γ i l * G l j = if i = j then 1 else 0) ∧
      (∀ i j, ∑ l, G i l * hessR A γ l j = if i = j then 1 else 0) := by
  set H : Matrix (Fin n) (Fin n) ℝ := Matrix.of (hessR A γ) with hH
  have hdet : H.det ≠ 0 := by
    intro h0
    obtain ⟨x, hx, hx0⟩ := Matrix.exists_mulVec_eq_zero_iff.mpr h0
    exact hx (hessR_inj hA hD hc x fun i => congrFun hx0 i)
  have hu : IsUnit H.det := isUnit_iff_ne_zero.mpr hdet
  refine ⟨(H⁻¹ : Matrix (Fin n) (Fin n) ℝ), fun i j => ?_, fun i j => ?_⟩
  · have := congrFun (congrFun (Matrix.mul_nonsing_inv H hu) i) j
    rw [Matrix.mul_apply, Matrix.one_apply] at this
    exact this
  · have := congrFun (congrFun (Matrix.nonsing_inv_mul H hu) i) j
    rw [Matrix.mul_apply, Matrix.one_apply] at this
    exact this

/-- solving with the inverse -/
theorem solve {H G : Fin n → Fin n → ℝ} (h : ∀ i j, ∑ l, H i l * G l j = if i = j then 1 else 0) (b : Fin n → ℝ) (i : Fin n) :
    ∑ l, H i l * ∑ j, G l j * b j = b i := by
  have h1 : ∑ l, H i l * ∑ j, G l j * b j = ∑ j, (∑ l, H i l * G l j) * b j := by
    simp only [Finset.mul_sum, Finset.sum_mul]
    rw [Finset.sum_comm]
    exact Finset.sum_congr rfl fun j _ => Finset.sum_congr rfl fun l _ => by ring
  rw [h1]
  simp only [h]
  simp

/-! ## how much the gradient can change in the last pass -/

theorem sigmoid_lipschitz (x y : ℝ) : |1 / (1 + Real.exp (-y)) - 1 / (1 + Real.exp (-x))| ≤ 1 / 4 * |y - x| := by
  have hd : ∀ t : ℝ, HasDerivAt (fun t => 1 / (1 + Real.exp (-t))) (Real.exp (-t) / (1 + Real.exp (-t)) ^ 2) t := by
    intro t
    have h1 : HasDerivAt (fun t : ℝ => 1 + Real.exp (-t)) (Real.exp (-t) * -1) t :=
      ((hasDerivAt_neg t).exp).const_add 1
    have hne : 1 + Real.exp (-t) ≠ 0 := by positivity
    have h2 := h1.fun_inv hne
    simp only [one_div]
    refine h2.congr_deriv ?_
    ring
  have hb : ∀ t ∈ (Set.univ : Set ℝ), ‖Real.exp (-t) / (1 + Real.exp (-t)) ^ 2‖ ≤ 1 / 4 := by
    intro t _
    have he := Real.exp_pos (-t)
    rw [Real.norm_of_nonneg (by positivity), div_le_iff₀ (by positivity)]
    nlinarith [sq_nonneg (1 - Real.exp (-t))]
  have := Convex.norm_image_sub_le_of_norm_hasDerivWithin_le (f := fun t => 1 / (1 + Real.exp (-t))) (s := Set.univ)
    (fun t _ => (hd t).hasDerivWithinAt) hb convex_univ (Set.mem_univ x) (Set.mem_univ y)
  simpa only [Real.norm_eq_abs] using this

theorem winP_eq (i l : Fin (n + 1)) : winP γ i l = 1 / (1 + Real.exp (-(γ i - γ l))) := by
  unfold winP
  have : Real.exp (-(γ i - γ l)) = Real.exp (γ l) / Real.exp (γ i) := by
    rw [← Real.exp_sub]; congr 1; ring
  rw [this]
  have h1 := (Real.exp_pos (γ i)).ne'
  have h2 : Real.exp (γ i) + Real.exp (γ l) ≠ 0 := (add_pos (Real.exp_pos _) (Real.exp_pos _)).ne'
  field_simp

theorem gradG_lipschitz (hA : ∀ i j, 0 ≤ A i j) {γ' : Fin (n + 1) → ℝ} {d : ℝ} (hd : ∀ i, |γ' i - γ i| ≤ d) (i : Fin (n + 1)) :
    |gradG A i γ' - gradG A i γ| ≤ d / 2 * ∑ l, games A i l := by
  have e : gradG A i γ' - gradG A i γ = -∑ l, games A i l * (winP γ' i l - winP γ i l) := by
    unfold gradG
    simp only [mul_sub, Finset.sum_sub_distrib]
    unfold winP
    ring
  rw [e, abs_neg, Finset.mul_sum]
  refine (Finset.abs_sum_le_sum_abs _ _).trans (Finset.sum_le_sum fun l _ => ?_)
  rw [abs_mul, abs_of_nonneg (games_nonneg hA i l), mul_comm]
  refine mul_le_mul_of_nonneg_right ?_ (games_nonneg hA i l)
  rw [winP_eq, winP_eq]
  refine (sigmoid_lipschitz _ _).trans ?_
  have h1 := abs_le.mp (hd i)
  have h2 := abs_le.mp (hd l)
  have : |γ' i - γ' l - (γ i - γ l)| ≤ 2 * d := by
    rw [abs_le]
    constructor <;> linarith [h1.1, h1.2, h2.1, h2.2]
  linarith

theorem hessR_row (hA : ∀ i j, 0 ≤ A i j) (hD : ∀ i, A i i = 0) {c : Fin n → ℝ} {d : ℝ} (hd : ∀ i, |c i| ≤ d) (h0 : 0 ≤ d) (i : Fin n) :
    |∑ j, hessR A γ i j * c j| ≤ d / 2 * ∑ l, games A i.castSucc l := by
  rw [hessR_mul hD, Finset.mul_sum]
  refine (Finset.abs_sum_le_sum_abs _ _).trans (Finset.sum_le_sum fun l _ => ?_)
  rw [abs_mul, abs_of_nonneg (curvG_nonneg hA _ _)]
  have hext : ∀ l, |ext0 c l| ≤ d := by
    intro l
    unfold ext0
    split_ifs
    · exact hd _
    · simpa using h0
  have h1 : |ext0 c l - ext0 c i.castSucc| ≤ 2 * d := by
    have h1 := abs_le.mp (hext l)
    have h2 := abs_le.mp (hext i.castSucc)
    rw [abs_le]
    constructor <;> linarith [h1.1, h1.2, h2.1, h2.2]
  calc curvG A γ i.castSucc l * |ext0 c l - ext0 c i.castSucc| ≤ games A i.castSucc l / 4 * (2 * d) :=
        mul_le_mul (curvG_le hA _ _) h1 (abs_nonneg _) (div_nonneg (games_nonneg hA _ _) (by norm_num))
    _ = d / 2 * games A i.castSucc l := by ring

/-- all gradients sum to zero -/
theorem gradG_sum : ∑ i, gradG A i γ = 0 := by
  unfold gradG
  rw [Finset.sum_sub_distrib, sub_eq_zero]
  have := sum_expected (A := A) (p := expV γ) (expV_pos γ)
  rw [← this]
  refine Finset.sum_congr rfl fun i _ => ?_
  unfold den expV
  rw [Finset.mul_sum]
  exact Finset.sum_congr rfl fun l _ => by ring

/-- a zero gradient is the likelihood equations -/
theorem gradG_likEq (h : ∀ i, gradG A i γ = 0) : LikEq A (expV γ) := by
  intro i
  have := h i
  unfold gradG at this
  unfold expV
  linarith

end Sureal.BtMath

namespace Sureal.Bt
open Spec.BT BtMath
variable {n : ℕ} {A : Fin (n + 1) → Fin (n + 1) → ℝ} {γ : Fin (n + 1) → ℝ}

theorem gind_fl (i : Fin n) (j : Fin (n + 1)) : gind (mat A) i j = decide (0 < Spec.BT.games A i.castSucc j) := by
  unfold gind gm mat
  rw [Fl.zero_def, Fl.fin_add, Fl.lt_fin]
  rfl

theorem rus_fl (i : Fin n) (j : Fin (n + 1)) : rus (vec γ) i j = .fin (winP γ i.castSucc j) := by
  unfold rus vec
  rw [Fl.exp_fin, Fl.exp_fin, Fl.fin_add, Fl.fin_div]
  · rfl
  · exact (add_pos (Real.exp_pos _) (Real.exp_pos _)).ne'

theorem not_gind {i : Fin n} {j : Fin (n + 1)} (hA : ∀ i j, 0 ≤ A i j) (h : ¬ 0 < Spec.BT.games A i.castSucc j) :
    Spec.BT.games A i.castSucc j = 0 := le_antisymm (not_lt.mp h) (BtMath.games_nonneg hA _ _)

theorem grad_fl (hA : ∀ i j, 0 ≤ A i j) : grad (mat A) (vec γ) = fun i : Fin n => Fl.fin (gradG A i.castSucc γ) := by
  funext i
  unfold grad
  have h1 : (fun j => if gind (mat A) i j then gm (mat A) i j * rus (vec γ) i j else 0) =
      fun j => Fl.fin (Spec.BT.games A i.castSucc j * winP γ i.castSucc j) := by
    funext j
    rw [gind_fl]
    by_cases h : 0 < Spec.BT.games A i.castSucc j
    · rw [if_pos (by simpa using h), rus_fl]
      rfl
    · rw [if_neg (by simpa using h), not_gind hA h, zero_mul]
      rfl
  rw [h1, sum_vec]
  have h2 : Np.sum (List.ofFn fun j => mat A i.castSucc j) = .fin (wins A i.castSucc) := sum_vec _
  rw [h2, Fl.fin_neg, Fl.fin_add]
  unfold gradG winP
  rw [sub_eq_add_neg]

theorem curv_fl (hA : ∀ i j, 0 ≤ A i j) (i : Fin n) (j : Fin (n + 1)) :
    curv (mat A) (vec γ) i j = .fin (curvG A γ i.castSucc j) := by
  unfold curv
  rw [gind_fl]
  by_cases h : 0 < Spec.BT.games A i.castSucc j
  · rw [if_pos (by simpa using h), rus_fl]
    unfold gm mat
    rw [Fl.one_def, Fl.fin_sub, Fl.fin_add, Fl.fin_mul, Fl.fin_mul]
    unfold curvG
    rw [← mul_assoc]
    rfl
  · rw [if_neg (by simpa using h)]
    unfold curvG
    rw [not_gind hA h, zero_mul]
    rfl

theorem hess_fl (hA : ∀ i j, 0 ≤ A i j) (hD : ∀ i, A i i = 0) : hess (mat A) (vec γ) = fun i j : Fin n => Fl.fin (hessR A γ i j) := by
  funext i j
  unfold hess
  rw [gind_fl, curv_fl hA]
  by_cases h : 0 < Spec.BT.games A i.castSucc j.castSucc
  · rw [if_pos (by simpa using h)]
    have hij : i ≠ j := by
      rintro rfl
      unfold Spec.BT.games at h
      rw [hD] at h
      simp at h
    unfold hessR
    rw [if_neg hij]
  · rw [if_neg (by simpa using h)]
    unfold hessR
    by_cases hij : i = j
    · rw [if_pos hij, if_pos hij]
      have : (fun j => curv (mat A) (vec γ) i j) = fun j => Fl.fin (curvG A γ i.castSucc j) := by
        funext j; exact curv_fl hA i j
      rw [this, sum_vec, Fl.fin_neg]
    · rw [if_neg hij, if_neg hij]
      unfold curvG
      rw [not_gind hA h, zero_mul]
      rfl

theorem extend_fl (c : Fin n → ℝ) : extend (fun i => Fl.fin (c i)) = vec (ext0 c) := by
  funext i
  unfold extend vec ext0
  split_ifs <;> rfl

/-- the change of one pass solves the Newton equations -/
theorem nrChange_fl {pinv} (hpi : InverseWhereExists pinv) (hA : ∀ i j, 0 ≤ A i j) (hD : ∀ i, A i i = 0) (hc : Connected A) :
    ∃ c : Fin n → ℝ, nrChange pinv (mat A) (vec γ) = .ok (vec (ext0 c)) ∧
      (∀ i, ∑ j, hessR A γ i j * c j = gradG A i.castSucc γ) := by
  obtain ⟨G, hG, -⟩ := hessR_inverse (γ := γ) hA hD hc
  refine ⟨fun i => ∑ j, G i j * gradG A j.castSucc γ, ?_, fun i => solve hG (fun j => gradG A j.castSucc γ) i⟩
  unfold nrChange
  rw [hess_fl hA hD, hpi n _ _ hG, grad_fl hA]
  dsimp only
  congr 1
  rw [← extend_fl]
  congr 1
  funext i
  unfold matVec
  simp only [Fl.fin_mul]
  exact sum_vec _

/-- what the loop returns -/
theorem nrLoop_ok {pinv} (hpi : InverseWhereExists pinv) (hA : ∀ i j, 0 ≤ A i j) (hD : ∀ i, A i i = 0) (hc : Connected A)
    {x : Arr1 (Fl ℝ) (n + 1)} {r} (hl : NrLoop pinv (mat A) x r) :
    ∀ γ, x = vec γ → ∃ (γ0 : Fin (n + 1) → ℝ) (c : Fin n → ℝ), r = .ok (vec fun i => γ0 i - ext0 c i) ∧
      (∀ i, ∑ j, hessR A γ0 i j * c j = gradG A i.castSucc γ0) ∧ Real.sqrt (∑ i, ext0 c i ^ 2) ≤ 1 / 10 ^ 8 := by
  induction hl with
  | fail h =>
    rintro γ rfl
    obtain ⟨c, he, -⟩ := nrChange_fl (γ := γ) hpi hA hD hc
    rw [he] at h
    cases h
  | bad h hn =>
    rintro γ rfl
    obtain ⟨c, he, -⟩ := nrChange_fl (γ := γ) hpi hA hD hc
    rw [he] at h
    cases h
    have hn' := norm_vec (ext0 c)
    unfold vec at hn
    rw [hn'] at hn
    cases hn
  | stop h hn hd =>
    rintro γ rfl
    obtain ⟨c, he, hs⟩ := nrChange_fl (γ := γ) hpi hA hD hc
    rw [he] at h
    cases h
    have hn' := norm_vec (ext0 c)
    unfold vec at hn
    rw [hn'] at hn
    cases hn
    rw [thr_fl, Fl.lt_fin, decide_eq_false_iff_not, not_lt] at hd
    exact ⟨γ, c, rfl, hs, hd⟩
  | next h hn hd hr ih =>
    rintro γ rfl
    obtain ⟨c, he, hs⟩ := nrChange_fl (γ := γ) hpi hA hD hc
    rw [he] at h
    cases h
    exact ih (fun i => γ i - ext0 c i) rfl

end Sureal.Bt
