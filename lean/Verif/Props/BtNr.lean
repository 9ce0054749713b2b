import Verif.Lemmas.BtNr
import Verif.Props.Bt
import Verif.Lemmas.Fl
/-!
# Properties C58, C59: curvature of the Bradley-Terry likelihood, Newton-Raphson
-/
set_option linter.unusedSectionVars false
namespace Sureal.Props
open Spec.BT BtMath
variable {M : ℕ} {p : Fin M → ℝ} {A : Fin M → Fin M → ℝ}

/-! ## C58 -/

theorem lambda_off {i j : Fin M} (hij : i ≠ j) (hp : ∀ i, 0 < p i) :
    Bt.lambda (mat A) (vec p) i j = .fin (2 * (games A i j / (p i + p j))) := by
  unfold Bt.lambda Bt.games Bt.pairSum mat vec
  rw [if_neg hij, Fl.fin_add, Fl.fin_add, Fl.fin_div (add_pos (hp i) (hp j)).ne', Fl.natCast_def, Fl.fin_mul,
    Fl.zero_def, Fl.fin_add, add_zero, mul_comm]
  rfl

/-- The diagonal of the matrix used for the confidence intervals is right: without self-comparisons it is the second
derivative of the log-likelihood.

Missing: the entries off the diagonal, which are wrong, see `C58_refuted`. -/
theorem C58_diagonal_partial (hA : ∀ i, A i i = 0) (hp : ∀ i, 0 < p i) (i : Fin M) :
    ∃ h : ℝ, Hessian Positive (logLik A) p i i h ∧ Bt.lambda (mat A) (vec p) i i = .fin h := by
  refine ⟨_, hessian_diag hA i hp, ?_⟩
  unfold Bt.lambda
  rw [if_pos rfl]
  have h1 : Bt.games (mat A) i i / Bt.pairSum (vec p) i i * ((2 : ℕ) : Fl ℝ) = .fin 0 := by
    unfold Bt.games Bt.pairSum mat vec
    rw [hA i, Fl.fin_add, Fl.fin_add, Fl.fin_div (add_pos (hp i) (hp i)).ne', Fl.natCast_def, Fl.fin_mul]
    simp
  have h2 : Bt.lambdaDiag (mat A) (vec p) i = .fin (-wins A i / p i ^ 2 + ∑ l, games A i l / (p i + p l) ^ 2) := by
    unfold Bt.lambdaDiag
    have : (fun j => -mat A i j / (vec p i).sq + Bt.games (mat A) i j / (Bt.pairSum (vec p) i j).sq) =
        fun j => Fl.fin (-A i j / p i ^ 2 + games A i j / (p i + p j) ^ 2) := by
      funext j
      unfold Bt.games Bt.pairSum mat vec
      have h1 : p i * p i ≠ 0 := (mul_pos (hp i) (hp i)).ne'
      have h2 : (p i + p j) * (p i + p j) ≠ 0 := (mul_pos (add_pos (hp i) (hp j)) (add_pos (hp i) (hp j))).ne'
      rw [Fl.sq_fin, Fl.fin_neg, Fl.fin_div h1, Fl.fin_add, Fl.fin_add, Fl.sq_fin, Fl.fin_div h2, Fl.fin_add,
        pow_two, pow_two]
      rfl
    rw [this, Bt.sum_vec, Finset.sum_add_distrib]
    congr 2
    unfold wins
    rw [← Finset.sum_neg_distrib, Finset.sum_div]
  rw [h1, h2, Fl.fin_add, zero_add]

/-- Off the diagonal the second derivative is `n / (p_i + p_j) ^ 2`, but the code uses `2 * n / (p_i + p_j)` (it writes
`n / pp*2`): the entry is right iff the two videos were never compared or `p_i + p_j = 1/2`. -/
theorem C58_refuted (hA : ∀ i j, 0 ≤ A i j) (hp : ∀ i, 0 < p i) {i j : Fin M} (hij : i ≠ j) :
    (∃ h : ℝ, Hessian Positive (logLik A) p i j h ∧ Bt.lambda (mat A) (vec p) i j = .fin h) ↔
      A i j + A j i = 0 ∨ p i + p j = 1 / 2 := by
  have hs := add_pos (hp i) (hp j)
  rw [lambda_off hij hp]
  have hiff : (games A i j / (p i + p j) ^ 2 = 2 * (games A i j / (p i + p j))) ↔ A i j + A j i = 0 ∨ p i + p j = 1 / 2 := by
    rw [show A i j + A j i = games A i j from rfl]
    constructor
    · intro h
      field_simp at h
      have : games A i j * (1 - 2 * (p i + p j)) = 0 := by linarith
      rcases mul_eq_zero.mp this with h | h
      · exact Or.inl h
      · exact Or.inr (by linarith)
    · rintro (h | h)
      · rw [h]; simp
      · rw [h]; ring
  rw [← hiff]
  constructor
  · rintro ⟨h, hh, he⟩
    rw [Fl.fin_inj] at he
    rw [he]
    exact hessian_unique hp (hessian_off hij hp) hh
  · intro h
    exact ⟨_, hessian_off hij hp, by rw [h]⟩

/-- in particular with two videos that were compared it is never right -/
example : ¬ ∃ h : ℝ, Hessian Positive (logLik threeOne) ![3 / 4, 1 / 4] 0 1 h ∧
    Bt.lambda (mat threeOne) (vec ![3 / 4, 1 / 4]) 0 1 = .fin h := by
  rw [C58_refuted threeOne_table.nonneg threeOne_prob.pos (by decide)]
  simp [threeOne]
  norm_num

/-! ## C59 -/

section newton
variable {n : ℕ} {A : Fin (n + 1) → Fin (n + 1) → ℝ} {γ : Fin (n + 1) → ℝ}

/-- Without `zscore_output` the score reported for the last video is 0. -/
theorem C59_last {pinv} {zscore : Flag} (hz : zscore.isTrue = false) {wm : Arr2 (Fl ℝ) (n + 1) (n + 1)}
    {s : Arr1 (Fl ℝ) (n + 1)} (h : Bt.NrRun pinv zscore wm (.ok s)) : s (Fin.last n) = 0 := by
  cases h with
  | done _ =>
    rw [hz]
    exact if_pos rfl

/-- Setting it to 0 changes nothing: it is 0 after every pass. -/
theorem C59_last_invariant {pinv} {wm : Arr2 (Fl ℝ) (n + 1) (n + 1)} {ga ga' : Arr1 (Fl ℝ) (n + 1)}
    (h : Bt.NrLoop pinv wm ga (.ok ga')) (h0 : ga (Fin.last n) = 0) : Bt.pinLast ga' = ga' := by
  have step : ∀ {ga c : Arr1 (Fl ℝ) (n + 1)}, Bt.nrChange pinv wm ga = .ok c → ga (Fin.last n) = 0 →
      ga (Fin.last n) - c (Fin.last n) = 0 := by
    intro ga c hc hg
    unfold Bt.nrChange at hc
    cases hp : pinv n (Bt.hess wm ga) with
    | error e => rw [hp] at hc; cases hc
    | ok a =>
      rw [hp] at hc
      have := Except.ok.inj hc
      have hl : c (Fin.last n) = 0 := by
        rw [← this]
        unfold Bt.extend
        rw [dif_neg (by simp)]
      rw [hg, hl, Fl.zero_def, Fl.fin_sub, sub_zero]
  have key : ∀ {ga r}, Bt.NrLoop pinv wm ga r → ∀ ga', r = .ok ga' → ga (Fin.last n) = 0 → ga' (Fin.last n) = 0 := by
    intro ga r h
    induction h with
    | fail _ => intro _ h; cases h
    | bad _ _ => intro _ h; cases h
    | stop hc _ _ =>
      intro ga' he h0
      cases he
      exact step hc h0
    | next hc _ _ _ ih =>
      intro ga' he h0
      exact ih ga' he (step hc h0)
  have hl := key h ga' rfl h0
  funext i
  unfold Bt.pinLast
  split_ifs with hi
  · have : i = Fin.last n := Fin.ext hi
    rw [this, hl]
  · rfl

/-- The vector `dL` of each pass is the gradient of the log-likelihood in the scores. -/
theorem C59_gradient (hA : ∀ i j, 0 ≤ A i j) (i : Fin n) :
    ∃ g, Partial (fun _ => True) (fun γ => logLik A (expV γ)) i.castSucc g ∧
      ∀ γ, Bt.grad (mat A) (vec γ) i = .fin (g γ) :=
  ⟨_, partial_scores i.castSucc, fun γ => congrFun (Bt.grad_fl hA) i⟩

/-- The matrix `d2L` of each pass is its Hessian, if no video is compared with itself. -/
theorem C59_hessian (hA : ∀ i j, 0 ≤ A i j) (hD : ∀ i, A i i = 0) (γ : Fin (n + 1) → ℝ) (i j : Fin n) :
    ∃ h : ℝ, Hessian (fun _ => True) (fun γ => logLik A (expV γ)) γ i.castSucc j.castSucc h ∧
      Bt.hess (mat A) (vec γ) i j = .fin h := by
  refine ⟨hessR A γ i j, ?_, congrFun (congrFun (Bt.hess_fl hA hD) i) j⟩
  unfold hessR
  by_cases hij : i = j
  · rw [if_pos hij, ← hij]
    exact hessian_scores_diag hD γ i.castSucc
  · rw [if_neg hij]
    exact hessian_scores_off γ (fun h => hij (Fin.castSucc_injective n h))

/-- If a video is compared with itself the diagonal entry is overwritten by a positive number, although the true one is
never positive. -/
theorem C59_selfComparison (hA : ∀ i j, 0 ≤ A i j) (i : Fin n) (hs : 0 < A i.castSucc i.castSucc) :
    ∃ x : ℝ, 0 < x ∧ Bt.hess (mat A) (vec γ) i i = .fin x := by
  have hg : 0 < games A i.castSucc i.castSucc := by
    unfold games
    linarith
  refine ⟨curvG A γ i.castSucc i.castSucc, ?_, ?_⟩
  · unfold curvG
    rw [winP_compl]
    exact mul_pos hg (mul_pos (winP_pos _ _) (winP_pos _ _))
  · unfold Bt.hess
    rw [Bt.gind_fl, if_pos (by simpa using hg), Bt.curv_fl hA]

/-- A pass leaves the scores unchanged iff the gradient vanishes there. -/
theorem C59_fixed_iff {pinv} (hpi : InverseWhereExists pinv) (hA : ∀ i j, 0 ≤ A i j) (hD : ∀ i, A i i = 0) (hc : Connected A) :
    Bt.nrChange pinv (mat A) (vec γ) = .ok (fun _ => 0) ↔ ∀ i : Fin n, Bt.grad (mat A) (vec γ) i = 0 := by
  obtain ⟨c, he, hs⟩ := Bt.nrChange_fl (γ := γ) hpi hA hD hc
  rw [he, Bt.grad_fl hA]
  constructor
  · intro h i
    have h0 : ∀ j : Fin n, c j = 0 := by
      intro j
      have := congrFun (Except.ok.inj h) j.castSucc
      unfold vec at this
      rw [ext0_castSucc] at this
      exact Fl.fin_inj.mp this
    dsimp only
    rw [← hs i]
    simp only [h0, mul_zero, Finset.sum_const_zero]
    rfl
  · intro h
    have h0 : c = 0 := by
      refine hessR_inj (γ := γ) hA hD hc c fun i => ?_
      rw [hs i]
      exact Fl.fin_inj.mp (h i)
    congr 1
    funext i
    unfold vec ext0
    split_ifs
    · rw [h0]; rfl
    · rfl

/-- A vanishing gradient for all but the last video maximises the likelihood over all scores. -/
theorem C59_stationary_max (hA : ∀ i j, 0 ≤ A i j) (h : ∀ i : Fin n, Bt.grad (mat A) (vec γ) i = 0) (γ' : Fin (n + 1) → ℝ) :
    logLik A (expV γ') ≤ logLik A (expV γ) := by
  rw [Bt.grad_fl hA] at h
  have h1 : ∀ i : Fin n, gradG A i.castSucc γ = 0 := fun i => Fl.fin_inj.mp (h i)
  have h2 : gradG A (Fin.last n) γ = 0 := by
    have := gradG_sum (A := A) (γ := γ)
    rw [Fin.sum_univ_castSucc] at this
    simpa [h1] using this
  have h3 : ∀ i, gradG A i γ = 0 := fun i => by
    rcases Fin.eq_castSucc_or_eq_last i with ⟨j, rfl⟩ | rfl
    · exact h1 j
    · exact h2
  exact likEq_max hA (gradG_likEq h3) (expV_pos γ) (expV_pos γ')

/-- When the loop stops it returns scores (it does not raise), and there the gradient is at most 10^-8 times the number of
comparisons of the video.  `linalg.pinv` is assumed to invert invertible matrices; all videos are linked by comparisons. -/
theorem C59_stop {pinv} (hpi : InverseWhereExists pinv) (hA : ∀ i j, 0 ≤ A i j) (hD : ∀ i, A i i = 0) (hc : Connected A)
    {r} (h : Bt.NrLoop pinv (mat A) (fun _ => 0) r) :
    ∃ γ : Fin (n + 1) → ℝ, r = .ok (vec γ) ∧ ∀ i : Fin n, ∃ g : ℝ, Bt.grad (mat A) (vec γ) i = .fin g ∧
      |g| ≤ 1 / 10 ^ 8 * ∑ j, (A i.castSucc j + A j i.castSucc) := by
  obtain ⟨γ0, c, hr, hs, hn⟩ := Bt.nrLoop_ok hpi hA hD hc h (fun _ => 0) rfl
  have hci : ∀ i, |ext0 c i| ≤ 1 / 10 ^ 8 := by
    intro i
    rw [← Real.sqrt_sq_eq_abs]
    exact (Real.sqrt_le_sqrt (Finset.single_le_sum (f := fun i => ext0 c i ^ 2) (fun k _ => sq_nonneg _) (Finset.mem_univ i))).trans hn
  refine ⟨_, hr, fun i => ⟨_, congrFun (Bt.grad_fl hA) i, ?_⟩⟩
  have h1 := gradG_lipschitz (A := A) (γ := γ0) (γ' := fun i => γ0 i - ext0 c i) hA (d := 1 / 10 ^ 8)
    (fun i => by simpa using hci i) i.castSucc
  have h2 : |gradG A i.castSucc γ0| ≤ 1 / 10 ^ 8 / 2 * ∑ l, games A i.castSucc l := by
    rw [← hs i]
    refine hessR_row hA hD (fun j => ?_) (by norm_num) i
    rw [← ext0_castSucc c j]
    exact hci _
  have h3 : ∑ j, (A i.castSucc j + A j i.castSucc) = ∑ l, games A i.castSucc l := rfl
  rw [h3]
  have h4 := abs_sub_abs_le_abs_sub (gradG A i.castSucc fun i => γ0 i - ext0 c i) (gradG A i.castSucc γ0)
  linarith

/-- With `zscore_output` the reported scores have mean 0 and standard deviation 1, unless all scores are equal. -/
theorem C59_zscore {m : ℕ} (x : Fin m → ℝ) (hx : ∃ i j, x i ≠ x j) :
    ∃ z : Fin m → ℝ, Bt.zscored (vec x) = vec z ∧ (∑ i, z i) / m = 0 ∧ (∑ i, z i ^ 2) / m = 1 := by
  obtain ⟨i0, j0, hne⟩ := hx
  have hm0 : (m : ℝ) ≠ 0 := by
    have : 0 < m := lt_of_le_of_lt (Nat.zero_le _) i0.isLt
    exact_mod_cast this.ne'
  have hmp : (0 : ℝ) < m := lt_of_le_of_ne (Nat.cast_nonneg m) (Ne.symm hm0)
  set μ := (∑ i, x i) / m with hμ
  set V := ∑ i, (x i - μ) ^ 2 with hV
  have hVp : 0 < V := by
    have h0 : 0 ≤ V := Finset.sum_nonneg fun i _ => sq_nonneg _
    refine lt_of_le_of_ne h0 fun he => hne ?_
    have hz := (Finset.sum_eq_zero_iff_of_nonneg fun i _ => sq_nonneg (x i - μ)).mp he.symm
    have : ∀ i, x i = μ := fun i => by
      have := pow_eq_zero_iff (two_ne_zero) |>.mp (hz i (Finset.mem_univ i))
      linarith
    rw [this i0, this j0]
  have hmean : Np.mean (List.ofFn (vec x)) = .fin μ := by
    unfold Np.mean
    have : Np.sum (List.ofFn (vec x)) = .fin (∑ i, x i) := Bt.sum_vec x
    rw [this, List.length_ofFn, Fl.natCast_def, Fl.fin_div hm0]
  have hstd : Np.std (List.ofFn (vec x)) = .fin (Real.sqrt (V / m)) := by
    unfold Np.std Np.var
    rw [hmean, List.map_ofFn]
    have : ((fun y : Fl ℝ => (y - Fl.fin μ).sq) ∘ vec x) = fun i => Fl.fin ((x i - μ) ^ 2) := by
      funext i
      unfold vec
      simp only [Function.comp, Fl.fin_sub, Fl.sq_fin, pow_two]
    rw [this, Bt.sum_vec, List.length_ofFn, Fl.natCast_def, Fl.fin_div hm0, Fl.sqrt_fin (div_nonneg hVp.le hmp.le)]
    rfl
  have hσ : 0 < Real.sqrt (V / m) := Real.sqrt_pos.mpr (div_pos hVp hmp)
  refine ⟨fun i => (x i - μ) / Real.sqrt (V / m), ?_, ?_, ?_⟩
  · funext i
    unfold Bt.zscored
    rw [hmean, hstd]
    unfold vec
    rw [Fl.fin_sub, Fl.fin_div hσ.ne']
  · rw [← Finset.sum_div, Finset.sum_sub_distrib, Finset.sum_const, Finset.card_univ, Fintype.card_fin, nsmul_eq_mul]
    have : ∑ i, x i - (m : ℝ) * μ = 0 := by
      rw [hμ]; field_simp; ring
    rw [this]
    simp
  · simp only [div_pow]
    rw [← Finset.sum_div, ← hV, Real.sq_sqrt (div_nonneg hVp.le hmp.le)]
    field_simp

end newton

/-- the example's win matrix is linked, has no self-comparisons, and a pseudo-inverse as assumed exists -/
example : (∀ i j, 0 ≤ threeOne i j) ∧ (∀ i, threeOne i i = 0) ∧ Connected (M := 2) threeOne := by
  refine ⟨threeOne_table.nonneg, fun i => ?_, ?_⟩
  · fin_cases i <;> simp [threeOne]
  · intro i j
    fin_cases i <;> fin_cases j
    · exact .refl
    · exact .single (by simp [Spec.BT.games, threeOne]; norm_num)
    · exact .single (by simp [Spec.BT.games, threeOne]; norm_num)
    · exact .refl

open Classical in
example : ∃ pinv, InverseWhereExists pinv := by
  refine ⟨fun k m => if h : ∃ H G : Fin k → Fin k → ℝ, (∀ i j, ∑ l, H i l * G l j = if i = j then 1 else 0) ∧
    m = (fun i j => .fin (H i j)) then .ok fun i j => .fin (h.choose_spec.choose i j) else .error .value, ?_⟩
  intro k H G hG
  have hex : ∃ H' G' : Fin k → Fin k → ℝ, (∀ i j, ∑ l, H' i l * G' l j = if i = j then 1 else 0) ∧
      (fun i j => (.fin (H i j) : Fl ℝ)) = (fun i j => .fin (H' i j)) := ⟨H, G, hG, rfl⟩
  dsimp only
  rw [dif_pos hex]
  have h12 := hex.choose_spec.choose_spec
  generalize hex.choose_spec.choose = G' at h12 ⊢
  generalize hex.choose = H' at h12
  obtain ⟨h1, h2⟩ := h12
  have hHH : H' = H := by
    funext i j
    exact (Fl.fin_inj.mp (congrFun (congrFun h2 i) j)).symm
  rw [hHH] at h1
  congr 1
  funext i j
  congr 1
  have m1 : Matrix.of H * Matrix.of G = 1 := by
    ext i j
    rw [Matrix.mul_apply, Matrix.one_apply]
    exact hG i j
  have m2 : Matrix.of H * Matrix.of G' = 1 := by
    ext i j
    rw [Matrix.mul_apply, Matrix.one_apply]
    exact h1 i j
  have m3 : Matrix.of G' = Matrix.of G := by
    have m4 := mul_eq_one_comm.mp m1
    calc Matrix.of G' = (Matrix.of G * Matrix.of H) * Matrix.of G' := by rw [m4, one_mul]
      _ = Matrix.of G := by rw [Matrix.mul_assoc, m2, mul_one]
  exact congrFun (congrFun m3 i) j

end Sureal.Props
