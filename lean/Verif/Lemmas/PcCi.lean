import Verif.Lemmas.Normal
import Verif.Lemmas.BtGrad
import Mathlib.MeasureTheory.Integral.IntegralEqImproper
import Mathlib.LinearAlgebra.Matrix.NonsingularInverse
import Mathlib.LinearAlgebra.Matrix.ToLin
/-!
# Weighted differences, their bordered matrix, and the curvature of the normal distribution
-/
namespace Sureal.Spec.Thurstone
open MeasureTheory Filter

theorem normalPdf_tendsto : Tendsto normalPdf atBot (nhds 0) := by
  have h : Tendsto (fun x : ℝ => (Real.sqrt (2 * Real.pi))⁻¹ * Real.exp (-(1 / 2) * x ^ 2)) atBot
      (nhds ((Real.sqrt (2 * Real.pi))⁻¹ * 0)) := by
    refine Tendsto.const_mul _ (Real.tendsto_exp_atBot.comp ?_)
    refine Tendsto.const_mul_atTop_of_neg (by norm_num) ?_
    have := (tendsto_pow_atTop (two_ne_zero) : Tendsto (fun x : ℝ => x ^ 2) atTop atTop).comp tendsto_neg_atBot_atTop
    refine this.congr fun x => ?_
    simp
  rwa [mul_zero] at h

theorem normalPdf_mul_integrable : Integrable fun t : ℝ => -t * normalPdf t := by
  have h := (integrable_mul_exp_neg_mul_sq (b := (1 / 2 : ℝ)) (by norm_num)).const_mul (-(Real.sqrt (2 * Real.pi))⁻¹)
  refine h.congr (Eventually.of_forall fun t => ?_)
  simp only [normalPdf]
  ring

/-- Mills' inequality -/
theorem mills (x : ℝ) : 0 < x * normalCdf x + normalPdf x := by
  have h1 : ∫ t in Set.Iic x, -t * normalPdf t = normalPdf x - 0 :=
    integral_Iic_of_hasDerivAt_of_tendsto' (fun t _ => normalPdf_deriv t) normalPdf_mul_integrable.integrableOn normalPdf_tendsto
  have h2 : x * normalCdf x + normalPdf x = ∫ t in Set.Iic x, (x - t) * normalPdf t := by
    have : (fun t : ℝ => (x - t) * normalPdf t) = fun t => x * normalPdf t + -t * normalPdf t := by
      funext t; ring
    rw [this, integral_add (normalPdf_integrable.const_mul x).integrableOn normalPdf_mul_integrable.integrableOn, h1,
      integral_const_mul, sub_zero]
    rfl
  rw [h2, setIntegral_pos_iff_support_of_nonneg_ae]
  · have hs : Set.Iio x ⊆ (Function.support fun t : ℝ => (x - t) * normalPdf t) ∩ Set.Iic x := by
      intro t ht
      have ht' : t < x := ht
      refine ⟨?_, ht'.le⟩
      exact mul_ne_zero (sub_ne_zero.mpr ht'.ne') (normalPdf_pos t).ne'
    refine lt_of_lt_of_le ?_ (measure_mono hs)
    simp
  · refine (ae_restrict_iff' measurableSet_Iic).mpr (Eventually.of_forall fun t ht => ?_)
    exact mul_nonneg (sub_nonneg.mpr ht) (normalPdf_pos t).le
  · have : (fun t : ℝ => (x - t) * normalPdf t) = fun t => x * normalPdf t + -t * normalPdf t := by
      funext t; ring
    rw [this]
    exact ((normalPdf_integrable.const_mul x).add normalPdf_mul_integrable).integrableOn

/-- the logarithm of the normal distribution function is strictly concave -/
theorem curvature_normal_neg (x : ℝ) : curvature normalCdf normalPdf x < 0 := by
  unfold curvature
  refine div_neg_of_neg_of_pos ?_ (pow_pos (normalCdf_pos x) 2)
  have := mul_pos (normalPdf_pos x) (mills x)
  nlinarith

end Sureal.Spec.Thurstone

namespace Sureal.PcCi
variable {M : ℕ} {w : Fin M → Fin M → ℝ}

/-- weighted differences of scores -/
def diffs (w : Fin M → Fin M → ℝ) (x : Fin M → ℝ) (i : Fin M) : ℝ := ∑ j, w i j * (x i - x j)

/-- the matrix of `diffs` -/
def lap (w : Fin M → Fin M → ℝ) (i j : Fin M) : ℝ := -w i j + if i = j then ∑ k, w i k else 0

theorem lap_mul (x : Fin M → ℝ) (i : Fin M) : ∑ j, lap w i j * x j = diffs w x i := by
  unfold lap diffs
  simp only [add_mul, Finset.sum_add_distrib, ite_mul, zero_mul, Finset.sum_ite_eq, Finset.mem_univ, if_true, mul_sub,
    Finset.sum_sub_distrib, neg_mul, Finset.sum_neg_distrib, Finset.sum_mul]
  ring

/-- the matrix that is inverted -/
def border (l : Fin M → Fin M → ℝ) (i j : Fin (M + 1)) : ℝ :=
  if hi : i.val < M then
    if hj : j.val < M then l ⟨i, hi⟩ ⟨j, hj⟩ else 1
  else if j.val < M then 1 else 0

theorem border_ll (l : Fin M → Fin M → ℝ) (i j : Fin M) : border l i.castSucc j.castSucc = l i j := by simp [border]
theorem border_lr (l : Fin M → Fin M → ℝ) (i : Fin M) : border l i.castSucc (Fin.last M) = 1 := by simp [border]
theorem border_rl (l : Fin M → Fin M → ℝ) (j : Fin M) : border l (Fin.last M) j.castSucc = 1 := by simp [border]
theorem border_rr (l : Fin M → Fin M → ℝ) : border l (Fin.last M) (Fin.last M) = 0 := by simp [border]

/-- nothing is higher than `k` if everything else is at most the weighted mean of its neighbours -/
theorem max_at (hw : ∀ i j, 0 ≤ w i j) (hc : ∀ i j, Relation.ReflTransGen (fun i j => 0 < w i j) i j) (k : Fin M) (x : Fin M → ℝ)
    (h : ∀ i, i ≠ k → diffs w x i ≤ 0) (i : Fin M) : x i ≤ x k := by
  obtain ⟨m, -, hm⟩ := Finset.exists_max_image Finset.univ x ⟨k, Finset.mem_univ k⟩
  have hstep : ∀ a b, x a = x m → 0 < w a b → a ≠ k → x b = x m := by
    intro a b ha hab hak
    have hnn : ∀ j ∈ Finset.univ, 0 ≤ w a j * (x a - x j) := fun j hj =>
      mul_nonneg (hw a j) (by rw [ha]; linarith [hm j hj])
    have h0 : diffs w x a = 0 := le_antisymm (h a hak) (Finset.sum_nonneg hnn)
    have := (Finset.sum_eq_zero_iff_of_nonneg hnn).mp h0 b (Finset.mem_univ b)
    rcases mul_eq_zero.mp this with h1 | h1
    · exact absurd h1 hab.ne'
    · linarith
  have hpath : ∀ b, Relation.ReflTransGen (fun i j => 0 < w i j) m b → x b = x m ∨ x k = x m := by
    intro b hb
    induction hb with
    | refl => exact Or.inl rfl
    | tail _ hab ih =>
      rename_i a b _
      rcases ih with ih | ih
      · by_cases hak : a = k
        · exact Or.inr (hak ▸ ih)
        · exact Or.inl (hstep a b ih hab hak)
      · exact Or.inr ih
  have : x k = x m := by rcases hpath k (hc m k) with h | h <;> exact h
  rw [this]
  exact hm i (Finset.mem_univ i)

theorem diffs_neg (x : Fin M → ℝ) (i : Fin M) : diffs w (fun i => -x i) i = -diffs w x i := by
  unfold diffs
  rw [← Finset.sum_neg_distrib]
  refine Finset.sum_congr rfl fun j _ => by ring

theorem zero_of_le (hw : ∀ i j, 0 ≤ w i j) (hc : ∀ i j, Relation.ReflTransGen (fun i j => 0 < w i j) i j) (x : Fin M → ℝ)
    (h : ∀ i, diffs w x i ≤ 0) (h0 : ∑ i, x i = 0) : ∀ i, x i = 0 := by
  intro i
  have hall : ∀ j, x j = x i := fun j => le_antisymm (max_at hw hc i x (fun a _ => h a) j) (max_at hw hc j x (fun a _ => h a) i)
  have hs : ∑ j, x j = M * x i := by
    rw [Finset.sum_congr rfl fun j _ => hall j, Finset.sum_const, Finset.card_univ, Fintype.card_fin, nsmul_eq_mul]
  have hM : (M : ℝ) ≠ 0 := Nat.cast_ne_zero.mpr fun h => by subst h; exact i.elim0
  rw [h0] at hs
  rcases mul_eq_zero.mp hs.symm with h | h
  · exact absurd h hM
  · exact h

theorem zero_of_ge (hw : ∀ i j, 0 ≤ w i j) (hc : ∀ i j, Relation.ReflTransGen (fun i j => 0 < w i j) i j) (x : Fin M → ℝ)
    (h : ∀ i, 0 ≤ diffs w x i) (h0 : ∑ i, x i = 0) : ∀ i, x i = 0 := by
  have := zero_of_le hw hc (fun i => -x i) (fun i => by rw [diffs_neg]; linarith [h i]) (by rw [Finset.sum_neg_distrib, h0, neg_zero])
  intro i
  linarith [this i]

theorem border_inverse (hM : M ≠ 0) (hw : ∀ i j, 0 ≤ w i j) (hc : ∀ i j, Relation.ReflTransGen (fun i j => 0 < w i j) i j) :
    ∃ G : Fin (M + 1) → Fin (M + 1) → ℝ, (∀ i j, ∑ l, border (lap w) i l * G l j = if i = j then 1 else 0) ∧
      (∀ i j, ∑ l, G i l * border (lap w) l j = if i = j then 1 else 0) := by
  let B : Matrix (Fin (M + 1)) (Fin (M + 1)) ℝ := border (lap w)
  have hinj : Function.Injective B.mulVec := by
    have hker : ∀ y, B.mulVec y = 0 → y = 0 := by
      intro y hy
      have hrow : ∀ i : Fin M, diffs w (fun j => y j.castSucc) i + y (Fin.last M) = 0 := by
        intro i
        have := congrFun hy i.castSucc
        simp only [Matrix.mulVec, dotProduct, Fin.sum_univ_castSucc, Pi.zero_apply, B] at this
        simp only [border_ll, border_lr, one_mul] at this
        rw [← lap_mul]
        exact this
      have hlast : ∑ i : Fin M, y i.castSucc = 0 := by
        have := congrFun hy (Fin.last M)
        simp only [Matrix.mulVec, dotProduct, Fin.sum_univ_castSucc, Pi.zero_apply, B] at this
        simp only [border_rl, border_rr, one_mul, zero_mul, add_zero] at this
        exact this
      have hx : ∀ i : Fin M, y i.castSucc = 0 := by
        rcases le_total 0 (y (Fin.last M)) with h | h
        · exact zero_of_le hw hc (fun j => y j.castSucc) (fun i => by linarith [hrow i]) hlast
        · exact zero_of_ge hw hc (fun j => y j.castSucc) (fun i => by linarith [hrow i]) hlast
      have ht : y (Fin.last M) = 0 := by
        have := hrow ⟨0, Nat.pos_of_ne_zero hM⟩
        simp only [diffs, hx, sub_zero, mul_zero, Finset.sum_const_zero, zero_add] at this
        exact this
      funext i
      refine Fin.lastCases ht (fun j => hx j) i
    intro a b hab
    have := hker (a - b) (by rw [Matrix.mulVec_sub, hab, sub_self])
    exact sub_eq_zero.mp this
  have hu : IsUnit B := Matrix.mulVec_injective_iff_isUnit.mp hinj
  have hd : IsUnit B.det := (Matrix.isUnit_iff_isUnit_det B).mp hu
  refine ⟨(B⁻¹ : Matrix (Fin (M + 1)) (Fin (M + 1)) ℝ), fun i j => ?_, fun i j => ?_⟩
  · have := congrFun (congrFun (Matrix.mul_nonsing_inv B hd) i) j
    rw [Matrix.mul_apply, Matrix.one_apply] at this
    exact this
  · have := congrFun (congrFun (Matrix.nonsing_inv_mul B hd) i) j
    rw [Matrix.mul_apply, Matrix.one_apply] at this
    exact this

section inverse
variable {l : Fin M → Fin M → ℝ} {G : Fin (M + 1) → Fin (M + 1) → ℝ}

theorem inv_col (h : ∀ i j, ∑ l', border l i l' * G l' j = if i = j then 1 else 0) (j : Fin M) :
    ∑ i : Fin M, G i.castSucc j.castSucc = 0 := by
  have := h (Fin.last M) j.castSucc
  rw [Fin.sum_univ_castSucc, if_neg (Fin.castSucc_lt_last j).ne'] at this
  simp only [border_rl, border_rr, one_mul, zero_mul, add_zero] at this
  exact this

theorem inv_row (h : ∀ i j, ∑ l', G i l' * border l l' j = if i = j then 1 else 0) (i : Fin M) :
    ∑ j : Fin M, G i.castSucc j.castSucc = 0 := by
  have := h i.castSucc (Fin.last M)
  rw [Fin.sum_univ_castSucc, if_neg (Fin.castSucc_lt_last i).ne] at this
  simp only [border_lr, border_rr, mul_one, mul_zero, add_zero] at this
  exact this

theorem inv_diffs (h : ∀ i j, ∑ l', border (lap w) i l' * G l' j = if i = j then 1 else 0) (i k : Fin M) :
    diffs w (fun j => G j.castSucc k.castSucc) i + G (Fin.last M) k.castSucc = if i = k then 1 else 0 := by
  have := h i.castSucc k.castSucc
  rw [Fin.sum_univ_castSucc] at this
  simp only [border_ll, border_lr, one_mul, lap_mul (fun j => G j.castSucc k.castSucc), Fin.castSucc_inj] at this
  exact this

theorem inv_undo (h : ∀ i j, ∑ l', G i l' * border (lap w) l' j = if i = j then 1 else 0) (x : Fin M → ℝ) (i : Fin M) :
    ∑ k : Fin M, G i.castSucc k.castSucc * diffs w x k = x i - (∑ j, x j) / M := by
  have hM : (M : ℝ) ≠ 0 := Nat.cast_ne_zero.mpr fun h => by subst h; exact i.elim0
  have hcol : ∀ j : Fin M, ∑ k : Fin M, G i.castSucc k.castSucc * lap w k j = (if i = j then 1 else 0) - G i.castSucc (Fin.last M) := by
    intro j
    have := h i.castSucc j.castSucc
    rw [Fin.sum_univ_castSucc] at this
    simp only [border_ll, border_rl, mul_one, Fin.castSucc_inj] at this
    linarith
  have hmul : ∀ y : Fin M → ℝ, ∑ k : Fin M, G i.castSucc k.castSucc * diffs w y k = y i - G i.castSucc (Fin.last M) * ∑ j, y j := by
    intro y
    have : ∀ k : Fin M, G i.castSucc k.castSucc * diffs w y k = ∑ j, G i.castSucc k.castSucc * lap w k j * y j := by
      intro k
      rw [← lap_mul, Finset.mul_sum]
      exact Finset.sum_congr rfl fun j _ => by ring
    simp only [this]
    rw [Finset.sum_comm]
    have h2 : ∀ j : Fin M, ∑ k : Fin M, G i.castSucc k.castSucc * lap w k j * y j =
        ((if i = j then 1 else 0) - G i.castSucc (Fin.last M)) * y j := by
      intro j
      rw [← Finset.sum_mul, hcol]
    simp only [h2, sub_mul, ite_mul, one_mul, zero_mul, Finset.sum_sub_distrib, Finset.sum_ite_eq, Finset.mem_univ, if_true]
    rw [Finset.mul_sum]
  have h1 := hmul fun _ => 1
  simp only [diffs, sub_self, mul_zero, Finset.sum_const_zero, Finset.sum_const, Finset.card_univ, Fintype.card_fin,
    nsmul_eq_mul, mul_one] at h1
  have hg : G i.castSucc (Fin.last M) = 1 / M := by
    rw [eq_div_iff hM]; linarith
  rw [hmul, hg]
  ring

theorem inv_pos (hM : 2 ≤ M) (hw : ∀ i j, 0 ≤ w i j) (hc : ∀ i j, Relation.ReflTransGen (fun i j => 0 < w i j) i j)
    (h : ∀ i j, ∑ l', border (lap w) i l' * G l' j = if i = j then 1 else 0) (k : Fin M) :
    0 < G k.castSucc k.castSucc := by
  have hd := fun i => inv_diffs h i k
  have hs := inv_col h k
  set x : Fin M → ℝ := fun j => G j.castSucc k.castSucc with hx
  set s := G (Fin.last M) k.castSucc with hs'
  have hne : ¬ ∀ i, x i = 0 := by
    intro h0
    have hk := hd k
    obtain ⟨b, hb⟩ : ∃ b : Fin M, b ≠ k := by
      have : Nontrivial (Fin M) := Fin.nontrivial_iff_two_le.mpr hM
      exact exists_ne k
    have hb' := hd b
    rw [if_pos rfl] at hk
    rw [if_neg hb] at hb'
    simp only [diffs, h0, sub_self, mul_zero, Finset.sum_const_zero, zero_add] at hk hb'
    rw [hb'] at hk
    exact zero_ne_one hk
  have hs0 : 0 ≤ s := by
    by_contra hlt
    refine hne (zero_of_ge hw hc x (fun i => ?_) hs)
    have := hd i
    split_ifs at this <;> linarith
  have hmax : ∀ i, x i ≤ x k := max_at hw hc k x fun i hi => by
    have := hd i
    rw [if_neg hi] at this
    linarith
  by_contra hle
  have hle' : x k ≤ 0 := not_lt.mp hle
  refine hne fun i => ?_
  have hnp : ∀ j ∈ Finset.univ, x j ≤ 0 := fun j _ => (hmax j).trans hle'
  exact (Finset.sum_eq_zero_iff_of_nonpos hnp).mp hs i (Finset.mem_univ i)

end inverse
end Sureal.PcCi
