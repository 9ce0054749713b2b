import Verif.Lemmas.Consistent
import Mathlib.Algebra.Order.Chebyshev
/-! The passes of the alternating projection when all observers but one vote without noise. -/
set_option linter.unusedSectionVars false
namespace Sureal.Consistent
open Sureal Spec Props Ap

variable {J R : ℕ}

open Classical in
/-- why the passes stop -/
theorem stop_spec {I : ℕ} (P : Fin J → Fin I → Fin R → Bool) (X : Fin J → Fin I → Fin R → ℝ) :
    Real.sqrt (change P X (stopAt P X)) < 1 / 100000000 ∨ 999 ≤ stopAt P X := Nat.find_spec (stop_exists P X)

/-- the noise of observer `i₀` is `z`, the others have none -/
def lone (i₀ : ℕ) (z : Fin J → Fin R → ℝ) : ℕ → Fin J → Fin R → ℝ := fun i => if i = i₀ then z else 0

/-- the mean square of how far the noise on the videos is above its mean -/
noncomputable def between (z : Fin J → Fin R → ℝ) : ℝ := (∑ j, cOf z j ^ 2) / J

/-- the share of the erratic observer in the scores -/
noncomputable def share (z : Fin J → Fin R → ℝ) (n : ℕ) : ℕ → ℝ
  | 0 => 1 / n
  | k + 1 => wOf z (fun j => share z n k * cOf z j) / (wOf z (fun j => share z n k * cOf z j) + (n - 1) * wOf (0 : Fin J → Fin R → ℝ) (fun j => share z n k * cOf z j))

theorem sum_lone {i₀ n : ℕ} (h : i₀ < n) (z : Fin J → Fin R → ℝ) (f : (Fin J → Fin R → ℝ) → ℝ) :
    ∑ i ∈ Finset.range n, f (lone i₀ z i) = f z + (n - 1) * f 0 := by
  have h1 : ∀ i, f (lone i₀ z i) = (if i = i₀ then f z - f 0 else 0) + f 0 := by
    intro i
    unfold lone
    split <;> ring
  rw [Finset.sum_congr rfl fun i _ => h1 i, Finset.sum_add_distrib, Finset.sum_ite_eq' , if_pos (Finset.mem_range.mpr h)]
  simp only [Finset.sum_const, Finset.card_range, nsmul_eq_mul]
  ring

theorem cOf_zero (j : Fin J) : cOf (0 : Fin J → Fin R → ℝ) j = 0 := by
  unfold cOf
  simp

theorem dev_lone {i₀ n : ℕ} (h : i₀ < n) (z : Fin J → Fin R → ℝ) (k : ℕ) (j : Fin J) : dev (lone i₀ z) n k j = share z n k * cOf z j := by
  induction k generalizing j with
  | zero =>
    show (∑ i ∈ Finset.range n, cOf (lone i₀ z i) j) / n = 1 / n * _
    rw [sum_lone h z fun z => cOf z j, cOf_zero]
    ring
  | succ k ih =>
    have hu : dev (lone i₀ z) n k = fun j => share z n k * cOf z j := funext ih
    show (∑ i ∈ Finset.range n, wOf (lone i₀ z i) (dev (lone i₀ z) n k) * cOf (lone i₀ z i) j) /
      (∑ i ∈ Finset.range n, wOf (lone i₀ z i) (dev (lone i₀ z) n k)) = share z n (k + 1) * _
    rw [hu, sum_lone h z fun z' => wOf z' (fun j => share z n k * cOf z j) * cOf z' j, sum_lone h z fun z' => wOf z' (fun j => share z n k * cOf z j), cOf_zero]
    rw [share]
    ring

section
variable (hJ : 0 < J) (hR : 0 < R) (z : Fin J → Fin R → ℝ)

include hJ hR in
theorem cOf_sum : ∑ j, cOf z j = 0 := by
  have hJ' : (J : ℝ) ≠ 0 := by positivity
  have hR' : (R : ℝ) ≠ 0 := by positivity
  unfold cOf
  rw [Finset.sum_sub_distrib, ← Finset.sum_div]
  simp only [Finset.sum_const, Finset.card_univ, Fintype.card_fin, nsmul_eq_mul]
  field_simp
  ring

theorem between_nonneg : 0 ≤ between z := div_nonneg (Finset.sum_nonneg fun _ _ => sq_nonneg _) (Nat.cast_nonneg _)

theorem spread_sq' {ι : Type} (A : Finset ι) (f : ι → ℝ) : spread A f ^ 2 = avg A fun c => (f c - avg A f) ^ 2 := by
  unfold spread
  refine Real.sq_sqrt ?_
  unfold avg
  exact div_nonneg (Finset.sum_nonneg fun _ _ => sq_nonneg _) (Nat.cast_nonneg _)

include hJ hR in
/-- the weight of the others -/
theorem wOf_others (y : ℝ) : wOf (0 : Fin J → Fin R → ℝ) (fun j => y * cOf z j) = 1 / (y ^ 2 * between z + 1 / 100000000) := by
  have hJ' : (J : ℝ) ≠ 0 := by positivity
  have hR' : (R : ℝ) ≠ 0 := by positivity
  unfold wOf apWeight
  rw [spread_sq']
  have h0 : avg Finset.univ (fun c : Fin J × Fin R => (0 : Fin J → Fin R → ℝ) c.1 c.2 - y * cOf z c.1) = 0 := by
    unfold avg
    rw [Fintype.sum_prod_type]
    simp only [Pi.zero_apply, zero_sub, Finset.sum_const, Finset.card_univ, Fintype.card_fin, nsmul_eq_mul]
    rw [← Finset.mul_sum, Finset.sum_neg_distrib, ← Finset.mul_sum, cOf_sum hJ hR]
    simp
  rw [h0]
  congr 2
  unfold avg between
  rw [Fintype.sum_prod_type]
  simp only [Pi.zero_apply, zero_sub, sub_zero, Finset.sum_const, Finset.card_univ, Fintype.card_fin, nsmul_eq_mul, Fintype.card_prod]
  rw [← Finset.mul_sum]
  have : ∀ j, (-(y * cOf z j)) ^ 2 = y ^ 2 * cOf z j ^ 2 := fun j => by ring
  simp only [this]
  rw [← Finset.mul_sum]
  push_cast
  field_simp

include hJ hR in
/-- the weight of the erratic observer is at most what the differences between the videos give -/
theorem wOf_erratic (y : ℝ) : wOf z (fun j => y * cOf z j) ≤ 1 / ((1 - y) ^ 2 * between z + 1 / 100000000) := by
  have hJ' : (J : ℝ) ≠ 0 := by positivity
  have hR' : (R : ℝ) ≠ 0 := by positivity
  have hJ0 : (0 : ℝ) < J := by positivity
  have hR0 : (0 : ℝ) < R := by positivity
  have hb := between_nonneg z
  unfold wOf apWeight
  refine one_div_le_one_div_of_le (by positivity) ?_
  rw [spread_sq']
  set m : ℝ := (∑ j, ∑ r, z j r) / (J * R) with hm
  have h0 : avg Finset.univ (fun c : Fin J × Fin R => z c.1 c.2 - y * cOf z c.1) = m := by
    unfold avg
    rw [Fintype.sum_prod_type]
    simp only [Finset.sum_sub_distrib, Finset.sum_const, Finset.card_univ, Fintype.card_fin, nsmul_eq_mul, Fintype.card_prod]
    rw [← Finset.mul_sum, ← Finset.mul_sum, cOf_sum hJ hR, hm]
    push_cast
    ring
  rw [h0]
  refine add_le_add ?_ le_rfl
  have hcell : ∀ j, R * ((1 - y) * cOf z j) ^ 2 ≤ ∑ r, (z j r - y * cOf z j - m) ^ 2 := by
    intro j
    have hsum : ∑ r, (z j r - y * cOf z j - m) = R * ((1 - y) * cOf z j) := by
      simp only [Finset.sum_sub_distrib, Finset.sum_const, Finset.card_univ, Fintype.card_fin, nsmul_eq_mul]
      have : cOf z j = (∑ r, z j r) / R - m := rfl
      have h2 : ∑ r, z j r = R * (cOf z j + m) := by
        rw [this]
        field_simp
        ring
      rw [h2]
      ring
    have hcs := sq_sum_le_card_mul_sum_sq (s := (Finset.univ : Finset (Fin R))) (f := fun r => z j r - y * cOf z j - m)
    rw [hsum, Finset.card_univ, Fintype.card_fin] at hcs
    have : (R : ℝ) * (R * ((1 - y) * cOf z j) ^ 2) ≤ R * ∑ r, (z j r - y * cOf z j - m) ^ 2 := by
      refine le_trans (le_of_eq ?_) hcs
      ring
    exact le_of_mul_le_mul_left this hR0
  unfold avg between
  rw [Fintype.sum_prod_type, Finset.card_univ, Fintype.card_prod, Fintype.card_fin, Fintype.card_fin]
  push_cast
  rw [le_div_iff₀ (by positivity)]
  calc (1 - y) ^ 2 * ((∑ j, cOf z j ^ 2) / J) * (J * R) = ∑ j, R * ((1 - y) * cOf z j) ^ 2 := by
        rw [← Finset.mul_sum]
        simp only [mul_pow]
        rw [← Finset.mul_sum]
        field_simp
    _ ≤ _ := Finset.sum_le_sum fun j _ => hcell j

include hJ hR in
theorem share_step {n : ℕ} (hn : 3 ≤ n) (k : ℕ) : 0 ≤ share z n k ∧ share z n k ≤ 1 / 3 ∧
    (0 < between z → share z n (k + 1) ≤ 3 / 8 * share z n k + 9 / 8 * (1 / 100000000 / between z)) := by
  have hn' : (3 : ℝ) ≤ n := by exact_mod_cast hn
  have hb := between_nonneg z
  -- one pass
  have key : ∀ y : ℝ, 0 ≤ y → y ≤ 1 / 3 → ∀ a o : ℝ, 0 < a → 0 < o → a ≤ 1 / ((1 - y) ^ 2 * between z + 1 / 100000000) →
      o = 1 / (y ^ 2 * between z + 1 / 100000000) → 0 ≤ a / (a + (n - 1) * o) ∧ a / (a + (n - 1) * o) ≤ 1 / 3 ∧
        (0 < between z → a / (a + (n - 1) * o) ≤ 3 / 8 * y + 9 / 8 * (1 / 100000000 / between z)) := by
    intro y h0 h1 a o ha ho hle heq
    have hden : 0 < a + (n - 1) * o := by nlinarith
    have hy2 : 4 / 9 ≤ (1 - y) ^ 2 := by nlinarith
    have hyy : y ^ 2 ≤ (1 - y) ^ 2 := by nlinarith
    have hao : a ≤ o := by
      rw [heq]
      refine hle.trans (one_div_le_one_div_of_le (by positivity) ?_)
      nlinarith
    refine ⟨by positivity, ?_, fun hB => ?_⟩
    · rw [div_le_div_iff₀ hden (by norm_num)]
      nlinarith
    · -- a / (a + (n-1) o) ≤ a / (2 o)
      have s1 : a / (a + (n - 1) * o) ≤ a / (2 * o) := div_le_div_of_nonneg_left ha.le (by positivity) (by nlinarith)
      have s2 : a / (2 * o) ≤ (y ^ 2 * between z + 1 / 100000000) / (2 * ((1 - y) ^ 2 * between z + 1 / 100000000)) := by
        rw [heq]
        rw [div_le_div_iff₀ (by positivity) (by positivity)]
        have : a * ((1 - y) ^ 2 * between z + 1 / 100000000) ≤ 1 := by
          rwa [le_div_iff₀ (by positivity)] at hle
        have hp : 0 < y ^ 2 * between z + 1 / 100000000 := by positivity
        have e : (y ^ 2 * between z + 1 / 100000000) * (2 * (1 / (y ^ 2 * between z + 1 / 100000000))) = 2 := by
          field_simp
        rw [e]
        linarith
      have s3 : (y ^ 2 * between z + 1 / 100000000) / (2 * ((1 - y) ^ 2 * between z + 1 / 100000000)) ≤
          (y ^ 2 * between z + 1 / 100000000) / (8 / 9 * between z) :=
        div_le_div_of_nonneg_left (by positivity) (by positivity) (by nlinarith)
      have s4 : (y ^ 2 * between z + 1 / 100000000) / (8 / 9 * between z) = 9 / 8 * y ^ 2 + 9 / 8 * (1 / 100000000 / between z) := by
        field_simp
      have s5 : 9 / 8 * y ^ 2 ≤ 3 / 8 * y := by nlinarith
      linarith
  have hinv : 0 ≤ share z n k ∧ share z n k ≤ 1 / 3 := by
    induction k with
    | zero =>
      show 0 ≤ 1 / (n : ℝ) ∧ 1 / (n : ℝ) ≤ 1 / 3
      exact ⟨by positivity, one_div_le_one_div_of_le (by norm_num) hn'⟩
    | succ k ih =>
      have := key _ ih.1 ih.2 _ _ (wOf_pos _ _) (wOf_pos _ _) (wOf_erratic hJ hR z _) (wOf_others hJ hR z _)
      exact ⟨this.1, this.2.1⟩
  refine ⟨hinv.1, hinv.2, fun hB => ?_⟩
  exact (key _ hinv.1 hinv.2 _ _ (wOf_pos _ _) (wOf_pos _ _) (wOf_erratic hJ hR z _) (wOf_others hJ hR z _)).2.2 hB

include hJ hR in
theorem share_small {n : ℕ} (hn : 3 ≤ n) (hB : 0 < between z) (k : ℕ) : share z n k ≤ (3 / 8) ^ k / 3 + 9 / 5 * (1 / 100000000 / between z) := by
  induction k with
  | zero =>
    have := (share_step hJ hR z hn 0).2.1
    have : 0 ≤ 9 / 5 * (1 / 100000000 / between z) := by positivity
    rw [pow_zero]
    linarith
  | succ k ih =>
    have h := (share_step hJ hR z hn k).2.2 hB
    rw [pow_succ]
    linarith

end

end Sureal.Consistent
