import Verif.Spec.SampleStats
import Verif.Model.SampleStats
import Verif.Lemmas.Fl
import Verif.Lemmas.SynthLaw
import Mathlib.Algebra.Order.Floor.Semiring
import Mathlib.Data.Real.Archimedean
/-! # Sampling without replacement -/
namespace Sureal.Routine
open Spec SynthLaw

variable {n : ℕ}

theorem sum_perm_same (f : Fin n → ℝ) (i j : Fin n) : ∑ σ : Equiv.Perm (Fin n), f (σ i) = ∑ σ : Equiv.Perm (Fin n), f (σ j) := by
  rw [← Equiv.sum_comp (Equiv.mulRight (Equiv.swap i j)) fun σ : Equiv.Perm (Fin n) => f (σ i)]
  simp

theorem sum_perm (f : Fin n → ℝ) (i : Fin n) : n * ∑ σ : Equiv.Perm (Fin n), f (σ i) = n.factorial * ∑ a, f a := by
  have h : ∑ j, ∑ σ : Equiv.Perm (Fin n), f (σ j) = n * ∑ σ : Equiv.Perm (Fin n), f (σ i) := by
    rw [Finset.sum_congr rfl fun j _ => sum_perm_same f j i]
    simp
  rw [← h, Finset.sum_comm, Finset.sum_congr rfl fun σ _ => Equiv.sum_comp σ f]
  simp [Fintype.card_perm]

theorem sum_pair_same (f : Fin n → ℝ) {i j j' : Fin n} (h : i ≠ j) (h' : i ≠ j') :
    ∑ σ : Equiv.Perm (Fin n), f (σ i) * f (σ j) = ∑ σ : Equiv.Perm (Fin n), f (σ i) * f (σ j') := by
  rw [← Equiv.sum_comp (Equiv.mulRight (Equiv.swap j j')) fun σ : Equiv.Perm (Fin n) => f (σ i) * f (σ j)]
  simp [Equiv.swap_apply_of_ne_of_ne h h']

theorem sum_pair (f : Fin n → ℝ) (h0 : ∑ a, f a = 0) {i j : Fin n} (h : i ≠ j) :
    ((n : ℝ) - 1) * ∑ σ : Equiv.Perm (Fin n), f (σ i) * f (σ j) = - ∑ σ : Equiv.Perm (Fin n), f (σ i) ^ 2 := by
  have h1 : ∑ l, ∑ σ : Equiv.Perm (Fin n), f (σ i) * f (σ l) = 0 := by
    rw [Finset.sum_comm]
    refine Finset.sum_eq_zero fun σ _ => ?_
    rw [← Finset.mul_sum, Equiv.sum_comp σ f, h0, mul_zero]
  rw [← Finset.add_sum_erase _ _ (Finset.mem_univ i)] at h1
  have h2 : ∑ l ∈ Finset.univ.erase i, ∑ σ : Equiv.Perm (Fin n), f (σ i) * f (σ l) =
      ((n : ℝ) - 1) * ∑ σ : Equiv.Perm (Fin n), f (σ i) * f (σ j) := by
    rw [Finset.sum_congr rfl fun l hl => sum_pair_same f (Finset.ne_of_mem_erase hl).symm h]
    have : 1 ≤ n := Nat.one_le_iff_ne_zero.mpr (Fin.pos i).ne'
    simp [Finset.card_erase_of_mem, Nat.cast_sub this]
  rw [h2] at h1
  simp only [pow_two]
  linarith

variable {k : ℕ}

theorem orderMean_avg (hk : k ≤ n) (hk0 : k ≠ 0) (f : Fin n → ℝ) :
    orderMean n (fun σ => avg fun i : Fin k => f (σ (Fin.castLE hk i))) = avg f := by
  have hn : (n : ℝ) ≠ 0 := Nat.cast_ne_zero.mpr (by omega)
  have hkr : (k : ℝ) ≠ 0 := Nat.cast_ne_zero.mpr hk0
  have hf : (n.factorial : ℝ) ≠ 0 := Nat.cast_ne_zero.mpr n.factorial_ne_zero
  unfold orderMean avg
  rw [← Finset.sum_div, Finset.sum_comm]
  have : ∀ i : Fin k, ∑ σ : Equiv.Perm (Fin n), f (σ (Fin.castLE hk i)) = n.factorial * (∑ a, f a) / n := by
    intro i
    rw [← sum_perm f (Fin.castLE hk i)]
    field_simp
  simp only [this, Finset.sum_const, Finset.card_univ, Fintype.card_fin, nsmul_eq_mul]
  field_simp

theorem orderMean_sq (hk : k ≤ n) (hk0 : k ≠ 0) (f : Fin n → ℝ) :
    orderMean n (fun σ => ((avg fun i : Fin k => f (σ (Fin.castLE hk i))) - avg f) ^ 2) =
      popVar (List.ofFn f) / k * ((n - k) / (n - 1)) := by
  have hn : (n : ℝ) ≠ 0 := Nat.cast_ne_zero.mpr (by omega)
  have hkr : (k : ℝ) ≠ 0 := Nat.cast_ne_zero.mpr hk0
  have hf : (n.factorial : ℝ) ≠ 0 := Nat.cast_ne_zero.mpr n.factorial_ne_zero
  set g : Fin n → ℝ := fun a => f a - avg f with hg
  have hg0 : ∑ a, g a = 0 := by
    simp only [hg, Finset.sum_sub_distrib, Finset.sum_const, Finset.card_univ, Fintype.card_fin, nsmul_eq_mul]
    unfold avg
    field_simp
    ring
  have hpv : popVar (List.ofFn f) = (∑ a, g a ^ 2) / n := by
    unfold popVar
    rw [sqDev_ofFn, List.length_ofFn]
  have hdev : ∀ σ : Equiv.Perm (Fin n), (avg fun i : Fin k => f (σ (Fin.castLE hk i))) - avg f =
      (∑ i : Fin k, g (σ (Fin.castLE hk i))) / k := by
    intro σ
    simp only [hg, Finset.sum_sub_distrib, Finset.sum_const, Finset.card_univ, Fintype.card_fin, nsmul_eq_mul]
    unfold avg
    field_simp
  simp only [hdev, div_pow]
  rw [hpv]
  unfold orderMean
  rw [← Finset.sum_div]
  have hA : ∀ i : Fin k, ∑ σ : Equiv.Perm (Fin n), g (σ (Fin.castLE hk i)) ^ 2 = n.factorial * (∑ a, g a ^ 2) / n := by
    intro i
    rw [← sum_perm (fun a => g a ^ 2) (Fin.castLE hk i)]
    field_simp
  have hsq : ∑ σ : Equiv.Perm (Fin n), (∑ i : Fin k, g (σ (Fin.castLE hk i))) ^ 2 =
      ∑ i : Fin k, ∑ j : Fin k, ∑ σ : Equiv.Perm (Fin n), g (σ (Fin.castLE hk i)) * g (σ (Fin.castLE hk j)) := by
    simp only [pow_two, Finset.sum_mul_sum]
    rw [Finset.sum_comm]
    refine Finset.sum_congr rfl fun i _ => ?_
    rw [Finset.sum_comm]
  rw [hsq]
  by_cases hn1 : n = 1
  · have hk1 : k = 1 := by omega
    subst hn1 hk1
    have hz : g 0 = 0 := by simpa using hg0
    simp only [Finset.univ_unique, Finset.sum_singleton]
    have : ∀ a : Fin 1, g a = 0 := fun a => by rw [Subsingleton.elim a 0]; exact hz
    simp [this]
  have hn1' : (n : ℝ) - 1 ≠ 0 := by
    intro h
    apply hn1
    have : (n : ℝ) = 1 := by linarith
    exact_mod_cast this
  have hrow : ∀ i : Fin k, ∑ j : Fin k, ∑ σ : Equiv.Perm (Fin n), g (σ (Fin.castLE hk i)) * g (σ (Fin.castLE hk j)) =
      n.factorial * (∑ a, g a ^ 2) / n * ((n - k) / (n - 1)) := by
    intro i
    rw [← Finset.add_sum_erase _ _ (Finset.mem_univ i)]
    have hB : ∀ j ∈ Finset.univ.erase i, ∑ σ : Equiv.Perm (Fin n), g (σ (Fin.castLE hk i)) * g (σ (Fin.castLE hk j)) =
        - (n.factorial * (∑ a, g a ^ 2) / n) / (n - 1) := by
      intro j hj
      have hne : Fin.castLE hk i ≠ Fin.castLE hk j := by
        intro h
        exact (Finset.ne_of_mem_erase hj) (Fin.castLE_injective hk h).symm
      have := sum_pair g hg0 hne
      rw [hA] at this
      rw [eq_div_iff hn1', mul_comm]
      exact this
    rw [Finset.sum_congr rfl hB]
    have h1k : 1 ≤ k := Nat.one_le_iff_ne_zero.mpr hk0
    have hcard : ((Finset.univ.erase i : Finset (Fin k)).card : ℝ) = k - 1 := by
      rw [Finset.card_erase_of_mem (Finset.mem_univ i), Finset.card_univ, Fintype.card_fin, Nat.cast_sub h1k, Nat.cast_one]
    rw [Finset.sum_const, nsmul_eq_mul, hcard]
    simp only [← pow_two]
    rw [hA]
    field_simp
    ring
  simp only [hrow, Finset.sum_const, Finset.card_univ, Fintype.card_fin, nsmul_eq_mul]
  field_simp

theorem countP_range_le (n m : ℕ) : (List.range n).countP (fun i => decide (i + 1 ≤ m)) = min n m := by
  induction n with
  | zero => simp
  | succ n ih =>
    rw [List.range_succ, List.countP_append, ih]
    simp only [List.countP_singleton, decide_eq_true_eq]
    split_ifs <;> omega

theorem fracNum_eq (n : ℕ) {f : ℝ} (h0 : 0 < f) (h1 : f ≤ 1) : fracNum n (.fin f : Fl ℝ) = ⌊n * f⌋₊ := by
  have hnn : (0 : ℝ) ≤ n * f := by positivity
  have : ∀ i ∈ List.range n, (((i + 1 : ℕ) : Fl ℝ).le (((n : ℕ) : Fl ℝ) * .fin f) = true ↔ decide (i + 1 ≤ ⌊n * f⌋₊) = true) := by
    intro i _
    rw [decide_eq_true_eq, Nat.le_floor_iff hnn]
    simp only [Fl.natCast_def, Fl.fin_mul, Fl.le, decide_eq_true_eq]
  unfold fracNum
  rw [List.countP_congr this, countP_range_le]
  refine min_eq_right ?_
  have : (n : ℝ) * f ≤ n := by nlinarith [show (0 : ℝ) ≤ n from Nat.cast_nonneg n]
  calc ⌊(n : ℝ) * f⌋₊ ≤ ⌊(n : ℝ)⌋₊ := Nat.floor_mono this
    _ = n := Nat.floor_natCast n

end Sureal.Routine
