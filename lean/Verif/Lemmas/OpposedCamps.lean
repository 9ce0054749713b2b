import Verif.Spec.OpposedCamps
import Verif.Lemmas.Reversed
import Verif.Lemmas.Zscore
import Verif.Spec.Correlation
/-!
# Lemmas for C161: panels of two camps
-/
set_option linter.unusedSectionVars false
namespace Sureal.Opposed
open Sureal Spec
variable {E S : ℕ}

theorem sum_two (D : Finset (Fin S)) (u v : ℝ) : (List.ofFn fun s => if s ∈ D then u else v).sum = D.card * u + (S - D.card) * v := by
  rw [List.sum_ofFn]
  have h1 : ∀ s, (if s ∈ D then u else v) = (if s ∈ D then u - v else 0) + v := by
    intro s; split <;> ring
  rw [Finset.sum_congr rfl fun s _ => h1 s, Finset.sum_add_distrib, ← Finset.sum_filter, Finset.filter_mem_eq_inter, Finset.univ_inter]
  simp only [Finset.sum_const, Finset.card_univ, Fintype.card_fin, nsmul_eq_mul]
  ring

theorem mean_two (D : Finset (Fin S)) (u v : ℝ) : mean (List.ofFn fun s => if s ∈ D then u else v) = (D.card * u + (S - D.card) * v) / S := by
  unfold mean
  rw [sum_two, List.length_ofFn]

theorem popVar_two (D : Finset (Fin S)) (hS : S ≠ 0) (u v : ℝ) :
    popVar (List.ofFn fun s => if s ∈ D then u else v) = ((u - v) / S) ^ 2 * (D.card * (S - D.card)) := by
  have hS' : (S : ℝ) ≠ 0 := by exact_mod_cast hS
  unfold popVar sqDev
  rw [mean_two, List.map_ofFn]
  set m := (D.card * u + (S - D.card) * v) / (S : ℝ) with hm
  have : ((fun x => (x - m) ^ 2) ∘ fun s => if s ∈ D then u else v) = fun s => if s ∈ D then (u - m) ^ 2 else (v - m) ^ 2 := by
    funext s
    simp only [Function.comp]
    split <;> rfl
  rw [this, sum_two, List.length_ofFn, hm]
  field_simp
  ring

theorem card_lt {β : ℝ} (hβ : 0 < β) (hS : S ≠ 0) (D : Finset (Fin S)) : ((outvoted β D).card : ℝ) < S := by
  have hS' : (0 : ℝ) < S := by exact_mod_cast Nat.pos_of_ne_zero hS
  unfold outvoted
  split_ifs with h
  · have : 0 ≤ β * D.card := by positivity
    linarith
  · rw [Finset.card_compl, Fintype.card_fin, Nat.cast_sub (by simpa using D.card_le_univ)]
    have hne : D.card ≠ 0 := by
      intro h0
      rw [h0] at h
      simp at h
      omega
    have : (0 : ℝ) < D.card := by exact_mod_cast Nat.pos_of_ne_zero hne
    linarith

/-- who is at or below the threshold, if the agreements are -1 in `M` and 1 elsewhere -/
theorem threshold_two (M : Finset (Fin S)) (hM : (M.card : ℝ) < S) (s : Fin S) :
    (if s ∈ M then (-1 : ℝ) else 1) ≤ agreementThreshold (List.ofFn fun s => if s ∈ M then -1 else 1) ↔ s ∈ M ∧ 2 * M.card ≤ S := by
  have hS0 : (0 : ℝ) < S := lt_of_le_of_lt (Nat.cast_nonneg _) hM
  have hS : S ≠ 0 := by intro h; rw [h] at hS0; simp at hS0
  unfold agreementThreshold
  rw [mean_two, popVar_two M hS]
  by_cases hs : s ∈ M
  · simp only [hs, if_true, true_and]
    set m : ℝ := (M.card : ℝ) with hm
    have hm0 : 0 ≤ m := Nat.cast_nonneg _
    have hd : 0 < (S : ℝ) - m := by linarith
    have hsq : Real.sqrt (((-1 - 1) / (S : ℝ)) ^ 2 * (m * (S - m))) = 2 / S * Real.sqrt (m * (S - m)) := by
      rw [Real.sqrt_mul (by positivity), Real.sqrt_sq_eq_abs]
      congr 1
      rw [abs_div, abs_of_pos hS0]
      norm_num
    rw [hsq, le_min_iff]
    have e1 : (m * -1 + (S - m) * 1) / (S : ℝ) - 2 / S * Real.sqrt (m * (S - m)) = (S - 2 * m - 2 * Real.sqrt (m * (S - m))) / S := by
      field_simp; ring
    rw [e1, le_div_iff₀ hS0]
    have hiff : Real.sqrt (m * (S - m)) ≤ S - m ↔ 2 * m ≤ S := by
      rw [Real.sqrt_le_left hd.le]
      constructor
      · intro h
        have : m ≤ S - m := by
          by_contra hc
          push Not at hc
          nlinarith
        linarith
      · intro h
        have : m ≤ S - m := by linarith
        nlinarith
    have hnat : 2 * M.card ≤ S ↔ 2 * m ≤ S := by
      rw [hm]
      constructor
      · intro h; exact_mod_cast h
      · intro h; exact_mod_cast h
    rw [hnat, ← hiff]
    constructor
    · rintro ⟨-, h⟩; linarith
    · intro h; exact ⟨by norm_num, by linarith⟩
  · simp only [hs, if_false, false_and, iff_false, not_le]
    exact lt_of_le_of_lt (min_le_left _ _) (by norm_num)

theorem opposed_mean (q : Fin E → ℝ) (α β : ℝ) (D : Finset (Fin S)) (hS : S ≠ 0) (e : Fin E) :
    mean (List.ofFn fun s => opposed q α β D e s) = ((S : ℝ) - D.card - β * D.card) / S * q e + D.card * α / S := by
  have hS' : (S : ℝ) ≠ 0 := by exact_mod_cast hS
  unfold opposed
  rw [mean_two]
  field_simp
  ring

end Sureal.Opposed
