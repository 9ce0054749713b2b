import Verif.Lemmas.Dissent
import Verif.Lemmas.Perf
import Verif.Spec.Reversed
/-!
# Lemmas: the correlation of two affine functions of the same numbers, and of their ranks
-/
set_option linter.unusedSectionVars false
namespace Sureal.Reversed
open Sureal Spec
variable {E S R : ℕ}

/-- the list is not constant -/
theorem sqDev_ofFn_ne {f : Fin E → ℝ} (h : ∃ i j, f i ≠ f j) : sqDev (List.ofFn f) ≠ 0 := by
  intro h0
  obtain ⟨i, j, hij⟩ := h
  have := sqDev_eq_zero_iff.mp h0
  exact hij ((this _ (List.mem_ofFn.mpr ⟨i, rfl⟩)).trans (this _ (List.mem_ofFn.mpr ⟨j, rfl⟩)).symm)

theorem ofFn_affine (f : Fin E → ℝ) (a b : ℝ) : (List.ofFn fun e => a * f e + b) = (List.ofFn f).map fun x => a * x + b := by
  rw [List.map_ofFn]; rfl

/-- two increasing affine functions correlate perfectly, an increasing and a decreasing one perfectly negatively -/
theorem correlation_line {f : Fin E → ℝ} (h : ∃ i j, f i ≠ f j) {a c : ℝ} (ha : a ≠ 0) (hc : c ≠ 0) (b d : ℝ) :
    correlation (List.ofFn fun e => (a * f e + b, c * f e + d)) = some (if 0 < a * c then 1 else -1) := by
  have hv := sqDev_ofFn_ne h
  have hv0 : 0 < sqDev (List.ofFn f) := lt_of_le_of_ne (Np.sqDev_nonneg _) (Ne.symm hv)
  have hne : List.ofFn f ≠ [] := by
    obtain ⟨i, -, -⟩ := h
    exact List.ne_nil_of_mem (List.mem_ofFn.mpr ⟨i, rfl⟩)
  have e1 : (List.ofFn fun e => (a * f e + b, c * f e + d)).map (·.1) = (List.ofFn f).map fun x => a * x + b := by
    rw [List.map_ofFn, ← ofFn_affine]; rfl
  have e2 : (List.ofFn fun e => (a * f e + b, c * f e + d)).map (·.2) = (List.ofFn f).map fun x => c * x + d := by
    rw [List.map_ofFn, ← ofFn_affine]; rfl
  unfold correlation
  rw [e1, e2, sqDev_affine, sqDev_affine, mean_affine a b hne, mean_affine c d hne]
  have ha2 : 0 < a ^ 2 := by positivity
  have hc2 : 0 < c ^ 2 := by positivity
  rw [if_neg (by push Not; exact ⟨(mul_pos ha2 hv0).ne', (mul_pos hc2 hv0).ne'⟩)]
  have hs : ((List.ofFn fun e => (a * f e + b, c * f e + d)).map fun p => (p.1 - (a * mean (List.ofFn f) + b)) * (p.2 - (c * mean (List.ofFn f) + d))).sum
      = a * c * sqDev (List.ofFn f) := by
    unfold sqDev
    rw [← List.sum_map_mul_left, List.map_ofFn, List.map_ofFn]
    congr 2
    funext e
    simp only [Function.comp]
    ring
  rw [hs, Real.sqrt_mul ha2.le, Real.sqrt_mul hc2.le, Real.sqrt_sq_eq_abs, Real.sqrt_sq_eq_abs]
  have hd : |a| * Real.sqrt (sqDev (List.ofFn f)) * (|c| * Real.sqrt (sqDev (List.ofFn f))) = |a * c| * sqDev (List.ofFn f) := by
    rw [abs_mul]
    have := Real.mul_self_sqrt hv0.le
    linear_combination |a| * |c| * this
  rw [hd]
  congr 1
  have hac : a * c ≠ 0 := mul_ne_zero ha hc
  rw [mul_div_mul_right _ _ hv]
  split_ifs with hp
  · rw [abs_of_pos hp, div_self hac]
  · rw [abs_of_neg (lt_of_le_of_ne (not_lt.mp hp) hac), div_neg, div_self hac]

theorem correlation_flat {f g : Fin E → ℝ} (h : ∀ i j, g i = g j) : correlation (List.ofFn fun e => (f e, g e)) = none := by
  unfold correlation
  rw [if_pos]
  right
  rw [List.map_ofFn, sqDev_eq_zero_iff]
  intro x hx
  obtain ⟨i, rfl⟩ := List.mem_ofFn.mp hx
  refine (mean_const (List.ne_nil_of_mem hx) fun y hy => ?_).symm
  obtain ⟨j, rfl⟩ := List.mem_ofFn.mp hy
  exact h j i

theorem avgRank_line (f : Fin E → ℝ) {a : ℝ} (ha : a ≠ 0) (b : ℝ) (e : Fin E) :
    avgRank (List.ofFn fun e => a * f e + b) (a * f e + b)
      = (if 0 < a then 1 else -1) * avgRank (List.ofFn f) (f e) + (if 0 < a then 0 else (E : ℝ) + 1) := by
  rw [ofFn_affine]
  split_ifs with hp
  · have hm : StrictMono fun x : ℝ => a * x + b := fun x y h => by
      have := mul_lt_mul_of_pos_left h hp
      simpa using this
    rw [avgRank_mono hm]
    ring
  · have hn : a < 0 := lt_of_le_of_ne (not_lt.mp hp) ha
    have hm : StrictAnti fun x : ℝ => a * x + b := fun x y h => by
      have := mul_lt_mul_of_neg_left h hn
      simpa using this
    have := avgRank_anti hm (l := List.ofFn f) (f e)
    rw [List.length_ofFn] at this
    rw [this]

theorem rank_lt {l : List ℝ} {x y : ℝ} (hx : x ∈ l) (h : x < y) : avgRank l x < avgRank l y := by
  have h1 : l.countP (fun z => decide (z < x)) + l.countP (fun z => decide (z = x)) ≤ l.countP fun z => decide (z < y) := by
    clear hx
    induction l with
    | nil => simp
    | cons z l ih =>
      simp only [List.countP_cons]
      rcases lt_trichotomy z x with hz | hz | hz
      · simp [hz, hz.ne, hz.trans h]; omega
      · simp [hz, h]; omega
      · by_cases hy : z < y
        · simp [hz.ne', hz.not_gt, hy]; omega
        · simp [hz.ne', hz.not_gt, hy]; omega
  have h2 : 0 < l.countP fun z => decide (z = x) := List.countP_pos_iff.mpr ⟨x, hx, by simp⟩
  unfold avgRank
  have h1' : (l.countP (fun z => decide (z < x)) : ℝ) + l.countP (fun z => decide (z = x)) ≤ l.countP fun z => decide (z < y) := by exact_mod_cast h1
  have h2' : (0 : ℝ) < l.countP fun z => decide (z = x) := by exact_mod_cast h2
  have h3 : (0 : ℝ) ≤ l.countP fun z => decide (z = y) := by positivity
  linarith

/-- the same for the ranks -/
theorem rank_correlation_line {f : Fin E → ℝ} (h : ∃ i j, f i ≠ f j) {a c : ℝ} (ha : a ≠ 0) (hc : c ≠ 0) (b d : ℝ) :
    correlation (rankPairs (List.ofFn fun e => (a * f e + b, c * f e + d))) = some (if 0 < a * c then 1 else -1) := by
  have hr : rankPairs (List.ofFn fun e => (a * f e + b, c * f e + d)) =
      List.ofFn fun e => ((if 0 < a then 1 else -1) * avgRank (List.ofFn f) (f e) + (if 0 < a then 0 else (E : ℝ) + 1),
        (if 0 < c then 1 else -1) * avgRank (List.ofFn f) (f e) + (if 0 < c then 0 else (E : ℝ) + 1)) := by
    unfold rankPairs
    rw [List.map_ofFn, List.map_ofFn, List.map_ofFn]
    congr 1
    funext e
    exact Prod.ext (avgRank_line f ha b e) (avgRank_line f hc d e)
  rw [hr]
  have hne : ∃ i j, avgRank (List.ofFn f) (f i) ≠ avgRank (List.ofFn f) (f j) := by
    obtain ⟨i, j, hij⟩ := h
    refine ⟨i, j, ?_⟩
    rcases lt_or_gt_of_ne hij with h | h
    · exact (rank_lt (List.mem_ofFn.mpr ⟨i, rfl⟩) h).ne
    · exact (rank_lt (List.mem_ofFn.mpr ⟨j, rfl⟩) h).ne'
  rw [correlation_line (f := fun e => avgRank (List.ofFn f) (f e)) hne (by split_ifs <;> norm_num) (by split_ifs <;> norm_num)]
  congr 1
  rcases lt_or_gt_of_ne ha with ha | ha <;> rcases lt_or_gt_of_ne hc with hc | hc
  · rw [if_neg ha.not_gt, if_neg hc.not_gt, if_pos (by norm_num), if_pos (mul_pos_of_neg_of_neg ha hc)]
  · rw [if_neg ha.not_gt, if_pos hc, if_neg (by norm_num), if_neg (mul_neg_of_neg_of_pos ha hc).not_gt]
  · rw [if_pos ha, if_neg hc.not_gt, if_neg (by norm_num), if_neg (mul_neg_of_pos_of_neg ha hc).not_gt]
  · rw [if_pos ha, if_pos hc, if_pos (by norm_num), if_pos (mul_pos ha hc)]

theorem rank_flat {f g : Fin E → ℝ} (h : ∀ i j, g i = g j) : correlation (rankPairs (List.ofFn fun e => (f e, g e))) = none := by
  unfold rankPairs
  rw [List.map_ofFn, List.map_ofFn, List.map_ofFn]
  refine correlation_flat (f := fun e => avgRank _ (f e)) (g := fun e => avgRank _ (g e)) fun i j => ?_
  rw [h i j]

theorem reversed_mean (q : Fin E → ℝ) (α β : ℝ) (s0 : Fin S) (e : Fin E) :
    mean (List.ofFn fun s => reversed q α β s0 e s) = ((S : ℝ) - 1 - β) / S * q e + α / S := by
  have hS : (S : ℝ) ≠ 0 := by
    have : 0 < S := s0.pos
    positivity
  unfold mean
  rw [Dissent.sum_one s0 (q e) (α - β * q e - q e) _ fun s => by unfold reversed; split_ifs <;> ring, List.length_ofFn]
  field_simp
  ring

/-- mean and variance of agreements that are `v` for all but one -/
theorem odd_one_out (s0 : Fin S) (u v : ℝ) :
    mean (List.ofFn fun s => if s = s0 then u else v) = v + (u - v) / S ∧
    popVar (List.ofFn fun s => if s = s0 then u else v) = ((u - v) / S) ^ 2 * (S - 1) := by
  have hS : (S : ℝ) ≠ 0 := by
    have : 0 < S := s0.pos
    positivity
  have h1 : mean (List.ofFn fun s => if s = s0 then u else v) = v + (u - v) / S := by
    unfold mean
    rw [Dissent.sum_one s0 v (u - v) _ fun s => by split_ifs <;> ring, List.length_ofFn]
    field_simp
  refine ⟨h1, ?_⟩
  unfold popVar sqDev
  rw [h1, List.map_ofFn, Dissent.sum_one s0 (((u - v) / S) ^ 2) ((u - (v + (u - v) / S)) ^ 2 - ((u - v) / S) ^ 2) _ fun s => by
      simp only [Function.comp]
      split_ifs <;> ring, List.length_ofFn]
  field_simp
  ring

end Sureal.Reversed
