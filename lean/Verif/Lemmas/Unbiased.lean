import Verif.Spec.Unbiased
import Verif.Lemmas.Reversed
import Verif.Lemmas.Zscore
/-!
# Lemmas for C160: correlations do not see offsets
-/
set_option linter.unusedSectionVars false
namespace Sureal.Unbiased
open Sureal Spec
variable {E S : ℕ}

theorem mean_shift {l : List ℝ} (h : l ≠ []) (b : ℝ) : mean (l.map fun x => x + b) = mean l + b := by
  have := Sureal.mean_affine 1 b h
  simpa using this

theorem sqDev_shift (l : List ℝ) (b : ℝ) : sqDev (l.map fun x => x + b) = sqDev l := by
  by_cases h : l = []
  · subst h; rfl
  · unfold sqDev
    rw [mean_shift h, List.map_map]
    congr 2
    funext x
    simp

theorem correlation_shift (ps : List (ℝ × ℝ)) (b d : ℝ) : correlation (ps.map fun p => (p.1 + b, p.2 + d)) = correlation ps := by
  by_cases h : ps = []
  · subst h; rfl
  have e1 : (ps.map fun p => (p.1 + b, p.2 + d)).map (·.1) = (ps.map (·.1)).map fun x => x + b := by simp
  have e2 : (ps.map fun p => (p.1 + b, p.2 + d)).map (·.2) = (ps.map (·.2)).map fun x => x + d := by simp
  unfold correlation
  rw [e1, e2, sqDev_shift, sqDev_shift, mean_shift (by simpa using h), mean_shift (by simpa using h), List.map_map]
  congr 4
  apply List.map_congr_left
  intro p _
  simp

theorem avgRank_shift (l : List ℝ) (x b : ℝ) : avgRank (l.map fun x => x + b) (x + b) = avgRank l x := by
  unfold avgRank
  rw [List.countP_map, List.countP_map]
  simp [Function.comp_def]

theorem rankPairs_shift (ps : List (ℝ × ℝ)) (b d : ℝ) : rankPairs (ps.map fun p => (p.1 + b, p.2 + d)) = rankPairs ps := by
  have e1 : (ps.map fun p => (p.1 + b, p.2 + d)).map (·.1) = (ps.map (·.1)).map fun x => x + b := by simp
  have e2 : (ps.map fun p => (p.1 + b, p.2 + d)).map (·.2) = (ps.map (·.2)).map fun x => x + d := by simp
  unfold rankPairs
  rw [e1, e2, List.map_map]
  apply List.map_congr_left
  intro p _
  simp only [Function.comp_apply]
  rw [avgRank_shift, avgRank_shift]

/-- two videos: the agreement is the sign -/
theorem two_points (sp : Bool) (x1 y1 x2 y2 : ℝ) (hx : x1 ≠ x2) (hy : y1 ≠ y2) :
    correlation (if sp then rankPairs [(x1, y1), (x2, y2)] else [(x1, y1), (x2, y2)]) = some (if 0 < (x2 - x1) * (y2 - y1) then 1 else -1) := by
  have e : [(x1, y1), (x2, y2)] = List.ofFn fun e : Fin 2 => ((x2 - x1) * (![0, 1] : Fin 2 → ℝ) e + x1, (y2 - y1) * (![0, 1] : Fin 2 → ℝ) e + y1) := by
    simp [List.ofFn_succ]
  have h01 : ∃ i j, (![0, 1] : Fin 2 → ℝ) i ≠ (![0, 1] : Fin 2 → ℝ) j := ⟨0, 1, by simp⟩
  have ha : x2 - x1 ≠ 0 := sub_ne_zero.mpr hx.symm
  have hc : y2 - y1 ≠ 0 := sub_ne_zero.mpr hy.symm
  rw [e]
  cases sp
  · exact Reversed.correlation_line h01 ha hc _ _
  · exact Reversed.rank_correlation_line h01 ha hc _ _

theorem biasOf_eq (x : Fin E → Fin S → ℝ) (hE : E ≠ 0) (hS : S ≠ 0) (s : Fin S) : biasOf (fun e s (_ : Fin 1) => x e s) s = biasIn x s := by
  have hE' : (E : ℝ) ≠ 0 := by exact_mod_cast hE
  have hS' : (S : ℝ) ≠ 0 := by exact_mod_cast hS
  unfold biasOf biasIn mean
  simp only [List.sum_ofFn, List.length_ofFn, Finset.univ_unique, Finset.sum_singleton, Finset.sum_sub_distrib, ← Finset.sum_div, Nat.cast_one, mul_one]
  field_simp

theorem sum_biasIn (x : Fin E → Fin S → ℝ) (hE : E ≠ 0) (hS : S ≠ 0) : ∑ s, biasIn x s = 0 := by
  rw [← sum_biasOf (fun e s (_ : Fin 1) => x e s) hE hS one_ne_zero]
  exact Finset.sum_congr rfl fun s _ => (biasOf_eq x hE hS s).symm

theorem mean_sub (f g : Fin S → ℝ) : mean (List.ofFn fun s => f s - g s) = mean (List.ofFn f) - mean (List.ofFn g) := by
  unfold mean
  simp only [List.sum_ofFn, List.length_ofFn, Finset.sum_sub_distrib]
  ring

theorem mean_map_sub {α : Type} (l : List α) (f g : α → ℝ) : mean (l.map fun s => f s - g s) = mean (l.map f) - mean (l.map g) := by
  have : (l.map fun s => f s - g s).sum = (l.map f).sum - (l.map g).sum := by
    induction l with
    | nil => simp
    | cons a l ih => simp only [List.map_cons, List.sum_cons, ih]; ring
  unfold mean
  rw [this, List.length_map, List.length_map, List.length_map, sub_div]

/-- removing the biases does not change the panel's means -/
theorem mean_unbiased (x : Fin E → Fin S → ℝ) (hE : E ≠ 0) (hS : S ≠ 0) (e : Fin E) :
    mean (List.ofFn fun s => x e s - biasIn x s) = mean (List.ofFn fun s => x e s) := by
  rw [mean_sub]
  have : mean (List.ofFn (biasIn x)) = 0 := by
    unfold mean
    rw [List.sum_ofFn, sum_biasIn x hE hS, zero_div]
  rw [this, sub_zero]

end Sureal.Unbiased
