import Verif.Lemmas.Raised
import Verif.Props.Mos
/-!
# Lemmas for C165: means and squared deviations of lists with one more number
-/
set_option linter.unusedSectionVars false
namespace Sureal.AddedVote
open Sureal Spec Raised

/-- two tables that differ in one cell, which is empty in the first one -/
theorem split_empty {n m : ℕ} (f g : Fin n → Fin m → Fl ℝ) (i : Fin n) (j : Fin m) {y : ℝ} (hf : f i j = .nan) (hg : g i j = .fin y)
    (ho : ∀ i' j', ¬ (i' = i ∧ j' = j) → f i' j' = g i' j') :
    ∃ l₁ l₂, present (List.ofFn fun i => List.ofFn fun j => f i j).flatten = l₁ ++ l₂ ∧
      present (List.ofFn fun i => List.ofFn fun j => g i j).flatten = l₁ ++ y :: l₂ := by
  have hmem : (i, j) ∈ (List.finRange n).product (List.finRange m) := List.pair_mem_product.mpr ⟨List.mem_finRange _, List.mem_finRange _⟩
  have hnd : ((List.finRange n).product (List.finRange m)).Nodup := (List.nodup_finRange n).product (List.nodup_finRange m)
  rw [flatten_product, flatten_product]
  obtain ⟨p, q, hpq⟩ := List.append_of_mem hmem
  rw [hpq] at hnd ⊢
  have hp : ∀ c ∈ p, f c.1 c.2 = g c.1 c.2 := fun c hc => ho _ _ fun h => by
    have hd := (List.nodup_append.mp hnd).2.2 c hc (i, j) (List.mem_cons_self ..)
    exact hd (Prod.ext h.1 h.2)
  have hq : ∀ c ∈ q, f c.1 c.2 = g c.1 c.2 := fun c hc => ho _ _ fun h => by
    have hd := (List.nodup_cons.mp (List.nodup_append.mp hnd).2.1).1
    have : c = (i, j) := Prod.ext h.1 h.2
    rw [this] at hc
    exact hd hc
  refine ⟨present (p.map fun c => g c.1 c.2), present (q.map fun c => g c.1 c.2), ?_, ?_⟩
  · rw [List.map_append, List.map_cons, hf]
    unfold present
    rw [List.filterMap_append, List.filterMap_cons_none (f := Fl.val?) (a := (Fl.nan : Fl ℝ)) rfl, List.map_congr_left hp, List.map_congr_left hq]
  · rw [List.map_append, List.map_cons, hg]
    unfold present
    rw [List.filterMap_append, List.filterMap_cons_some (f := Fl.val?) (a := Fl.fin y) (b := y) rfl]

theorem mean_added (l₁ l₂ : List ℝ) (v : ℝ) (h : l₁ ++ l₂ ≠ []) :
    mean (l₁ ++ v :: l₂) = mean (l₁ ++ l₂) + (v - mean (l₁ ++ l₂)) / ((l₁ ++ l₂).length + 1) := by
  rw [mean_split]
  unfold mean
  have hn : ((l₁ ++ l₂).length : ℝ) ≠ 0 := Nat.cast_ne_zero.mpr (by rwa [ne_eq, List.length_eq_zero_iff])
  have hn1 : ((l₁ ++ l₂).length : ℝ) + 1 ≠ 0 := by positivity
  field_simp
  ring

theorem sqDev_added (l₁ l₂ : List ℝ) (v : ℝ) (h : l₁ ++ l₂ ≠ []) :
    sqDev (l₁ ++ v :: l₂) = sqDev (l₁ ++ l₂) + (l₁ ++ l₂).length / ((l₁ ++ l₂).length + 1) * (v - mean (l₁ ++ l₂)) ^ 2 := by
  have hn : ((l₁ ++ l₂).length : ℝ) ≠ 0 := Nat.cast_ne_zero.mpr (by rwa [ne_eq, List.length_eq_zero_iff])
  have hn1 : ((l₁ ++ l₂).length : ℝ) + 1 ≠ 0 := by positivity
  have e1 := sqDev_mul (l₁ ++ l₂)
  have e2 := sqDev_mul (l₁ ++ v :: l₂)
  have hL : ((l₁ ++ v :: l₂).length : ℝ) = (l₁ ++ l₂).length + 1 := by
    simp only [List.length_append, List.length_cons]
    push_cast
    ring
  have hS : (l₁ ++ v :: l₂).sum = (l₁ ++ l₂).sum + v := by
    simp only [List.sum_append, List.sum_cons]
    ring
  have hQ : ((l₁ ++ v :: l₂).map fun x => x ^ 2).sum = ((l₁ ++ l₂).map fun x => x ^ 2).sum + v ^ 2 := by
    simp only [List.map_append, List.map_cons, List.sum_append, List.sum_cons]
    ring
  rw [hL, hS, hQ] at e2
  unfold mean
  generalize sqDev (l₁ ++ v :: l₂) = A at *
  generalize sqDev (l₁ ++ l₂) = B at *
  generalize ((l₁ ++ l₂).length : ℝ) = n at *
  generalize (l₁ ++ l₂).sum = s at *
  generalize ((l₁ ++ l₂).map fun x => x ^ 2).sum = q at *
  apply mul_left_cancel₀ (mul_ne_zero hn hn1)
  have e3 : n * (n + 1) * A = n * ((n + 1) * A) := by ring
  have e4 : n * (n + 1) * (B + n / (n + 1) * (v - s / n) ^ 2) = (n + 1) * (n * B) + (n * v - s) ^ 2 := by
    field_simp
  rw [e3, e2, e4, e1]
  ring

end Sureal.AddedVote
