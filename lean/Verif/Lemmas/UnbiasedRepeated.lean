import Verif.Props.Unbiased
/-!
# Lemmas for C160 with repeated votes: only the mean of an observer's votes on a video counts
-/
set_option linter.unusedSectionVars false
namespace Sureal.Unbiased
open Sureal Spec RejectSym
variable {E S R : ℕ}

theorem present_cells (f : Fin R → ℝ) : present (List.ofFn fun r => Fl.fin (f r)) = List.ofFn f := by
  have : (List.ofFn fun r => Fl.fin (f r)) = (List.ofFn f).map Fl.fin := by
    rw [List.map_ofFn]; rfl
  rw [this]
  exact present_map_fin _

theorem ofFn_ne_nil (hR : R ≠ 0) (f : Fin R → ℝ) : List.ofFn f ≠ [] := by
  intro h
  have : (List.ofFn f).length = 0 := by rw [h]; rfl
  rw [List.length_ofFn] at this
  exact hR this

theorem opinion_repeated (x : Arr3 ℝ E S R) (hR : R ≠ 0) (e : Fin E) (s : Fin S) :
    opinion (fun e s r => Fl.fin (x e s r)) e s = .fin (mean (List.ofFn fun r => x e s r)) := by
  unfold opinion
  rw [meanOrNan_eq (by rw [present_cells]; exact ofFn_ne_nil hR _), present_cells]

/-- repeated votes count by their mean in the agreements -/
theorem opinionPairs_repeated (x : Arr3 ℝ E S R) (hR : R ≠ 0) (s : Fin S) :
    opinionPairs (fun e s r => Fl.fin (x e s r)) s = opinionPairs (fun e s (_ : Fin 1) => Fl.fin (mean (List.ofFn fun r => x e s r))) s := by
  have h1 : ∀ e s, opinion (fun e s (_ : Fin 1) => Fl.fin (mean (List.ofFn fun r => x e s r))) e s = .fin (mean (List.ofFn fun r => x e s r)) := by
    intro e s
    rw [opinion_repeated (fun e s (_ : Fin 1) => mean (List.ofFn fun r => x e s r)) one_ne_zero]
    simp [mean]
  unfold opinionPairs panelOpinion
  simp only [opinion_repeated x hR, h1]

theorem biasOf_repeated (x : Arr3 ℝ E S R) (hE : E ≠ 0) (hS : S ≠ 0) (hR : R ≠ 0) (s : Fin S) :
    biasOf x s = biasIn (fun e s => mean (List.ofFn fun r => x e s r)) s := by
  have hE' : (E : ℝ) ≠ 0 := by exact_mod_cast hE
  have hS' : (S : ℝ) ≠ 0 := by exact_mod_cast hS
  have hR' : (R : ℝ) ≠ 0 := by exact_mod_cast hR
  rw [← biasOf_eq _ hE hS]
  unfold biasOf mean
  simp only [List.sum_ofFn, List.length_ofFn, Finset.univ_unique, Finset.sum_singleton, ← Finset.sum_div, Nat.cast_one, mul_one]
  field_simp

/-- repeated votes count by their mean in the scores -/
theorem mean_cells (x : Arr3 ℝ E S R) (hR : R ≠ 0) (e : Fin E) (l : List (Fin S)) :
    mean (present (cellsOf (fun e s r => Fl.fin (x e s r)) e l)) = mean (l.map fun s => mean (List.ofFn fun r => x e s r)) := by
  have hR' : (R : ℝ) ≠ 0 := by exact_mod_cast hR
  have key : (present (cellsOf (fun e s r => Fl.fin (x e s r)) e l)).sum = R * (l.map fun s => mean (List.ofFn fun r => x e s r)).sum ∧
      (present (cellsOf (fun e s r => Fl.fin (x e s r)) e l)).length = R * l.length := by
    unfold cellsOf
    induction l with
    | nil => simp [present]
    | cons s l ih =>
      have hp : present (((s :: l).map fun s => List.ofFn fun r => Fl.fin (x e s r)).flatten)
          = List.ofFn (fun r => x e s r) ++ present ((l.map fun s => List.ofFn fun r => Fl.fin (x e s r)).flatten) := by
        rw [List.map_cons, List.flatten_cons, ← present_cells]
        unfold present
        rw [List.filterMap_append]
      rw [hp]
      constructor
      · rw [List.sum_append, ih.1, List.map_cons, List.sum_cons]
        unfold mean
        rw [List.length_ofFn]
        field_simp
      · rw [List.length_append, ih.2, List.length_ofFn, List.length_cons]
        ring
  show (present (cellsOf (fun e s r => Fl.fin (x e s r)) e l)).sum / ((present (cellsOf (fun e s r => Fl.fin (x e s r)) e l)).length : ℝ) = _
  rw [key.1, key.2]
  show _ = (l.map fun s => mean (List.ofFn fun r => x e s r)).sum / ((l.map fun s => mean (List.ofFn fun r => x e s r)).length : ℝ)
  rw [List.length_map]
  push_cast
  rw [mul_div_mul_left _ _ hR']

theorem cells_ne_nil (x : Arr3 ℝ E S R) (hR : R ≠ 0) (e : Fin E) {l : List (Fin S)} (hl : l ≠ []) :
    present (cellsOf (fun e s r => Fl.fin (x e s r)) e l) ≠ [] := by
  cases l with
  | nil => exact absurd rfl hl
  | cons s l =>
    unfold cellsOf
    rw [List.map_cons, List.flatten_cons]
    unfold present
    rw [List.filterMap_append]
    intro h
    have h1 := (List.append_eq_nil_iff.mp h).1
    have h2 := present_cells fun r => x e s r
    unfold present at h2
    rw [h2] at h1
    exact ofFn_ne_nil hR _ h1

theorem mean_cell_unbiased (x : Arr3 ℝ E S R) (hR : R ≠ 0) (e : Fin E) (s : Fin S) (b : ℝ) :
    mean (List.ofFn fun r => x e s r - b) = mean (List.ofFn fun r => x e s r) - b := by
  have hR' : (R : ℝ) ≠ 0 := by exact_mod_cast hR
  unfold mean
  simp only [List.sum_ofFn, List.length_ofFn, Finset.sum_sub_distrib, Finset.sum_const, Finset.card_univ, Fintype.card_fin, nsmul_eq_mul]
  field_simp

end Sureal.Unbiased
