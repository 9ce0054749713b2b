import Verif.Spec.Raised
import Verif.Lemmas.Zscore
/-!
# Lemmas for C163: means and z-scores of lists in which one number is raised
-/
set_option linter.unusedSectionVars false
namespace Sureal.Raised
open Sureal Spec
variable {E S R : ℕ}

theorem flatten_product {n m : ℕ} (f : Fin n → Fin m → Fl ℝ) :
    (List.ofFn fun i => List.ofFn fun j => f i j).flatten = ((List.finRange n).product (List.finRange m)).map fun p => f p.1 p.2 := by
  unfold List.product
  rw [List.map_flatMap, List.flatMap_def, List.ofFn_eq_map]
  congr 1
  apply List.map_congr_left
  intro i _
  rw [List.map_map, List.ofFn_eq_map]
  rfl

/-- two tables that differ in one cell -/
theorem split_cell {n m : ℕ} (f g : Fin n → Fin m → Fl ℝ) (i : Fin n) (j : Fin m) {x y : ℝ} (hf : f i j = .fin x) (hg : g i j = .fin y)
    (ho : ∀ i' j', ¬ (i' = i ∧ j' = j) → f i' j' = g i' j') :
    ∃ l₁ l₂, present (List.ofFn fun i => List.ofFn fun j => f i j).flatten = l₁ ++ x :: l₂ ∧
      present (List.ofFn fun i => List.ofFn fun j => g i j).flatten = l₁ ++ y :: l₂ := by
  have hmem : (i, j) ∈ (List.finRange n).product (List.finRange m) := List.pair_mem_product.mpr ⟨List.mem_finRange _, List.mem_finRange _⟩
  have hnd : ((List.finRange n).product (List.finRange m)).Nodup := (List.nodup_finRange n).product (List.nodup_finRange m)
  rw [flatten_product, flatten_product]
  obtain ⟨p, q, hpq⟩ := List.append_of_mem hmem
  rw [hpq] at hnd ⊢
  have hp : ∀ c ∈ p, f c.1 c.2 = g c.1 c.2 := fun c hc => ho _ _ fun h => by
    have hd := (List.nodup_append.mp hnd).2.2 c hc (i, j) (List.mem_cons_self ..)
    exact hd (Prod.ext h.1 h.2)
  have hq : ∀ c ∈ q, f c.1 c.2 = g c.1 c.2 := fun c hc => ho _ _ fun h => by
    have hd := (List.nodup_cons.mp (List.nodup_append.mp hnd).2.1).1
    have : c = (i, j) := Prod.ext h.1 h.2
    rw [this] at hc
    exact hd hc
  refine ⟨present (p.map fun c => g c.1 c.2), present (q.map fun c => g c.1 c.2), ?_, ?_⟩
  · rw [List.map_append, List.map_cons, hf]
    unfold present
    rw [List.filterMap_append, List.filterMap_cons_some (f := Fl.val?) (a := Fl.fin x) (b := x) rfl, List.map_congr_left hp, List.map_congr_left hq]
  · rw [List.map_append, List.map_cons, hg]
    unfold present
    rw [List.filterMap_append, List.filterMap_cons_some (f := Fl.val?) (a := Fl.fin y) (b := y) rfl]

theorem mean_split (l₁ l₂ : List ℝ) (v : ℝ) : mean (l₁ ++ v :: l₂) = ((l₁ ++ l₂).sum + v) / (((l₁ ++ l₂).length : ℝ) + 1) := by
  unfold mean
  rw [List.sum_append, List.sum_cons, List.sum_append, List.length_append, List.length_cons, List.length_append]
  push_cast
  congr 1 <;> ring

theorem mean_le {l₁ l₂ : List ℝ} {v w : ℝ} (h : v ≤ w) : mean (l₁ ++ v :: l₂) ≤ mean (l₁ ++ w :: l₂) := by
  rw [mean_split, mean_split]
  gcongr

theorem mean_lt {l₁ l₂ : List ℝ} {v w : ℝ} (h : v < w) : mean (l₁ ++ v :: l₂) < mean (l₁ ++ w :: l₂) := by
  rw [mean_split, mean_split]
  gcongr

theorem sum_sq_sub (l : List ℝ) (m : ℝ) : (l.map fun x => (x - m) ^ 2).sum = (l.map fun x => x ^ 2).sum - 2 * m * l.sum + l.length * m ^ 2 := by
  induction l with
  | nil => simp
  | cons x l ih => simp only [List.map_cons, List.sum_cons, List.length_cons, ih]; push_cast; ring

theorem sqDev_mul (l : List ℝ) : (l.length : ℝ) * sqDev l = l.length * (l.map fun x => x ^ 2).sum - l.sum ^ 2 := by
  by_cases h : l = []
  · subst h; simp
  have hn : (l.length : ℝ) ≠ 0 := by simpa using h
  unfold sqDev
  rw [sum_sq_sub]
  unfold mean
  field_simp
  ring

/-- a quotient by a root grows with the square of the numerator, sign included -/
theorem div_sqrt_le {x y X Y : ℝ} (hX : 0 < X) (hY : 0 < Y) (h : x * |x| * Y ≤ y * |y| * X) : x / Real.sqrt X ≤ y / Real.sqrt Y := by
  by_contra hc
  push Not at hc
  have sX := Real.sqrt_pos.mpr hX
  have sY := Real.sqrt_pos.mpr hY
  set a := x / Real.sqrt X with ha
  set b := y / Real.sqrt Y with hb
  have hx : x = a * Real.sqrt X := by rw [ha]; field_simp
  have hy : y = b * Real.sqrt Y := by rw [hb]; field_simp
  have e1 : x * |x| = a * |a| * X := by
    rw [hx, abs_mul, abs_of_pos sX]
    nth_rewrite 3 [← Real.mul_self_sqrt hX.le]
    ring
  have e2 : y * |y| = b * |b| * Y := by
    rw [hy, abs_mul, abs_of_pos sY]
    nth_rewrite 3 [← Real.mul_self_sqrt hY.le]
    ring
  rw [e1, e2] at h
  have hlt : b * |b| < a * |a| := by
    rcases le_total 0 b with hb0 | hb0
    · rw [abs_of_nonneg hb0, abs_of_nonneg (hb0.trans hc.le)]; nlinarith
    · rw [abs_of_nonpos hb0]
      rcases le_total 0 a with ha0 | ha0
      · rw [abs_of_nonneg ha0]
        rcases hb0.lt_or_eq with hb1 | hb1
        · nlinarith
        · rw [hb1]; nlinarith
      · rw [abs_of_nonpos ha0]; nlinarith
  have := mul_pos hX hY
  nlinarith

/-- the z-score of a number grows with the number -/
theorem zscore_le {l₁ l₂ : List ℝ} {v w : ℝ} (h : v ≤ w) (hv : 0 < sampleVar (l₁ ++ v :: l₂)) (hw : 0 < sampleVar (l₁ ++ w :: l₂)) (hne : l₁ ++ l₂ ≠ []) :
    (v - mean (l₁ ++ v :: l₂)) / Real.sqrt (sampleVar (l₁ ++ v :: l₂)) ≤ (w - mean (l₁ ++ w :: l₂)) / Real.sqrt (sampleVar (l₁ ++ w :: l₂)) := by
  set n : ℝ := ((l₁ ++ l₂).length : ℝ) with hn
  set P := (l₁ ++ l₂).sum with hP
  set Q := ((l₁ ++ l₂).map fun x => x ^ 2).sum with hQ
  have hn0 : 0 < n := by
    rw [hn]
    exact_mod_cast List.length_pos_iff.mpr hne
  set A := (n + 1) * (n * Q - P ^ 2) with hA
  have hA0 : 0 ≤ A := by
    have := sqDev_mul (l₁ ++ l₂)
    have h2 := Np.sqDev_nonneg (l₁ ++ l₂)
    rw [hA, hQ, hn, hP, ← this]
    positivity
  have key : ∀ t : ℝ, sampleVar (l₁ ++ t :: l₂) = ((n * t - P) ^ 2 + A) / (n ^ 2 * (n + 1)) := by
    intro t
    have h1 := sqDev_mul (l₁ ++ t :: l₂)
    have hlen : ((l₁ ++ t :: l₂).length : ℝ) = n + 1 := by
      rw [hn, List.length_append, List.length_cons, List.length_append]; push_cast; ring
    have hs : (l₁ ++ t :: l₂).sum = P + t := by rw [hP, List.sum_append, List.sum_append, List.sum_cons]; ring
    have hq : ((l₁ ++ t :: l₂).map fun x => x ^ 2).sum = Q + t ^ 2 := by
      rw [hQ]
      simp only [List.map_append, List.map_cons, List.sum_append, List.sum_cons]
      ring
    rw [hlen, hs, hq] at h1
    unfold sampleVar
    rw [hlen, add_sub_cancel_right]
    have : sqDev (l₁ ++ t :: l₂) = ((n + 1) * (Q + t ^ 2) - (P + t) ^ 2) / (n + 1) := by rw [← h1]; field_simp
    rw [this, hA]
    field_simp
    ring
  have num : ∀ t : ℝ, t - mean (l₁ ++ t :: l₂) = (n * t - P) / (n + 1) := by
    intro t
    rw [mean_split, ← hP, ← hn]
    field_simp
    ring
  refine div_sqrt_le hv hw ?_
  rw [num, num, key, key]
  have hu : n * v - P ≤ n * w - P := by nlinarith
  generalize n * v - P = u at hu
  generalize n * w - P = u' at hu
  rw [abs_div, abs_div, abs_of_pos (show (0 : ℝ) < n + 1 by linarith)]
  have core : u * |u| * (u' ^ 2 + A) ≤ u' * |u'| * (u ^ 2 + A) := by
    rcases le_total 0 u with h0 | h0
    · rw [abs_of_nonneg h0, abs_of_nonneg (h0.trans hu)]
      nlinarith [mul_le_mul hu hu h0 (h0.trans hu)]
    · rcases le_total 0 u' with h1 | h1
      · rw [abs_of_nonpos h0, abs_of_nonneg h1]
        have a1 : 0 ≤ u' * u' * (u ^ 2 + A) := by positivity
        have a2 : 0 ≤ u * u * (u' ^ 2 + A) := by nlinarith [mul_self_nonneg u, sq_nonneg u']
        nlinarith
      · rw [abs_of_nonpos h0, abs_of_nonpos h1]
        have : u' * u' ≤ u * u := by nlinarith
        nlinarith
  have e1 : u / (n + 1) * (|u| / (n + 1)) * ((u' ^ 2 + A) / (n ^ 2 * (n + 1))) = u * |u| * (u' ^ 2 + A) / ((n + 1) ^ 2 * (n ^ 2 * (n + 1))) := by
    field_simp
  have e2 : u' / (n + 1) * (|u'| / (n + 1)) * ((u ^ 2 + A) / (n ^ 2 * (n + 1))) = u' * |u'| * (u ^ 2 + A) / ((n + 1) ^ 2 * (n ^ 2 * (n + 1))) := by
    field_simp
  rw [e1, e2]
  gcongr

end Sureal.Raised
