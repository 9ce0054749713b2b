import Verif.Lemmas.Raised
import Verif.Lemmas.RejectSym
/-!
# Lemmas for C163: scores after bias removal with missing votes
-/
set_option linter.unusedSectionVars false
namespace Sureal.Raised
open Sureal Spec
variable {E S R : ℕ}

/-- the number in a cell, 0 if there is none -/
def num : Fl ℝ → ℝ
  | .fin v => v
  | _ => 0

/-- 1 if there is a number in the cell -/
def has : Fl ℝ → ℝ
  | .fin _ => 1
  | _ => 0

theorem present_sum_num (l : List (Fl ℝ)) : (present l).sum = (l.map num).sum ∧ ((present l).length : ℝ) = (l.map has).sum := by
  induction l with
  | nil => simp [present]
  | cons x l ih =>
    unfold present at ih ⊢
    rw [List.map_cons, List.map_cons, List.sum_cons, List.sum_cons]
    cases x with
    | fin v =>
      rw [List.filterMap_cons_some (f := Fl.val?) (a := Fl.fin v) (b := v) rfl, List.sum_cons, List.length_cons, ih.1]
      push_cast
      rw [ih.2]
      exact ⟨rfl, add_comm _ _⟩
    | nan => rw [List.filterMap_cons_none rfl, ih.1, ih.2]; exact ⟨(zero_add _).symm, (zero_add _).symm⟩
    | pinf => rw [List.filterMap_cons_none rfl, ih.1, ih.2]; exact ⟨(zero_add _).symm, (zero_add _).symm⟩
    | ninf => rw [List.filterMap_cons_none rfl, ih.1, ih.2]; exact ⟨(zero_add _).symm, (zero_add _).symm⟩

theorem sum_table {n m : ℕ} (f : Fin n → Fin m → Fl ℝ) (g : Fl ℝ → ℝ) :
    ((List.ofFn fun i => List.ofFn fun j => f i j).flatten.map g).sum = ∑ i, ∑ j, g (f i j) := by
  rw [List.map_flatten, List.map_ofFn, ← sum_flatten_ofFn]
  congr 3
  funext i
  exact List.map_ofFn

theorem mean_table {n m : ℕ} (f : Fin n → Fin m → Fl ℝ) (h : ∑ i, ∑ j, has (f i j) ≠ 0) :
    meanOrNan (List.ofFn fun i => List.ofFn fun j => f i j).flatten = .fin ((∑ i, ∑ j, num (f i j)) / ∑ i, ∑ j, has (f i j)) := by
  obtain ⟨h1, h2⟩ := present_sum_num (List.ofFn fun i => List.ofFn fun j => f i j).flatten
  rw [sum_table] at h1 h2
  rw [meanOrNan_eq]
  · unfold mean
    rw [h1, h2]
  · intro h0
    rw [h0] at h2
    exact h (by rw [← h2]; simp)

theorem has_nonneg (x : Fl ℝ) : 0 ≤ has x := by cases x <;> simp [has]

theorem has_sum_pos {n m : ℕ} (f : Fin n → Fin m → Fl ℝ) {i : Fin n} {j : Fin m} {v : ℝ} (h : f i j = .fin v) : 0 < ∑ i, ∑ j, has (f i j) := by
  have h1 : (1 : ℝ) ≤ ∑ j, has (f i j) := by
    have := Finset.single_le_sum (f := fun j => has (f i j)) (fun _ _ => has_nonneg _) (Finset.mem_univ j)
    rw [h] at this
    exact this
  have h2 := Finset.single_le_sum (f := fun i => ∑ j, has (f i j)) (fun _ _ => Finset.sum_nonneg fun _ _ => has_nonneg _) (Finset.mem_univ i)
  linarith

/-- the numbers after bias removal -/
noncomputable def biasSum (M X : Fin E → Fin S → Fin R → ℝ) (s : Fin S) : ℝ :=
  (∑ e, ∑ r, M e s r * (X e s r - (∑ s, ∑ r, M e s r * X e s r) / ∑ s, ∑ r, M e s r)) / ∑ e, ∑ r, M e s r

theorem br_cell (a : Arr3 (Fl ℝ) E S R) (hc : ∀ e s r, NumOrNan (a e s r)) (e : Fin E) (s : Fin S) (r : Fin R) :
    (a e s r = .nan → biasArr a e s r = .nan) ∧
      ∀ v, a e s r = .fin v → biasArr a e s r = .fin (v - biasSum (fun e s r => has (a e s r)) (fun e s r => num (a e s r)) s) := by
  have hb : biasArr a e s r = a e s r - biasEstimate a s := rfl
  rw [hb]
  refine ⟨fun h => ?_, fun v h => ?_⟩
  · rw [h]
    rcases RejectSym.biasEstimate_clean a hc s with k | ⟨w, k⟩ <;> rw [k] <;> rfl
  · have hn := has_sum_pos (fun e r => a e s r) h
    have hnum : ∀ x : Fl ℝ, has x * num x = num x := fun x => by cases x <;> simp [has, num]
    have hcell : ∀ e' r', a e' s r' = .nan ∧ a e' s r' - meanAlongS a e' = .nan ∨
        ∃ v, a e' s r' = .fin v ∧ a e' s r' - meanAlongS a e' = .fin (v - (∑ s, ∑ r, num (a e' s r)) / ∑ s, ∑ r, has (a e' s r)) := by
      intro e' r'
      rw [meanAlongS_spec a e' (hc e')]
      rcases hc e' s r' with k | ⟨w, k⟩
      · left
        rw [k]
        refine ⟨rfl, ?_⟩
        rcases RejectSym.clean_meanOrNan (videoCells a e') with q | ⟨q, h'⟩
        · rw [q]; rfl
        · rw [h']; rfl
      · right
        refine ⟨w, k, ?_⟩
        unfold videoCells
        rw [mean_table _ (has_sum_pos (fun s r => a e' s r) k).ne', k]
        rfl
    have hhas : ∀ e' r', has (a e' s r' - meanAlongS a e') = has (a e' s r') := by
      intro e' r'
      rcases hcell e' r' with ⟨k1, k2⟩ | ⟨w, k1, k2⟩ <;> rw [k1] at k2 ⊢ <;> rw [k2] <;> rfl
    have hval : ∀ e' r', num (a e' s r' - meanAlongS a e') = has (a e' s r') * (num (a e' s r') - (∑ s, ∑ r, num (a e' s r)) / ∑ s, ∑ r, has (a e' s r)) := by
      intro e' r'
      rcases hcell e' r' with ⟨k1, k2⟩ | ⟨w, k1, k2⟩
      · rw [k2, k1]; simp [num, has]
      · rw [k2, k1]; simp [num, has]
    have hest : biasEstimate a s = .fin (biasSum (fun e s r => has (a e s r)) (fun e s r => num (a e s r)) s) := by
      unfold biasEstimate
      rw [meanAlongE_spec _ s (fun e' r' => by
        rcases hcell e' r' with ⟨_, k⟩ | ⟨w, _, k⟩
        · exact Or.inl k
        · exact Or.inr ⟨_, k⟩)]
      unfold observerCells
      rw [mean_table (fun e' r' => a e' s r' - meanAlongS a e') (by simp only [hhas]; exact hn.ne')]
      unfold biasSum
      simp only [hhas, hval, hnum]
    rw [hest, h]
    rfl

/-- the score of a video with votes, after bias removal -/
theorem br_score (a : Arr3 (Fl ℝ) E S R) (hc : ∀ e s r, NumOrNan (a e s r)) (e : Fin E) (h : ∑ s, ∑ r, has (a e s r) ≠ 0) :
    meanOrNan (videoCells (biasArr a) e) = .fin ((∑ s, ∑ r, has (a e s r) * (num (a e s r) - biasSum (fun e s r => has (a e s r)) (fun e s r => num (a e s r)) s)) /
      ∑ s, ∑ r, has (a e s r)) := by
  have hhas : ∀ s r, has (biasArr a e s r) = has (a e s r) := by
    intro s r
    rcases hc e s r with k | ⟨w, k⟩
    · rw [(br_cell a hc e s r).1 k, k]
    · rw [(br_cell a hc e s r).2 w k, k]; rfl
  have hval : ∀ s r, num (biasArr a e s r) = has (a e s r) * (num (a e s r) - biasSum (fun e s r => has (a e s r)) (fun e s r => num (a e s r)) s) := by
    intro s r
    rcases hc e s r with k | ⟨w, k⟩
    · rw [(br_cell a hc e s r).1 k, k]; simp [num, has]
    · rw [(br_cell a hc e s r).2 w k, k]; simp [num, has]
  unfold videoCells
  rw [mean_table _ (by simp only [hhas]; exact h)]
  simp only [hhas, hval]

/-- what a higher vote adds to the score of its video -/
theorem br_gain (M X : Fin E → Fin S → Fin R → ℝ) (hM : ∀ e s r, 0 ≤ M e s r) (e₀ : Fin E) (s₀ : Fin S) (r₀ : Fin R) (h1 : M e₀ s₀ r₀ = 1) {d : ℝ} (hd : 0 < d) :
    (∑ s, ∑ r, M e₀ s r * (X e₀ s r - biasSum M X s)) / (∑ s, ∑ r, M e₀ s r) <
      (∑ s, ∑ r, M e₀ s r * ((X e₀ s r + if e₀ = e₀ ∧ s = s₀ ∧ r = r₀ then d else 0) -
        biasSum M (fun e s r => X e s r + if e = e₀ ∧ s = s₀ ∧ r = r₀ then d else 0) s)) / (∑ s, ∑ r, M e₀ s r) := by
  set k : Fin S → ℝ := fun s => ∑ r, M e₀ s r with hk
  set n : Fin S → ℝ := fun s => ∑ e, ∑ r, M e s r with hn
  set N := ∑ s, ∑ r, M e₀ s r with hN
  have hk0 : ∀ s, 0 ≤ k s := fun s => Finset.sum_nonneg fun _ _ => hM _ _ _
  have hn0 : ∀ s, 0 ≤ n s := fun s => Finset.sum_nonneg fun _ _ => Finset.sum_nonneg fun _ _ => hM _ _ _
  have hkn : ∀ s, k s ≤ n s := fun s =>
    Finset.single_le_sum (f := fun e => ∑ r, M e s r) (fun _ _ => Finset.sum_nonneg fun _ _ => hM _ _ _) (Finset.mem_univ e₀)
  have hk1 : 1 ≤ k s₀ := by
    have := Finset.single_le_sum (f := fun r => M e₀ s₀ r) (fun _ _ => hM _ _ _) (Finset.mem_univ r₀)
    rw [h1] at this
    exact this
  have hn1 : 0 < n s₀ := by linarith [hkn s₀]
  have hN1 : 0 < N := by
    have : k s₀ ≤ N := Finset.single_le_sum (f := k) (fun s _ => hk0 s) (Finset.mem_univ s₀)
    linarith
  have hMd : ∀ e s r, M e s r * (if e = e₀ ∧ s = s₀ ∧ r = r₀ then d else 0) = if e = e₀ ∧ s = s₀ ∧ r = r₀ then d else 0 := by
    intro e s r
    by_cases h : e = e₀ ∧ s = s₀ ∧ r = r₀
    · rw [if_pos h, h.1, h.2.1, h.2.2, h1, one_mul]
    · rw [if_neg h, mul_zero]
  have hT : ∀ e, (∑ s, ∑ r, M e s r * (X e s r + if e = e₀ ∧ s = s₀ ∧ r = r₀ then d else 0)) = (∑ s, ∑ r, M e s r * X e s r) + if e = e₀ then d else 0 := by
    intro e
    simp only [mul_add, hMd, Finset.sum_add_distrib]
    congr 1
    by_cases h : e = e₀
    · simp [h, ite_and]
    · simp [h]
  have hbias : ∀ s, biasSum M (fun e s r => X e s r + if e = e₀ ∧ s = s₀ ∧ r = r₀ then d else 0) s =
      biasSum M X s + ((if s = s₀ then d else 0) - k s * (d / N)) / n s := by
    intro s
    unfold biasSum
    rw [← add_div]
    congr 1
    have : ∀ e r, M e s r * (X e s r + (if e = e₀ ∧ s = s₀ ∧ r = r₀ then d else 0) -
          (∑ s, ∑ r, M e s r * (X e s r + if e = e₀ ∧ s = s₀ ∧ r = r₀ then d else 0)) / ∑ s, ∑ r, M e s r) =
        M e s r * (X e s r - (∑ s, ∑ r, M e s r * X e s r) / ∑ s, ∑ r, M e s r) + ((if e = e₀ ∧ s = s₀ ∧ r = r₀ then d else 0) -
          M e s r * (if e = e₀ then d / N else 0)) := by
      intro e r
      have q := hMd e s r
      rw [hT, add_div]
      by_cases h : e = e₀
      · rw [if_pos h, if_pos h, show (∑ s, ∑ r, M e s r) = N by rw [h]]
        linear_combination q
      · rw [if_neg h, if_neg h]
        linear_combination q
    simp only [this, Finset.sum_add_distrib, Finset.sum_sub_distrib]
    congr 1
    congr 1
    · by_cases h : s = s₀
      · simp [h, ite_and]
      · simp [h]
    · have : ∀ e, (∑ r, M e s r * if e = e₀ then d / N else 0) = if e = e₀ then k s * (d / N) else 0 := by
        intro e
        by_cases h : e = e₀
        · simp only [h, if_true, ← Finset.sum_mul]; rfl
        · simp [h]
      simp only [this, Finset.sum_ite_eq', Finset.mem_univ, if_true]
  apply div_lt_div_of_pos_right _ hN1
  have hsum : (∑ s, ∑ r, M e₀ s r * ((X e₀ s r + if e₀ = e₀ ∧ s = s₀ ∧ r = r₀ then d else 0) -
        biasSum M (fun e s r => X e s r + if e = e₀ ∧ s = s₀ ∧ r = r₀ then d else 0) s)) =
      (∑ s, ∑ r, M e₀ s r * (X e₀ s r - biasSum M X s)) + (d - ∑ s, k s * (((if s = s₀ then d else 0) - k s * (d / N)) / n s)) := by
    have : ∀ s r, M e₀ s r * ((X e₀ s r + if e₀ = e₀ ∧ s = s₀ ∧ r = r₀ then d else 0) -
        biasSum M (fun e s r => X e s r + if e = e₀ ∧ s = s₀ ∧ r = r₀ then d else 0) s) =
        M e₀ s r * (X e₀ s r - biasSum M X s) + ((if e₀ = e₀ ∧ s = s₀ ∧ r = r₀ then d else 0) - M e₀ s r * (((if s = s₀ then d else 0) - k s * (d / N)) / n s)) := by
      intro s r
      rw [hbias]
      linear_combination hMd e₀ s r
    rw [Finset.sum_congr rfl fun s _ => Finset.sum_congr rfl fun r _ => this s r]
    simp only [Finset.sum_add_distrib, Finset.sum_sub_distrib, ← Finset.sum_mul]
    congr 1
    congr 1
    simp [ite_and]
  rw [hsum]
  have hrest : ∑ s, k s * (((if s = s₀ then d else 0) - k s * (d / N)) / n s) < d := by
    have hs0 : k s₀ * ((d - k s₀ * (d / N)) / n s₀) < d := by
      have h1 : 0 < k s₀ * (d / N) := by positivity
      have h2 : k s₀ / n s₀ ≤ 1 := (div_le_one hn1).mpr (hkn s₀)
      have h3 : 0 < k s₀ / n s₀ := by positivity
      have e1 : k s₀ * ((d - k s₀ * (d / N)) / n s₀) = k s₀ / n s₀ * d - k s₀ / n s₀ * (k s₀ * (d / N)) := by field_simp
      rw [e1]
      have := mul_pos h3 h1
      nlinarith
    rw [← Finset.add_sum_erase _ _ (Finset.mem_univ s₀)]
    rw [if_pos rfl]
    have : ∑ s ∈ Finset.univ.erase s₀, k s * (((if s = s₀ then d else 0) - k s * (d / N)) / n s) ≤ 0 := by
      apply Finset.sum_nonpos
      intro s hs
      rw [if_neg (Finset.ne_of_mem_erase hs), zero_sub, neg_div, mul_neg, neg_nonpos]
      have := hk0 s
      have := hn0 s
      positivity
    linarith
  linarith

end Sureal.Raised
