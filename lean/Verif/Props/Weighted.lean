import Verif.Model.Weighted
import Verif.Props.ApSym
/-!
# C39: `weighed_nanmean_2d`
-/
set_option linter.unusedSectionVars false
namespace Sureal.Props
open Sureal Spec

/-- the 2-D array with the entries `f i j` -/
def arr2 {n m : ℕ} (f : Fin n → Fin m → Fl ℝ) : NdArr (Fl ℝ) :=
  { shape := [n, m]
    get := fun
      | [i, j] => if h : i < n ∧ j < m then f ⟨i, h.1⟩ ⟨j, h.2⟩ else .nan
      | _ => .nan }

/-- the positions of the entries that are numbers -/
noncomputable def numbersAt {m : ℕ} (f : Fin m → Fl ℝ) : Finset (Fin m) := by
  classical exact Finset.univ.filter fun j => ∃ v, f j = .fin v

/-- the number in an entry -/
noncomputable def numberOf (x : Fl ℝ) : ℝ := x.val?.getD 0

theorem broadcast_same (m : ℕ) (j : ℕ) (hj : j < m) : broadcastIdx m j = j := by
  unfold broadcastIdx; split <;> omega

theorem range_map_ofFn {α : Type} (m : ℕ) (f : ℕ → α) : (List.range m).map f = List.ofFn fun j : Fin m => f j := by
  apply List.ext_getElem
  · simp
  · intro i h1 h2; simp

theorem broadcastLen_self (m : ℕ) : broadcastLen m m = some m := by simp [broadcastLen]

/-- the typed functions used by the solver are this function -/
theorem weighed_typed {n m : ℕ} (f : Fin n → Fin m → Fl ℝ) :
    (∀ w : Fin m → Fl ℝ, weighedNanmean2d (arr2 f) (List.ofFn w) 1 = .ok (List.ofFn (weighedNanmean1 f w))) ∧
    (∀ w : Fin n → Fl ℝ, weighedNanmean2d (arr2 f) (List.ofFn w) 0 = .ok (List.ofFn (weighedNanmean0 f w))) := by
  constructor
  · intro w
    unfold weighedNanmean2d
    simp only [arr2, List.length_ofFn, broadcastLen_self]
    norm_num
    rw [range_map_ofFn]
    congr 1
    funext i
    unfold weighedNanmean1 rowL
    rw [range_map_ofFn, range_map_ofFn]
    congr 3 <;>
    · funext j
      rw [broadcast_same m j j.isLt]
      simp
  · intro w
    unfold weighedNanmean2d
    simp only [arr2, List.length_ofFn, broadcastLen_self]
    norm_num
    rw [range_map_ofFn]
    congr 1
    funext i
    unfold weighedNanmean0 colL
    rw [range_map_ofFn, range_map_ofFn]
    congr 3 <;>
    · funext j
      rw [broadcast_same n j j.isLt]
      simp

theorem row_as_mask {m : ℕ} (f : Fin m → Fl ℝ) (hf : ∀ j, NumOrNan (f j)) (w : Fin m → ℝ) (op : ℝ → ℝ → ℝ)
    (g : Fl ℝ → Fl ℝ → Fl ℝ) (hn : ∀ v, g .nan (.fin v) = .fin 0 ∨ g .nan (.fin v) = .nan)
    (hg : ∀ x v, g (.fin x) (.fin v) = .fin (op x v)) :
    Np.nansum (List.ofFn fun j => g (f j) (.fin (w j))) = .fin (∑ j ∈ numbersAt f, op (numberOf (f j)) (w j)) := by
  classical
  have hcl : ∀ j, NumOrNan (g (f j) (.fin (w j))) := by
    intro j
    rcases hf j with h | ⟨v, h⟩ <;> rw [h]
    · rcases hn (w j) with h | h <;> rw [h]
      · exact Or.inr ⟨_, rfl⟩
      · exact Or.inl rfl
    · rw [hg]; exact Or.inr ⟨_, rfl⟩
  have hc : Np.Clean (List.ofFn fun j => g (f j) (.fin (w j))) := by
    exact Np.clean_ofFn.mpr hcl
  rw [Np.nansum_eq hc]
  congr 1
  have hpres : ((present (List.ofFn fun j => g (f j) (.fin (w j))) : List ℝ) : Multiset ℝ)
      = ((Finset.univ.filter fun j => ¬ (g (f j) (.fin (w j))).isNan = true).val).map fun j => numberOf (g (f j) (.fin (w j))) := by
    have h1 : (List.ofFn fun j => g (f j) (.fin (w j)))
        = List.ofFn fun j => mask (!(g (f j) (.fin (w j))).isNan) (numberOf (g (f j) (.fin (w j)))) := by
      congr 1; funext j
      rcases hcl j with h | ⟨v, h⟩ <;> rw [h] <;> rfl
    unfold present
    rw [h1, ← Multiset.filterMap_coe, coe_ofFn, filterMap_mask]
    congr 1
    simp only [Finset.filter_val]
    congr 1
    funext j
    simp
  rw [sum_of_coe hpres]
  have hsub : numbersAt f ⊆ Finset.univ.filter fun j => ¬ (g (f j) (.fin (w j))).isNan = true := by
    intro j hj
    simp only [numbersAt, Finset.mem_filter, Finset.mem_univ, true_and] at hj
    obtain ⟨v, hv⟩ := hj
    simp [hv, hg]
  rw [← Finset.sum_subset hsub]
  · apply Finset.sum_congr rfl
    intro j hj
    simp only [numbersAt, Finset.mem_filter, Finset.mem_univ, true_and] at hj
    obtain ⟨v, hv⟩ := hj
    rw [hv, hg]; rfl
  · intro j hj hj'
    simp only [numbersAt, Finset.mem_filter, Finset.mem_univ, true_and] at hj hj'
    rcases hf j with h | h
    · rw [h] at hj ⊢
      rcases hn (w j) with h | h <;> rw [h] at hj ⊢
      · rfl
      · simp at hj
    · exact absurd h hj'

open Classical in
theorem weighted_list {m : ℕ} (f : Fin m → Fl ℝ) (hf : ∀ j, NumOrNan (f j)) (w : Fin m → ℝ) (hw : ∀ j, 0 < w j) :
    Np.nansum (List.ofFn fun j => f j * .fin (w j)) / Np.nansum (List.ofFn fun j => notNanTimes (f j) (.fin (w j)))
      = mask (decide (numbersAt f).Nonempty) (wavg (numbersAt f) w fun j => numberOf (f j)) := by
  rw [row_as_mask f hf w (fun x v => x * v) (fun x v => x * v) (fun v => Or.inr (by simp)) (fun x v => Fl.fin_mul x v),
    row_as_mask f hf w (fun _ v => v) notNanTimes
      (fun v => Or.inl (by simp [notNanTimes, Fl.zero_def])) (fun x v => by simp [notNanTimes, Fl.one_def])]
  by_cases h : (numbersAt f).Nonempty
  · have : 0 < ∑ j ∈ numbersAt f, w j := Finset.sum_pos (fun c _ => hw c) h
    rw [Fl.fin_div this.ne', decide_eq_true h]; rfl
  · rw [decide_eq_false h]
    rw [Finset.not_nonempty_iff_eq_empty] at h
    rw [h]
    exact Fl.zero_div_zero

/-- what the weighted mean of the entries `f` with weights `w` should be: NaN without numbers, otherwise the weighted
average of the numbers -/
def IsWeightedMean {m : ℕ} (f : Fin m → Fl ℝ) (w : Fin m → ℝ) (y : Fl ℝ) : Prop :=
  ((∀ j v, f j ≠ .fin v) → y = .nan) ∧
  ((∃ j v, f j = .fin v) → y = .fin ((∑ j ∈ numbersAt f, numberOf (f j) * w j) / ∑ j ∈ numbersAt f, w j))

theorem isWeightedMean_of {m : ℕ} (f : Fin m → Fl ℝ) (hf : ∀ j, NumOrNan (f j)) (w : Fin m → ℝ) (hw : ∀ j, 0 < w j) :
    IsWeightedMean f w (Np.nansum (List.ofFn fun j => f j * .fin (w j)) / Np.nansum (List.ofFn fun j => notNanTimes (f j) (.fin (w j)))) := by
  rw [weighted_list f hf w hw]
  have hiff : (numbersAt f).Nonempty ↔ ∃ j v, f j = .fin v := by
    constructor
    · rintro ⟨j, hj⟩; simp only [numbersAt, Finset.mem_filter, Finset.mem_univ, true_and] at hj; exact ⟨j, hj⟩
    · rintro ⟨j, hj⟩; exact ⟨j, by simp only [numbersAt, Finset.mem_filter, Finset.mem_univ, true_and]; exact hj⟩
  constructor
  · intro h
    have : ¬ (numbersAt f).Nonempty := by rw [hiff]; rintro ⟨j, v, hj⟩; exact h j v hj
    simp [this]
  · intro h
    simp [hiff.mpr h, wavg]

/-- **C39**.  With positive weights, `weighed_nanmean_2d` gives one value per row (`axis=1`) or column (`axis=0`): the
weighted average of the numbers there, NaN if there are none. -/
theorem C39_weighted_average (n m : ℕ) (f : Fin n → Fin m → Fl ℝ) (hf : ∀ i j, NumOrNan (f i j)) :
    (∀ w : Fin m → ℝ, (∀ j, 0 < w j) → ∃ y : Fin n → Fl ℝ,
      weighedNanmean2d (arr2 f) (List.ofFn fun j => .fin (w j)) 1 = .ok (List.ofFn y) ∧
      ∀ i, IsWeightedMean (f i) w (y i)) ∧
    (∀ w : Fin n → ℝ, (∀ i, 0 < w i) → ∃ y : Fin m → Fl ℝ,
      weighedNanmean2d (arr2 f) (List.ofFn fun i => .fin (w i)) 0 = .ok (List.ofFn y) ∧
      ∀ j, IsWeightedMean (fun i => f i j) w (y j)) := by
  constructor
  · intro w hw
    refine ⟨_, (weighed_typed f).1 fun j => .fin (w j), fun i => ?_⟩
    exact isWeightedMean_of (f i) (hf i) w hw
  · intro w hw
    refine ⟨_, (weighed_typed f).2 fun j => .fin (w j), fun j => ?_⟩
    exact isWeightedMean_of (fun i => f i j) (fun i => hf i j) w hw

theorem mem_numbersAt {m : ℕ} {f : Fin m → Fl ℝ} {j : Fin m} : j ∈ numbersAt f ↔ ∃ v, f j = .fin v := by
  simp [numbersAt]

/-- **C39**.  A weighted mean of at least one number, with positive weights, is a number between any bounds on the
numbers; it is their plain mean if the weights are equal, and it does not change when all weights are multiplied by a
positive number. -/
theorem C39_weighted_mean_laws (m : ℕ) (f : Fin m → Fl ℝ) (w : Fin m → ℝ) (hw : ∀ j, 0 < w j) (y : Fl ℝ)
    (hy : IsWeightedMean f w y) (hex : ∃ j v, f j = .fin v) :
    (∃ q, y = .fin q ∧ ∀ lo hi, (∀ j v, f j = .fin v → lo ≤ v ∧ v ≤ hi) → lo ≤ q ∧ q ≤ hi) ∧
    ((∀ j j', w j = w j') → y = .fin ((∑ j ∈ numbersAt f, numberOf (f j)) / (numbersAt f).card)) ∧
    (∀ c, 0 < c → IsWeightedMean f (fun j => c * w j) y) := by
  have hne : (numbersAt f).Nonempty := by obtain ⟨j, hj⟩ := hex; exact ⟨j, mem_numbersAt.mpr hj⟩
  have hy' := hy.2 hex
  refine ⟨⟨_, hy', ?_⟩, ?_, ?_⟩
  · intro lo hi h
    refine wavg_bounds hne hw fun c hc => ?_
    obtain ⟨v, hv⟩ := mem_numbersAt.mp hc
    rw [hv]
    exact h c v hv
  · intro heq
    obtain ⟨j, _⟩ := hex
    rw [hy']
    congr 1
    have h1 : ∀ c, w c = w j := fun c => heq c j
    simp only [h1]
    rw [← Finset.sum_mul, Finset.sum_const, nsmul_eq_mul, mul_div_mul_right _ _ (hw j).ne']
  · intro c hc
    refine ⟨fun h => absurd hex (by push Not; exact h), fun _ => ?_⟩
    rw [hy']
    congr 1
    have h1 : (∑ j ∈ numbersAt f, numberOf (f j) * (c * w j)) = c * ∑ j ∈ numbersAt f, numberOf (f j) * w j := by
      rw [Finset.mul_sum]; exact Finset.sum_congr rfl fun j _ => by ring
    rw [h1, ← Finset.mul_sum, mul_div_mul_left _ _ hc.ne']

/-- **C39**.  AssertionError unless the array has two dimensions and the axis is 0 or 1. -/
theorem C39_refuses (a : NdArr (Fl ℝ)) (w : List (Fl ℝ)) (axis : ℤ) (h : a.shape.length ≠ 2 ∨ axis ≠ 0 ∧ axis ≠ 1) :
    weighedNanmean2d a w axis = .error .assertion := by
  unfold weighedNanmean2d
  split
  · rename_i n m hs
    rcases h with h | ⟨h0, h1⟩
    · rw [hs] at h; simp at h
    · rw [if_neg h0, if_neg h1]
  · rfl

/-- two rows, the second with a missing entry, weights 1 and 3 -/
example : weighedNanmean2d (arr2 fun i j => exArr i j 0) (List.ofFn fun j : Fin 2 => .fin (![1, 3] j)) 1
    = .ok [.fin (5 / 2), .fin 4] := by
  obtain ⟨y, h1, h2⟩ := (C39_weighted_average 2 2 (fun i j => exArr i j 0) (fun i j => exArr_clean i j 0)).1 ![1, 3]
    (by intro j; fin_cases j <;> norm_num)
  rw [h1]
  have n0 : numbersAt (fun j => exArr 0 j 0) = Finset.univ := by
    ext j; rw [mem_numbersAt]; fin_cases j <;> simp [exArr]
  have n1 : numbersAt (fun j => exArr 1 j 0) = {0} := by
    ext j; rw [mem_numbersAt]; fin_cases j <;> simp [exArr]
  have e0 := (h2 0).2 ⟨0, 1, rfl⟩
  have e1 := (h2 1).2 ⟨0, 4, rfl⟩
  rw [n0] at e0
  rw [n1] at e1
  simp only [List.ofFn_succ, List.ofFn_zero, Fin.succ_zero_eq_one, e0, e1]
  simp [exArr, Fin.sum_univ_succ, numberOf, Fl.val?]
  norm_num

end Sureal.Props
