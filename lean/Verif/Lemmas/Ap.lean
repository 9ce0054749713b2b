import Verif.Model.Ap
import Verif.Spec.Ap
import Verif.Lemmas.Zscore
import Mathlib.Algebra.BigOperators.Field
import Mathlib.Algebra.Order.BigOperators.Group.Finset
import Mathlib.Algebra.Order.BigOperators.Ring.Finset
/-! Lemmas on the alternating projection solver: on masked votes the float program computes the textbook formulas. -/
set_option linter.unusedSectionVars false
namespace Sureal
open Spec
section
variable {K : Type} [Field K] [LinearOrder K]

theorem mask_clean (p : Bool) (v : K) : NumOrNan (mask p v) := by
  cases p
  · exact Or.inl rfl
  · exact Or.inr ⟨v, rfl⟩

@[simp] theorem mask_true (v : K) : mask true v = .fin v := rfl
@[simp] theorem mask_false (v : K) : mask false v = .nan := rfl

/-- every clean array is a masked array -/
theorem exists_mask {J I R : ℕ} (x : Arr3 (Fl K) J I R) (hc : ∀ j i r, NumOrNan (x j i r)) :
    x = fun j i r => mask (!(x j i r).isNan) ((x j i r).val?.getD 0) := by
  funext j i r
  rcases hc j i r with h | ⟨v, h⟩ <;> rw [h] <;> rfl

theorem filterMap_mask {ι : Type} (m : Multiset ι) (g : ι → Bool) (f : ι → K) :
    Multiset.filterMap Fl.val? (m.map fun p => mask (g p) (f p)) = (m.filter fun p => g p = true).map f := by
  induction m using Multiset.induction_on with
  | empty => rfl
  | cons a s ih =>
    rw [Multiset.map_cons]
    cases h : g a
    · rw [Multiset.filterMap_cons_none _ _ (by simp), ih, Multiset.filter_cons_of_neg _ (by simp [h])]
    · rw [Multiset.filterMap_cons_some _ _ _ (b := f a) (by simp), ih, Multiset.filter_cons_of_pos (p := fun p => g p = true) _ h, Multiset.map_cons]
end

section
variable {J I R : ℕ} (P : Fin J → Fin I → Fin R → Bool) (F : Fin J → Fin I → Fin R → ℝ)

theorem coe_present_row (j : Fin J) :
    ((present (rowL (stack1 fun j i r => mask (P j i r) (F j i r)) j) : List ℝ) : Multiset ℝ)
      = (votesOnVideo P j).val.map fun c => F j c.1 c.2 := by
  have h : ((present (rowL (stack1 fun j i r => mask (P j i r) (F j i r)) j) : List ℝ) : Multiset ℝ)
      = ((present (videoCells (fun j i r => mask (P j i r) (F j i r)) j) : List ℝ) : Multiset ℝ) :=
    Multiset.coe_eq_coe.mpr (Np.present_perm (rowL_stack1_perm _ j))
  rw [h]
  unfold present
  rw [← Multiset.filterMap_coe, coe_videoCells, filterMap_mask]
  rfl

theorem coe_present_col (i : Fin I) :
    ((present (colL (stack0 fun j i r => mask (P j i r) (F j i r)) i) : List ℝ) : Multiset ℝ)
      = (votesOfObserver P i).val.map fun c => F c.1 i c.2 := by
  have h : ((present (colL (stack0 fun j i r => mask (P j i r) (F j i r)) i) : List ℝ) : Multiset ℝ)
      = ((present (observerCells (fun j i r => mask (P j i r) (F j i r)) i) : List ℝ) : Multiset ℝ) :=
    Multiset.coe_eq_coe.mpr (Np.present_perm (colL_stack0_perm _ i))
  rw [h]
  have h2 : observerCells (fun j i r => mask (P j i r) (F j i r)) i
      = videoCells (fun i j r => mask (P j i r) (F j i r)) i := rfl
  rw [h2]
  unfold present
  rw [← Multiset.filterMap_coe, coe_videoCells, filterMap_mask]
  rfl
end

section
variable {ι : Type}
theorem sum_of_coe {l : List ℝ} {A : Finset ι} {f : ι → ℝ} (h : (l : Multiset ℝ) = A.val.map f) : l.sum = ∑ c ∈ A, f c := by
  rw [← Multiset.sum_coe, h]; rfl

theorem length_of_coe {l : List ℝ} {A : Finset ι} {f : ι → ℝ} (h : (l : Multiset ℝ) = A.val.map f) : l.length = A.card := by
  rw [← Multiset.coe_card, h, Multiset.card_map]; rfl

theorem mean_of_coe {l : List ℝ} {A : Finset ι} {f : ι → ℝ} (h : (l : Multiset ℝ) = A.val.map f) : Spec.mean l = avg A f := by
  unfold Spec.mean avg; rw [sum_of_coe h, length_of_coe h]

theorem sqDev_of_coe {l : List ℝ} {A : Finset ι} {f : ι → ℝ} (h : (l : Multiset ℝ) = A.val.map f) :
    sqDev l = ∑ c ∈ A, (f c - avg A f) ^ 2 := by
  unfold sqDev
  have : ((l.map fun x => (x - Spec.mean l) ^ 2 : List ℝ) : Multiset ℝ) = A.val.map fun c => (f c - avg A f) ^ 2 := by
    rw [← Multiset.map_coe, h, Multiset.map_map, mean_of_coe h]; rfl
  exact sum_of_coe this

theorem nil_of_coe {l : List ℝ} {A : Finset ι} {f : ι → ℝ} (h : (l : Multiset ℝ) = A.val.map f) : l = [] ↔ ¬ A.Nonempty := by
  rw [← List.length_eq_zero_iff, length_of_coe h, Finset.card_eq_zero, Finset.not_nonempty_iff_eq_empty]

open Classical in
theorem nanmean_of_coe {l : List (Fl ℝ)} (hc : Np.Clean l) {A : Finset ι} {f : ι → ℝ}
    (h : ((present l : List ℝ) : Multiset ℝ) = A.val.map f) : Np.nanmean l = mask (decide A.Nonempty) (avg A f) := by
  by_cases hA : A.Nonempty
  · rw [Np.nanmean_eq hc (fun h0 => (nil_of_coe h).mp h0 hA), mean_of_coe h, decide_eq_true hA]; rfl
  · rw [Np.nanmean_empty hc ((nil_of_coe h).mpr hA), decide_eq_false hA]; rfl

open Classical in
theorem nanstd0_of_coe {l : List (Fl ℝ)} (hc : Np.Clean l) {A : Finset ι} {f : ι → ℝ}
    (h : ((present l : List ℝ) : Multiset ℝ) = A.val.map f) : Np.nanstd 0 l = mask (decide A.Nonempty) (spread A f) := by
  by_cases hA : A.Nonempty
  · have hl : 0 < (present l).length := by
      rw [length_of_coe h]; exact Finset.card_pos.mpr hA
    rw [Np.nanstd, Np.nanvar_eq hc hl, decide_eq_true hA, Fl.sqrt_fin]
    · rw [sqDev_of_coe h, Nat.sub_zero, length_of_coe h]; rfl
    · exact div_nonneg (Np.sqDev_nonneg _) (Nat.cast_nonneg _)
  · have hl : (present l).length ≤ 0 := by
      rw [(nil_of_coe h).mpr hA]; simp
    rw [Np.nanstd, Np.nanvar_small hc hl, decide_eq_false hA]; rfl

theorem nansum_of_coe {l : List (Fl ℝ)} (hc : Np.Clean l) {A : Finset ι} {f : ι → ℝ}
    (h : ((present l : List ℝ) : Multiset ℝ) = A.val.map f) : Np.nansum l = .fin (∑ c ∈ A, f c) := by
  rw [Np.nansum_eq hc, sum_of_coe h]
end

section
variable {J I R : ℕ} (P : Fin J → Fin I → Fin R → Bool) (F : Fin J → Fin I → Fin R → ℝ)

theorem mask_row_clean (j : Fin J) : Np.Clean (rowL (stack1 fun j i r => mask (P j i r) (F j i r)) j) :=
  clean_row fun _ _ => mask_clean _ _
theorem mask_col_clean (i : Fin I) : Np.Clean (colL (stack0 fun j i r => mask (P j i r) (F j i r)) i) :=
  clean_col fun _ _ => mask_clean _ _

open Classical in
theorem meanAlongS_mask (j : Fin J) : meanAlongS (fun j i r => mask (P j i r) (F j i r)) j
    = mask (decide (votesOnVideo P j).Nonempty) (avg (votesOnVideo P j) fun c => F j c.1 c.2) :=
  nanmean_of_coe (mask_row_clean P F j) (coe_present_row P F j)

open Classical in
theorem meanAlongE_mask (i : Fin I) : meanAlongE (fun j i r => mask (P j i r) (F j i r)) i
    = mask (decide (votesOfObserver P i).Nonempty) (avg (votesOfObserver P i) fun c => F c.1 i c.2) :=
  nanmean_of_coe (mask_col_clean P F i) (coe_present_col P F i)

/-- stacking commutes with an operation against a tiled vector -/
theorem stack1_tile {K : Type} [Field K] [LinearOrder K] (op : Fl K → Fl K → Fl K) (a : Arr3 (Fl K) J I R) (w : Arr1 (Fl K) I) :
    (fun j k => op (stack1 a j k) (tile w R k)) = stack1 fun j i r => op (a j i r) (w i) := by
  funext j k
  have hI : 0 < I := by
    rcases Nat.eq_zero_or_pos I with h | h
    · subst h; exact absurd k.isLt (by simp)
    · exact h
  have hr : k.val / I < R := by
    rw [Nat.div_lt_iff_lt_mul hI]; exact k.isLt
  have hk : k.val = (⟨k.val / I, hr⟩ : Fin R).val * I + (⟨k.val % I, Nat.mod_lt _ hI⟩ : Fin I).val := by
    exact (Nat.div_add_mod' _ _).symm
  rw [stack1_apply a j _ _ k hk, stack1_apply (fun j i r => op (a j i r) (w i)) j _ _ k hk]
  rfl

end

namespace Ap
variable {J I R : ℕ}

theorem voter_of {P : Fin J → Fin I → Fin R → Bool} {j i r} (h : P j i r = true) : (votesOfObserver P i).Nonempty :=
  ⟨(j, r), by simp [votesOfObserver, h]⟩
theorem voted_of {P : Fin J → Fin I → Fin R → Bool} {j i r} (h : P j i r = true) : (votesOnVideo P j).Nonempty :=
  ⟨(i, r), by simp [votesOnVideo, h]⟩

open Classical in
/-- biases that are defined exactly for the observers who voted -/
noncomputable def maskB (P : Fin J → Fin I → Fin R → Bool) (B : Fin I → ℝ) : Arr1 (Fl ℝ) I := fun i =>
  mask (decide (votesOfObserver P i).Nonempty) (B i)

open Classical in
/-- scores that are defined exactly for the videos voted on -/
noncomputable def maskS (P : Fin J → Fin I → Fin R → Bool) (S : Fin J → ℝ) : Arr1 (Fl ℝ) J := fun j =>
  mask (decide (votesOnVideo P j).Nonempty) (S j)

/-- votes as a float array -/
def maskX (P : Fin J → Fin I → Fin R → Bool) (X : Fin J → Fin I → Fin R → ℝ) : Arr3 (Fl ℝ) J I R :=
  fun j i r => mask (P j i r) (X j i r)

variable (P : Fin J → Fin I → Fin R → Bool) (X : Fin J → Fin I → Fin R → ℝ)

theorem sub_maskS (S : Fin J → ℝ) : (fun j i r => maskX P X j i r - maskS P S j) = maskX P fun j i r => X j i r - S j := by
  funext j i r
  unfold maskX maskS
  cases h : P j i r
  · simp
  · simp [voted_of h]

theorem sub_maskB (B : Fin I → ℝ) : (fun j i r => maskX P X j i r - maskB P B i) = maskX P fun j i r => X j i r - B i := by
  funext j i r
  unfold maskX maskB
  cases h : P j i r
  · simp
  · simp [voter_of h]

theorem biases_spec (S : Fin J → ℝ) : biases (maskX P X) (maskS P S) = maskB P (apBias P X S) := by
  funext i
  unfold biases
  rw [sub_maskS]
  exact meanAlongE_mask P _ i

theorem init_spec : meanAlongS (maskX P X) = maskS P fun j => avg (votesOnVideo P j) fun c => X j c.1 c.2 := by
  funext j
  exact meanAlongS_mask P _ j

theorem residue_spec (S : Fin J → ℝ) (B : Fin I → ℝ) :
    residue (maskX P X) (maskS P S) (maskB P B) = maskX P fun j i r => X j i r - S j - B i := by
  have h1 := sub_maskS P X S
  have h2 := sub_maskB P (fun j i r => X j i r - S j) B
  funext j i r
  have h1' := congrFun (congrFun (congrFun h1 j) i) r
  have h2' := congrFun (congrFun (congrFun h2 j) i) r
  unfold residue
  rw [h1', h2']

theorem spreadI_spec (S : Fin J → ℝ) (B : Fin I → ℝ) :
    spreadI (maskX P X) (maskS P S) (maskB P B) = maskB P (apSpread P X S B) := by
  funext i
  unfold spreadI
  rw [residue_spec]
  exact nanstd0_of_coe (mask_col_clean P _ i) (coe_present_col P _ i)

theorem spreadJ_spec (S : Fin J → ℝ) (B : Fin I → ℝ) :
    spreadJ (maskX P X) (maskS P S) (maskB P B) = maskS P (apSpreadJ P X S B) := by
  funext j
  unfold spreadJ
  rw [residue_spec]
  exact nanstd0_of_coe (mask_row_clean P _ j) (coe_present_row P _ j)

theorem weight_fin (v : ℝ) : weight (.fin v) = .fin (apWeight v) := by
  have hp : v ^ 2 + 1 / 100000000 ≠ 0 := by positivity
  unfold weight epsilon Fl.dec apWeight
  rw [Fl.sq_fin, Fl.one_def, Fl.fin_add, Fl.fin_div]
  · norm_num [pow_two]
  · norm_num; rw [← pow_two]; positivity

theorem apWeight_pos (v : ℝ) : 0 < apWeight v := by unfold apWeight; positivity

theorem weight_maskB (V : Fin I → ℝ) : (fun i => weight (maskB P V i)) = maskB P fun i => apWeight (V i) := by
  funext i
  unfold maskB
  cases h : decide (votesOfObserver P i).Nonempty
  · rfl
  · exact weight_fin _

theorem update_spec (B V : Fin I → ℝ) :
    update (maskX P X) (maskB P B) (maskB P V) = maskS P (apQuality P X B V) := by
  unfold update
  rw [sub_maskB, weight_maskB]
  funext j
  unfold weighedNanmean1
  have h1 := stack1_tile (R := R) (fun x w => x * w) (maskX P fun j i r => X j i r - B i) (maskB P fun i => apWeight (V i))
  have h2 := stack1_tile (R := R) notNanTimes (maskX P fun j i r => X j i r - B i) (maskB P fun i => apWeight (V i))
  rw [h1, h2]
  have e1 : (fun j i r => maskX P (fun j i r => X j i r - B i) j i r * maskB P (fun i => apWeight (V i)) i)
      = maskX P fun j i r => (X j i r - B i) * apWeight (V i) := by
    funext j i r
    unfold maskX maskB
    cases h : P j i r
    · simp
    · simp [voter_of h]
  rw [e1]
  -- the denominator: absent votes of an observer who voted contribute 0, other absent votes NaN
  have e2 : Np.nansum (rowL (stack1 fun j i r => notNanTimes (maskX P (fun j i r => X j i r - B i) j i r) (maskB P (fun i => apWeight (V i)) i)) j)
      = .fin (∑ c ∈ votesOnVideo P j, apWeight (V c.1)) := by
    classical
    have e3 : (fun j i r => notNanTimes (maskX P (fun j i r => X j i r - B i) j i r) (maskB P (fun i => apWeight (V i)) i))
        = fun j i r => mask (decide (votesOfObserver P i).Nonempty) (if P j i r then apWeight (V i) else 0) := by
      funext j i r
      unfold maskX maskB notNanTimes
      cases h : P j i r
      · by_cases hv : (votesOfObserver P i).Nonempty
        · simp [hv, Fl.zero_def]
        · simp [hv]
      · simp [voter_of h, Fl.one_def]
    rw [e3]
    have := nansum_of_coe (mask_row_clean (fun _ i _ => decide (votesOfObserver P i).Nonempty) (fun j i r => if P j i r then apWeight (V i) else 0) j)
      (coe_present_row (fun _ i _ => decide (votesOfObserver P i).Nonempty) (fun j i r => if P j i r then apWeight (V i) else 0) j)
    rw [this]
    congr 1
    symm
    have hsub : votesOnVideo P j ⊆ votesOnVideo (fun (_ : Fin J) i (_ : Fin R) => decide (votesOfObserver P i).Nonempty) j := by
      intro c hc
      simp only [votesOnVideo, Finset.mem_filter, Finset.mem_univ, true_and, decide_eq_true_eq] at hc ⊢
      exact voter_of hc
    rw [← Finset.sum_subset hsub]
    · apply Finset.sum_congr rfl
      intro c hc
      simp only [votesOnVideo, Finset.mem_filter, Finset.mem_univ, true_and] at hc
      simp [hc]
    · intro c _ hc
      simp only [votesOnVideo, Finset.mem_filter, Finset.mem_univ, true_and] at hc
      simp [hc]
  rw [e2]
  have e4 := nansum_of_coe (mask_row_clean P (fun j i r => (X j i r - B i) * apWeight (V i)) j)
    (coe_present_row P (fun j i r => (X j i r - B i) * apWeight (V i)) j)
  change Np.nansum (rowL (stack1 (maskX P fun j i r => (X j i r - B i) * apWeight (V i))) j) = _ at e4
  rw [e4]
  unfold maskS
  by_cases hj : (votesOnVideo P j).Nonempty
  · have : 0 < ∑ c ∈ votesOnVideo P j, apWeight (V c.1) := Finset.sum_pos (fun c _ => apWeight_pos _) hj
    rw [Fl.fin_div this.ne']
    simp only [hj, decide_true, mask_true]; rfl
  · rw [Finset.not_nonempty_iff_eq_empty] at hj
    simp only [hj, Finset.sum_empty, Finset.not_nonempty_empty, decide_false, mask_false]
    exact Fl.zero_div_zero

theorem step_spec (itr : ℕ) (S : Fin J → ℝ) (B : Fin I → ℝ) :
    step (maskX P X) itr (maskS P S) (maskB P B)
      = { s := maskS P (apQuality P X B (apSpread P X S B))
          b := maskB P (apBias P X (apQuality P X B (apSpread P X S B)))
          vi := maskB P (apSpread P X S B)
          vj := maskS P (apSpreadJ P X S B)
          itr := itr + 1 } := by
  unfold step
  simp only [spreadI_spec, spreadJ_spec, update_spec, biases_spec]


/-! ## the loop -/

theorem loop_unfold {x : Arr3 (Fl ℝ) J I R} (itr : ℕ) (s : Arr1 (Fl ℝ) J) (b : Arr1 (Fl ℝ) I) :
    loop x itr s b = match Np.linalgNorm (List.ofFn fun j => s j - (step x itr s b).s j) with
      | .error e => .error e
      | .ok delta =>
        if delta.lt deltaThr then .ok (step x itr s b)
        else if maxItr ≤ (step x itr s b).itr then .ok (step x itr s b)
        else loop x (itr + 1) (step x itr s b).s (step x itr s b).b := by
  rw [loop]
  cases Np.linalgNorm (List.ofFn fun j => s j - (step x itr s b).s j) <;> rfl

theorem loop_inv {x : Arr3 (Fl ℝ) J I R} (Inv : Arr1 (Fl ℝ) J → Arr1 (Fl ℝ) I → Prop)
    (hstep : ∀ k s b, Inv s b → Inv (step x k s b).s (step x k s b).b) (itr : ℕ) (s : Arr1 (Fl ℝ) J) (b : Arr1 (Fl ℝ) I)
    (h : Inv s b) (hitr : itr < maxItr) :
    (∃ e k s1 b1, Inv s1 b1 ∧ Np.linalgNorm (List.ofFn fun j => s1 j - (step x k s1 b1).s j) = .error e ∧
      loop x itr s b = .error e) ∨
    (∃ k s1 b1 d, itr ≤ k ∧ k + 1 ≤ maxItr ∧ Inv s1 b1 ∧
      Np.linalgNorm (List.ofFn fun j => s1 j - (step x k s1 b1).s j) = .ok d ∧
      loop x itr s b = .ok (step x k s1 b1)) := by
  induction hn : maxItr - itr using Nat.strong_induction_on generalizing itr s b with
  | _ n ih =>
    rw [loop_unfold]
    cases hnorm : Np.linalgNorm (List.ofFn fun j => s j - (step x itr s b).s j) with
    | error e => exact Or.inl ⟨e, itr, s, b, h, hnorm, rfl⟩
    | ok d =>
      dsimp only
      by_cases hd : d.lt deltaThr = true
      · rw [if_pos hd]
        exact Or.inr ⟨itr, s, b, d, le_refl _, hitr, h, hnorm, rfl⟩
      · rw [if_neg hd]
        by_cases hm : maxItr ≤ (step x itr s b).itr
        · rw [if_pos hm]
          exact Or.inr ⟨itr, s, b, d, le_refl _, hitr, h, hnorm, rfl⟩
        · rw [if_neg hm]
          have hm' : itr + 1 < maxItr := not_le.mp hm
          rcases ih (maxItr - (itr + 1)) (by omega) (itr + 1) _ _ (hstep itr s b h) hm' rfl with
            h1 | ⟨k, s1, b1, d1, h1, h2⟩
          · exact Or.inl h1
          · exact Or.inr ⟨k, s1, b1, d1, by omega, h2⟩

theorem loop_lockstep {J' I' R' : ℕ} {x : Arr3 (Fl ℝ) J I R} {x' : Arr3 (Fl ℝ) J' I' R'}
    (Rel : Arr1 (Fl ℝ) J → Arr1 (Fl ℝ) I → Arr1 (Fl ℝ) J' → Arr1 (Fl ℝ) I' → Prop)
    (hnorm : ∀ k s b s' b', Rel s b s' b' → Np.linalgNorm (List.ofFn fun j => s j - (step x k s b).s j)
      = Np.linalgNorm (List.ofFn fun j => s' j - (step x' k s' b').s j))
    (hstep : ∀ k s b s' b', Rel s b s' b' →
      Rel (step x k s b).s (step x k s b).b (step x' k s' b').s (step x' k s' b').b)
    (itr : ℕ) (s : Arr1 (Fl ℝ) J) (b : Arr1 (Fl ℝ) I) (s' : Arr1 (Fl ℝ) J') (b' : Arr1 (Fl ℝ) I') (h : Rel s b s' b') :
    (∃ e, loop x itr s b = .error e ∧ loop x' itr s' b' = .error e) ∨
    (∃ k s1 b1 s1' b1', Rel s1 b1 s1' b1' ∧ loop x itr s b = .ok (step x k s1 b1) ∧
      loop x' itr s' b' = .ok (step x' k s1' b1')) := by
  induction hn : maxItr - itr using Nat.strong_induction_on generalizing itr s b s' b' with
  | _ n ih =>
    rw [loop_unfold itr s b, loop_unfold itr s' b', ← hnorm itr s b s' b' h]
    cases hno : Np.linalgNorm (List.ofFn fun j => s j - (step x itr s b).s j) with
    | error e => exact Or.inl ⟨e, rfl, rfl⟩
    | ok d =>
      dsimp only
      by_cases hd : d.lt deltaThr = true
      · rw [if_pos hd, if_pos hd]
        exact Or.inr ⟨itr, s, b, s', b', h, rfl, rfl⟩
      · rw [if_neg hd, if_neg hd]
        by_cases hm : maxItr ≤ itr + 1
        · rw [if_pos (show maxItr ≤ (step x itr s b).itr from hm), if_pos (show maxItr ≤ (step x' itr s' b').itr from hm)]
          exact Or.inr ⟨itr, s, b, s', b', h, rfl, rfl⟩
        · rw [if_neg (show ¬ maxItr ≤ (step x itr s b).itr from hm), if_neg (show ¬ maxItr ≤ (step x' itr s' b').itr from hm)]
          exact ih (maxItr - (itr + 1)) (by omega) (itr + 1) _ _ _ _ (hstep itr s b s' b' h) rfl

theorem norm_mask (S S' : Fin J → ℝ) (hv : ∀ j, (votesOnVideo P j).Nonempty) :
    Np.linalgNorm (List.ofFn fun j => maskS P S j - maskS P S' j) = .ok (.fin (Real.sqrt (∑ j, (S j - S' j) ^ 2))) := by
  have h1 : (List.ofFn fun j => maskS P S j - maskS P S' j) = (List.ofFn fun j => S j - S' j).map Fl.fin := by
    rw [List.map_ofFn]
    congr 1
    funext j
    simp [maskS, hv j]
  unfold Np.linalgNorm
  rw [h1, if_pos (by simp [List.all_eq_true])]
  rw [List.map_map]
  have h2 : ((fun x : Fl ℝ => x.sq) ∘ Fl.fin : ℝ → Fl ℝ) = Fl.fin ∘ fun x => x ^ 2 := by
    funext x; simp [pow_two]
  rw [h2, ← List.map_map, Np.sum_map_fin, Fl.sqrt_fin]
  · rw [List.map_ofFn, List.sum_ofFn]; rfl
  · apply List.sum_nonneg
    intro y hy
    obtain ⟨z, _, rfl⟩ := List.mem_map.mp hy
    positivity

theorem norm_mask_error (S S' : Fin J → ℝ) (j : Fin J) (hv : ¬ (votesOnVideo P j).Nonempty) :
    Np.linalgNorm (List.ofFn fun j => maskS P S j - maskS P S' j) = .error .value := by
  unfold Np.linalgNorm
  rw [if_neg]
  rw [List.all_eq_true]
  intro h
  have := h (maskS P S j - maskS P S' j) (by rw [List.mem_ofFn]; exact ⟨j, rfl⟩)
  simp [maskS, hv] at this

/-- the shape all states of the loop have on masked votes -/
def Masked (s : Arr1 (Fl ℝ) J) (b : Arr1 (Fl ℝ) I) : Prop := ∃ S B, s = maskS P S ∧ b = maskB P B

theorem masked_init : Masked P (meanAlongS (maskX P X)) (biases (maskX P X) (meanAlongS (maskX P X))) := by
  rw [init_spec, biases_spec]
  exact ⟨_, _, rfl, rfl⟩

theorem masked_step (k : ℕ) (s : Arr1 (Fl ℝ) J) (b : Arr1 (Fl ℝ) I) (h : Masked P s b) :
    Masked P (step (maskX P X) k s b).s (step (maskX P X) k s b).b := by
  obtain ⟨S, B, rfl, rfl⟩ := h
  rw [step_spec]
  exact ⟨_, _, rfl, rfl⟩

/-- what the fit can be on masked votes -/
theorem fit_mask :
    (∃ j, ¬ (votesOnVideo P j).Nonempty) ∧ fit (maskX P X) = .error .value ∨
    (∀ j, (votesOnVideo P j).Nonempty) ∧ ∃ k S B, k + 1 ≤ maxItr ∧
      fit (maskX P X) = .ok (step (maskX P X) k (maskS P S) (maskB P B)) := by
  by_cases hv : ∀ j, (votesOnVideo P j).Nonempty
  · right
    refine ⟨hv, ?_⟩
    unfold fit
    rcases loop_inv (Masked P) (masked_step P X) 0 _ _ (masked_init P X) (by unfold maxItr; norm_num) with
      ⟨e, k, s1, b1, ⟨S, B, rfl, rfl⟩, h2, h3⟩ | ⟨k, s1, b1, d, _, h2, ⟨S, B, rfl, rfl⟩, _, h3⟩
    · rw [step_spec, norm_mask P _ _ hv] at h2; cases h2
    · exact ⟨k, S, B, h2, h3⟩
  · left
    push Not at hv
    obtain ⟨j, hj⟩ := hv
    have hj' : ¬ (votesOnVideo P j).Nonempty := by rw [hj]; simp
    refine ⟨⟨j, hj'⟩, ?_⟩
    unfold fit
    dsimp only
    rw [init_spec, biases_spec, loop_unfold, step_spec]
    dsimp only
    rw [norm_mask_error P _ _ j hj']

end Ap
end Sureal
