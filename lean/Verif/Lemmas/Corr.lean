import Verif.Lemmas.Preproc
import Verif.Lemmas.Zscore
import Verif.Spec.Correlation
/-! Lemmas on the correlation rule. -/
set_option linter.unusedSectionVars false
namespace Sureal
open Spec Np Fl
variable {κ : Type}

theorem sqDev_list_zero_iff (l : List ℝ) : sqDev l = 0 ↔ ∀ x ∈ l, x = Spec.mean l := by
  unfold sqDev
  have key : ∀ (m : ℝ) (l : List ℝ), (l.map fun x => (x - m) ^ 2).sum = 0 ↔ ∀ x ∈ l, x = m := by
    intro m l
    induction l with
    | nil => simp
    | cons x l ih =>
      rw [List.map_cons, List.sum_cons]
      have h1 : 0 ≤ (x - m) ^ 2 := by positivity
      have h2 : 0 ≤ (l.map fun x => (x - m) ^ 2).sum := by
        apply List.sum_nonneg; intro y hy; obtain ⟨z, _, rfl⟩ := List.mem_map.mp hy; positivity
      rw [add_eq_zero_iff_of_nonneg h1 h2, ih]
      simp [sub_eq_zero]
  exact key _ _

/-- a sum that contains a NaN is NaN -/
theorem sum_of_nan_mem {l : List (Fl ℝ)} (h : Fl.nan ∈ l) : Np.sum l = .nan := by
  unfold Np.sum
  induction l with
  | nil => simp at h
  | cons x l ih =>
    rw [List.sum_cons]
    rcases List.mem_cons.mp h with h | h
    · rw [← h]; exact nan_add _
    · rw [ih h]; exact add_nan _

theorem sum_zipWith_fin (f : ℝ → ℝ → ℝ) (l : List (ℝ × ℝ)) :
    (List.zipWith (fun a b => (Fl.fin (f a b) : Fl ℝ)) (l.map (·.1)) (l.map (·.2)))
      = (l.map fun p => f p.1 p.2).map fin := by
  induction l with
  | nil => rfl
  | cons p l ih => simp_all

theorem corr_spec {ps : List (ℝ × ℝ)} (hne : ps ≠ []) :
    Stats.corr (ps.map fun p => fin p.1) (ps.map fun p => fin p.2) = numOrNanOf (correlation ps) := by
  have hx : (ps.map fun p => (fin p.1 : Fl ℝ)) = (ps.map (·.1)).map fin := by simp
  have hy : (ps.map fun p => (fin p.2 : Fl ℝ)) = (ps.map (·.2)).map fin := by simp
  rw [hx, hy]
  unfold Stats.corr
  dsimp only
  have hnx : ps.map (·.1) ≠ [] := by simpa using hne
  have hny : ps.map (·.2) ≠ [] := by simpa using hne
  rw [mean_map_fin hnx, mean_map_fin hny]
  set mx := Spec.mean (ps.map (·.1)) with hmx
  set my := Spec.mean (ps.map (·.2)) with hmy
  have hdev : ∀ (l : List ℝ) (m : ℝ), ((l.map fin).map fun a : Fl ℝ => a - fin m) = (l.map fun x => x - m).map fin := by
    intro l m; simp [Function.comp_def]
  rw [hdev, hdev]
  have hsq : ∀ (l : List ℝ) (m : ℝ), Np.sum (((l.map fun x => x - m).map fin).map fun a : Fl ℝ => a.sq)
      = fin ((l.map fun x => (x - m) ^ 2).sum) := by
    intro l m
    rw [← sum_map_fin]
    congr 1
    simp [Function.comp_def, pow_two]
  rw [hsq, hsq]
  have hsx : ((ps.map (·.1)).map fun x => (x - mx) ^ 2).sum = sqDev (ps.map (·.1)) := rfl
  have hsy : ((ps.map (·.2)).map fun x => (x - my) ^ 2).sum = sqDev (ps.map (·.2)) := rfl
  rw [hsx, hsy, sqrt_fin (sqDev_nonneg _), sqrt_fin (sqDev_nonneg _)]
  show Np.sum (List.zipWith (fun a b : Fl ℝ => a / fin (Real.sqrt _) * (b / fin (Real.sqrt _))) _ _) = _
  unfold correlation
  by_cases h0 : sqDev (ps.map (·.1)) = 0 ∨ sqDev (ps.map (·.2)) = 0
  · rw [if_pos h0]
    apply sum_of_nan_mem
    obtain ⟨p, ps', rfl⟩ : ∃ p ps', ps = p :: ps' := by
      cases ps with
      | nil => exact absurd rfl hne
      | cons p ps' => exact ⟨p, ps', rfl⟩
    simp only [List.map_cons, List.zipWith_cons_cons, List.mem_cons]
    left
    rcases h0 with h0 | h0
    · have : p.1 - mx = 0 := by
        rw [sub_eq_zero]; exact (sqDev_list_zero_iff _).mp h0 _ (by simp)
      rw [← List.map_cons (f := fun p : ℝ × ℝ => p.1), h0, this, Real.sqrt_zero, zero_div_zero, nan_mul]
    · have : p.2 - my = 0 := by
        rw [sub_eq_zero]; exact (sqDev_list_zero_iff _).mp h0 _ (by simp)
      rw [← List.map_cons (f := fun p : ℝ × ℝ => p.2), h0, this, Real.sqrt_zero, zero_div_zero, mul_nan]
  · rw [if_neg h0]
    push Not at h0
    have hx0 : Real.sqrt (sqDev (ps.map (·.1))) ≠ 0 := by
      rw [Real.sqrt_ne_zero (sqDev_nonneg _)]; exact h0.1
    have hy0 : Real.sqrt (sqDev (ps.map (·.2))) ≠ 0 := by
      rw [Real.sqrt_ne_zero (sqDev_nonneg _)]; exact h0.2
    rw [List.map_map, List.map_map, List.map_map, List.map_map]
    rw [List.zipWith_map, List.zipWith_self]
    have : (fun x : ℝ × ℝ => (((fin ∘ fun x => x - mx) ∘ fun x : ℝ × ℝ => x.1) x : Fl ℝ) / fin (Real.sqrt (sqDev (ps.map (·.1)))) *
        (((fin ∘ fun x => x - my) ∘ fun x : ℝ × ℝ => x.2) x / fin (Real.sqrt (sqDev (ps.map (·.2))))))
        = fin ∘ fun p : ℝ × ℝ => ((p.1 - mx) * (p.2 - my)) / (Real.sqrt (sqDev (ps.map (·.1))) * Real.sqrt (sqDev (ps.map (·.2)))) := by
      funext p
      simp only [Function.comp_apply]
      rw [fin_div hx0, fin_div hy0, fin_mul]
      congr 1
      field_simp
    rw [this, ← List.map_map, sum_map_fin]
    simp only [numOrNanOf]
    congr 1
    simp only [div_eq_mul_inv]
    rw [List.sum_map_mul_right]

theorem opinion_clean {E S R : ℕ} (a : Arr3 (Fl ℝ) E S R) (e : Fin E) (s : Fin S) : NumOrNan (opinion a e s) := by
  unfold opinion meanOrNan
  split
  · exact Or.inl rfl
  · exact Or.inr ⟨_, rfl⟩

theorem panelOpinion_of_opinion {E S R : ℕ} (a : Arr3 (Fl ℝ) E S R) (e : Fin E) (s : Fin S) {x : ℝ}
    (h : opinion a e s = .fin x) : ∃ y, panelOpinion a e = .fin y := by
  unfold panelOpinion meanOrNan
  have hmem : x ∈ present (List.ofFn fun s => opinion a e s) := by
    unfold present
    rw [List.mem_filterMap]
    exact ⟨_, List.mem_ofFn.mpr ⟨s, rfl⟩, by rw [h]; rfl⟩
  split
  · rename_i hp; rw [hp] at hmem; simp at hmem
  · exact ⟨_, rfl⟩

theorem rank_spec (l : List ℝ) (x : ℝ) : Stats.rank (l.map fin) (fin x) = fin (avgRank l x) := by
  unfold Stats.rank avgRank
  congr 1
  rw [List.countP_map, List.countP_map]
  have h1 : ((fun b : Fl ℝ => b.lt (fin x)) ∘ fin) = fun y : ℝ => decide (y < x) := by
    funext y; simp
  have h2 : ((fun b : Fl ℝ => b.le (fin x) && (fin x).le b) ∘ fin) = fun y : ℝ => @decide (y = x) (Classical.propDecidable _) := by
    funext y
    simp only [Function.comp_apply, le_fin, ← Bool.decide_and, decide_eq_decide]
    exact ⟨fun h => le_antisymm h.1 h.2, fun h => ⟨h.le, h.ge⟩⟩
  rw [h1, h2]
  push_cast
  congr 2

theorem rank_map (l : List ℝ) : (l.map fin).map (Stats.rank (l.map fin)) = (l.map (avgRank l)).map fin := by
  rw [List.map_map, List.map_map]
  apply List.map_congr_left
  intro x _
  exact rank_spec l x

/-- the observer's side and the panel's side of the pairs, as the code selects them -/
theorem pairs_lists {E S R : ℕ} (a : Arr3 (Fl ℝ) E S R) (s : Fin S) :
    ((List.finRange E).filter fun e => !(opinion a e s).isNan).map (fun e => opinion a e s)
      = (opinionPairs a s).map (fun p => fin p.1) ∧
    ((List.finRange E).filter fun e => !(opinion a e s).isNan).map (fun e => panelOpinion a e)
      = (opinionPairs a s).map (fun p => fin p.2) := by
  unfold opinionPairs
  generalize List.finRange E = l
  induction l with
  | nil => simp
  | cons e l ih =>
    rcases opinion_clean a e s with h | ⟨x, h⟩
    · rw [List.filter_cons, List.filterMap_cons]
      simp only [h, isNan_nan]
      exact ih
    · obtain ⟨y, hy⟩ := panelOpinion_of_opinion a e s h
      rw [List.filter_cons, List.filterMap_cons]
      simp only [h, hy, isNan_fin, Bool.not_false, if_true, List.map_cons]
      exact ⟨by rw [ih.1], by rw [ih.2]⟩

theorem sqDev_short {l : List ℝ} (h : l.length < 2) : sqDev l = 0 := by
  match l, h with
  | [], _ => simp [sqDev]
  | [x], _ => simp [sqDev, Spec.mean]

/-- the agreement the code computes for an observer who rated at least two videos -/
theorem observerCorr_spec {E S R : ℕ} (spearman : Bool) (a : Arr3 (Fl ℝ) E S R) (hc : ∀ e s r, NumOrNan (a e s r)) (s : Fin S) :
    observerCorr spearman a s
      = if spearman = false ∧ (opinionPairs a s).length < 2 then .error .value
        else .ok (numOrNanOf (agreement spearman a s)) := by
  have h1 : ∀ e s, Np.nanmean (List.ofFn fun r => a e s r) = opinion a e s := by
    intro e s
    exact nanmean_spec (clean_ofFn.mpr (hc e s))
  have h2 : ∀ e, Np.nanmean (rowL (fun e s => opinion a e s) e) = panelOpinion a e := by
    intro e
    exact nanmean_spec (clean_ofFn.mpr (opinion_clean a e))
  unfold observerCorr
  dsimp only
  simp only [h1, h2]
  rw [show ((List.finRange E).filter fun e => !(opinion a e s).isNan).map (fun e => panelOpinion a e) = _ from (pairs_lists a s).2,
    (pairs_lists a s).1]
  have hx : ((opinionPairs a s).map fun p => (fin p.1 : Fl ℝ)) = ((opinionPairs a s).map (·.1)).map fin := by simp
  have hy : ((opinionPairs a s).map fun p => (fin p.2 : Fl ℝ)) = ((opinionPairs a s).map (·.2)).map fin := by simp
  unfold agreement
  cases spearman with
  | false =>
    simp only [Bool.false_eq_true, if_false, true_and]
    unfold Stats.pearsonr
    rw [if_neg (by simp), List.length_map]
    by_cases hl : (opinionPairs a s).length < 2
    · rw [if_pos hl, if_pos hl]
    · rw [if_neg hl, if_neg hl, corr_spec (by intro h0; rw [h0] at hl; simp at hl)]
  | true =>
    simp only [if_true, Bool.true_eq_false, false_and, if_false]
    unfold Stats.spearmanr
    rw [if_neg (by simp), List.length_map]
    by_cases hl : (opinionPairs a s).length < 2
    · rw [if_pos hl]
      unfold correlation
      rw [if_pos]
      · rfl
      · left; apply sqDev_short; simpa [rankPairs] using hl
    · rw [if_neg hl]
      have hne : rankPairs (opinionPairs a s) ≠ [] := by
        intro h0
        have : (rankPairs (opinionPairs a s)).length = 0 := by rw [h0]; rfl
        simp [rankPairs] at this
        rw [this] at hl; simp at hl
      rw [← corr_spec hne]
      congr 2
      · rw [hx, rank_map]
        simp [rankPairs, Function.comp_def]
      · rw [hy, rank_map]
        simp [rankPairs, Function.comp_def]

theorem mapPy_ok_ofFn {n : ℕ} {β : Type} {f : Fin n → Py β} {l : List β} (h : mapPy f (List.finRange n) = .ok l) :
    ∃ g : Fin n → β, (∀ i, f i = .ok (g i)) ∧ l = List.ofFn g := by
  have key : ∀ (is : List (Fin n)) (l : List β), mapPy f is = .ok l → (∀ i ∈ is, ∃ b, f i = .ok b) ∧
      ∀ g : Fin n → β, (∀ i ∈ is, f i = .ok (g i)) → l = is.map g := by
    intro is
    induction is with
    | nil => intro l h; cases h; simp
    | cons i is ih =>
      intro l h
      unfold mapPy at h
      cases hf : f i with
      | error e => rw [hf] at h; cases h
      | ok b =>
        rw [hf] at h
        dsimp only at h
        cases hm : mapPy f is with
        | error e => rw [hm] at h; cases h
        | ok bs =>
          rw [hm] at h
          cases h
          obtain ⟨h1, h2⟩ := ih bs hm
          refine ⟨?_, ?_⟩
          · intro j hj
            rcases List.mem_cons.mp hj with rfl | hj
            · exact ⟨b, hf⟩
            · exact h1 j hj
          · intro g hg
            rw [List.map_cons, ← h2 g (fun j hj => hg j (by simp [hj]))]
            have := hg i (by simp)
            rw [hf] at this
            cases this; rfl
  obtain ⟨h1, h2⟩ := key _ _ h
  have hex : ∀ i, ∃ b, f i = .ok b := fun i => h1 i (List.mem_finRange i)
  choose g hg using hex
  refine ⟨g, hg, ?_⟩
  rw [List.ofFn_eq_map]
  exact h2 g (fun i _ => hg i)

theorem corrThreshold_spec {S : ℕ} (hS : S ≠ 0) (c : Fin S → ℝ) :
    corrThreshold (List.ofFn fun s => (fin (c s) : Fl ℝ)) = fin (agreementThreshold (List.ofFn c)) := by
  have hl : (List.ofFn fun s => (fin (c s) : Fl ℝ)) = (List.ofFn c).map fin := by
    rw [List.map_ofFn]; rfl
  have hne : List.ofFn c ≠ [] := by
    intro h
    have : (List.ofFn c).length = 0 := by rw [h]; rfl
    rw [List.length_ofFn] at this; exact hS this
  unfold corrThreshold
  rw [hl, mean_map_fin hne, Np.std, var_map_fin hne, sqrt_fin (popVar_nonneg _)]
  show (if (Fl.dec 7 10 : Fl ℝ).lt (fin _ - fin (Real.sqrt _)) then _ else fin _ - fin (Real.sqrt _)) = _
  unfold agreementThreshold Fl.dec
  simp only [fin_sub, lt_fin, decide_eq_true_eq]
  norm_num
  by_cases h : 7 / 10 < Spec.mean (List.ofFn c) - Real.sqrt (popVar (List.ofFn c))
  · rw [if_pos h, min_eq_left h.le]
  · rw [if_neg h, min_eq_right (not_lt.mp h)]

end Sureal
