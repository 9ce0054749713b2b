import Verif.Lemmas.UnbiasedRepeated
/-!
# C160 with repeated votes
-/
set_option linter.unusedSectionVars false
namespace Sureal.Props
open Sureal Spec Unbiased RejectSym
variable {E S R : ℕ}

/-- **C160 with repeated votes (`_partial`).**  Every observer voted the same number of times on every video.  Then the screening by correlation after bias
removal rejects the same observers for the same agreements as the screening without, and all scores of one are those of the other less one number: the
mean bias of the observers kept.  An observer's bias is that of the means of their votes.  If nobody is rejected the scores are the same.
Missing: datasets with missing votes, and the rule of BT.500, for which it is false, see `Props/Unbiased`. -/
theorem C160_repeated_partial (sp : Bool) (x : Fin E → Fin S → Fin R → ℝ) (hE : 2 ≤ E) (hS : S ≠ 0) (hR : R ≠ 0) :
    ∃ res res' kept, runScreened sp (arrReader E S R fun e s r => .fin (x e s r)) = .ok res ∧ runUnbiased sp (arrReader E S R fun e s r => .fin (x e s r)) = .ok res' ∧
      res'.observerRejected = res.observerRejected ∧ res'.observerRejectedStats1 = res.observerRejectedStats1 ∧
      res'.observerRejectedStats2 = res.observerRejectedStats2 ∧
      res'.observerBias = some (List.ofFn fun s => .fin (biasIn (fun e s => mean (List.ofFn fun r => x e s r)) s)) ∧
      res.observerRejectedStats1 = some (List.ofFn fun s => numOrNanOf (agreement sp (fun e s r => .fin (x e s r)) s)) ∧
      res.rawScores = some ⟨E, kept.length, R, fun e i r => .fin (x e (kept.get i) r)⟩ ∧
      ((∀ s, agreement sp (fun e s r => .fin (x e s r)) s ≠ none) →
        ∃ flags : Fin S → Bool, res.observerRejected = some (List.ofFn flags) ∧ kept = (List.finRange S).filter fun s => !flags s) ∧
      res'.qualityScores = res.qualityScores.map (affine 1 (-mean (kept.map (biasIn fun e s => mean (List.ofFn fun r => x e s r))))) ∧
      (kept = List.finRange S → res'.qualityScores = res.qualityScores) := by
  have hE0 : E ≠ 0 := by omega
  set y : Fin E → Fin S → ℝ := fun e s => mean (List.ofFn fun r => x e s r) with hy
  set a : Arr3 (Fl ℝ) E S R := fun e s r => .fin (x e s r) with ha
  have hc : ∀ e s r, NumOrNan (a e s r) := fun _ _ _ => Or.inr ⟨_, rfl⟩
  have hb : biasArr a = fun e s r => .fin (x e s r - biasIn y s) := by
    have := biasArr_fin x hE0 hS hR
    rw [ha, this]
    funext e s r
    rw [biasOf_repeated x hE0 hS hR]
  have hbe : biasEstimate a = fun s => .fin (biasIn y s) := by
    funext s
    rw [ha, biasEstimate_fin x hE0 hS hR, biasOf_repeated x hE0 hS hR]
  have hcell : ∀ e s, mean (List.ofFn fun r => x e s r - biasIn y s) = y e s - biasIn y s := fun e s => mean_cell_unbiased x hR e s _
  have hop : ∀ s, opinionPairs a s = opinionPairs (fun e s (_ : Fin 1) => Fl.fin (y e s)) s := opinionPairs_repeated x hR
  have hop' : ∀ s, opinionPairs (biasArr a) s = opinionPairs (fun e s (_ : Fin 1) => Fl.fin (y e s - biasIn y s)) s := by
    intro s
    rw [hb, opinionPairs_repeated (fun e s r => x e s r - biasIn y s) hR]
    simp only [hcell]
  obtain ⟨res, b, h1, h2, h3, h4, h5, hraw, h6⟩ := screened_result sp a hc (by intro s; rw [hop, opinionPairs_complete hS]; simpa using hE)
  obtain ⟨res', b', k1, k2, k3, k4, k5, k6, k7⟩ := unbiased_result sp a hc
    (by intro s; rw [hop', opinionPairs_complete hS (fun e s => y e s - biasIn y s)]; simpa using hE)
  obtain ⟨g1, g2, g3, g4⟩ := corrReject_ok hc h2
  obtain ⟨g1', g2', g3', g4'⟩ := corrReject_ok (biasArr_clean a hc) k2
  have hag : agreement sp (biasArr a) = agreement sp a := by
    funext s
    have := agreement_unbiased sp y hE0 hS s
    unfold agreement at this ⊢
    rw [hop, hop', this]
  dsimp only at g1 g2 g1' g2'
  rw [hag] at g1' g2' g3'
  set flags : Fin S → Bool := fun s => (corrThreshold (List.ofFn fun s => numOrNanOf (agreement sp a s))).lt (numOrNanOf (agreement sp a s)) with hfl
  have hnn : ∀ p : Fin S → Bool, ((List.finRange S).filter p) = (List.finRange S).filter fun s => !(fun s => !p s) s := by
    intro p; simp
  have hq : res.qualityScores = List.ofFn fun e => meanOrNan (cellsOf a e ((List.finRange S).filter flags)) := by
    rw [h6, hnn flags]
    exact screenedMeans a hc (fun s => !flags s) b.1 (by rw [g1, hnn flags])
  have hq' : res'.qualityScores = List.ofFn fun e => meanOrNan (cellsOf (biasArr a) e ((List.finRange S).filter flags)) := by
    rw [k7, hnn flags]
    exact screenedMeans (biasArr a) (biasArr_clean a hc) (fun s => !flags s) b'.1 (by rw [g1', hnn flags])
  have hshift : res'.qualityScores = res.qualityScores.map (affine 1 (-mean (((List.finRange S).filter flags).map (biasIn y)))) := by
    rw [hq, hq', List.map_ofFn]
    congr 1
    funext e
    simp only [Function.comp_apply]
    by_cases hnil : (List.finRange S).filter flags = []
    · rw [hnil]; rfl
    · rw [hb, meanOrNan_eq (cells_ne_nil (fun e s r => x e s r - biasIn y s) hR e hnil), meanOrNan_eq (cells_ne_nil x hR e hnil),
        mean_cells (fun e s r => x e s r - biasIn y s) hR, mean_cells x hR]
      simp only [hcell]
      rw [mean_map_sub]
      unfold affine
      congr 1
      ring
  refine ⟨res, res', (List.finRange S).filter flags, h1, k1, by rw [h3, k3, g2, g2'], by rw [h4, k4, g3, g3'], by rw [h5, k5, g4, g4'], by rw [k6, hbe],
    by rw [h4, g3], by rw [hraw, g1], ?_, hshift, ?_⟩
  · intro hdef
    refine ⟨_, by rw [h3, g2], ?_⟩
    have hval : ∀ s, ∃ c, agreement sp a s = some c := fun s => Option.ne_none_iff_exists'.mp (hdef s)
    choose c hcs using hval
    have hfun : (fun s => numOrNanOf (agreement sp a s)) = fun s => .fin (c s) := by
      funext s
      rw [hcs s]; rfl
    apply List.filter_congr
    intro s _
    rw [hfl]
    dsimp only
    rw [hfun, congrFun hfun s, corrThreshold_spec hS c]
    simp only [Fl.lt_fin, Fl.le_fin]
    rw [Bool.eq_iff_iff]
    simp
  · intro hfil
    have h0 : mean ((List.finRange S).map (biasIn y)) = 0 := by
      rw [← List.ofFn_eq_map]
      unfold mean
      rw [List.sum_ofFn, sum_biasIn y hE0 hS, zero_div]
    rw [hshift, hfil, h0]
    have : (affine (1 : ℝ) (-0)) = id := by
      funext y
      cases y <;> simp [affine]
    rw [this, List.map_id]

/-- the hypotheses are met: two videos, two observers who vote twice on each, the second once 4 and once 2 on the first video; all agreements are defined -/
example : (∃ res res', runScreened false (arrReader 2 2 2 fun e s r => .fin (![![![1, 1], ![4, 2]], ![![2, 4], ![5, 5]]] e s r)) = .ok res ∧
    runUnbiased false (arrReader 2 2 2 fun e s r => .fin (![![![1, 1], ![4, 2]], ![![2, 4], ![5, 5]]] e s r)) = .ok res' ∧
    res'.observerRejected = res.observerRejected) ∧
    ∀ s, agreement false (fun e s r => .fin ((![![![1, 1], ![4, 2]], ![![2, 4], ![5, 5]]] : Fin 2 → Fin 2 → Fin 2 → ℝ) e s r)) s ≠ none := by
  obtain ⟨res, res', -, h1, h2, h3, -⟩ := C160_repeated_partial false (![![![1, 1], ![4, 2]], ![![2, 4], ![5, 5]]] : Fin 2 → Fin 2 → Fin 2 → ℝ) le_rfl
    (by norm_num) (by norm_num)
  refine ⟨⟨res, res', h1, h2, h3⟩, fun s => ?_⟩
  unfold agreement
  rw [opinionPairs_repeated _ two_ne_zero, opinionPairs_complete two_ne_zero]
  have e : (List.ofFn fun e : Fin 2 => (mean (List.ofFn fun r => (![![![1, 1], ![4, 2]], ![![2, 4], ![5, 5]]] : Fin 2 → Fin 2 → Fin 2 → ℝ) e s r),
      mean (List.ofFn fun s' => mean (List.ofFn fun r => (![![![1, 1], ![4, 2]], ![![2, 4], ![5, 5]]] : Fin 2 → Fin 2 → Fin 2 → ℝ) e s' r))))
      = [(![1, 3] s, 2), (![3, 5] s, 4)] := by
    fin_cases s <;> simp [List.ofFn_succ, mean] <;> norm_num
  rw [e]
  have := two_points false (![1, 3] s) 2 (![3, 5] s) 4 (by fin_cases s <;> norm_num) (by norm_num)
  simp only [Bool.false_eq_true, if_false] at this ⊢
  rw [this]
  simp

end Sureal.Props
