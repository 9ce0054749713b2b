import Verif.Lemmas.ApComplete
import Verif.Props.Main
/-!
# C143: the P.910 solver on complete panels

If nothing is missing, the result of the iteration is known but for the inconsistencies: the biases are how far the observers' means are from the mean
of all votes, the scores are the mean of all votes plus the deviations of the observers from their means, averaged with the inverse squares of the
reported inconsistencies.
-/
set_option linter.unusedSectionVars false
namespace Sureal.Props
open Sureal Spec Ap

variable {κ : Type} {J I R : ℕ} {X : Fin J → Fin I → Fin R → ℝ}

/-- **C143.** On a complete panel the solver succeeds.  The bias it reports for an observer is the mean of the observer's votes minus the mean of all
votes.  The score it reports for a video is the mean of all votes, plus the weighted mean over the observers of how far their votes on this video
are above the mean of their votes; the weights are the inverse squares of the inconsistencies it reports. -/
theorem C143_closed_form (sd : StdFormula) (rd : Reader κ ℝ) (hob : ObserversHarmless rd) (hJ : 0 < J) (hI : 0 < I) (hR : 0 < R)
    (ha : rd.scores = .ok ⟨J, I, R, fun j i r => .fin (X j i r)⟩) :
    ∃ (res : Result κ ℝ) (v : Fin I → ℝ), runAPWith sd rd {} = .ok res ∧ res.observerInconsistency = some (List.ofFn fun i => .fin (v i)) ∧
      res.observerBias = some (List.ofFn fun i => .fin (observerMean X i - grandMean X)) ∧
      res.qualityScores = List.ofFn fun j => .fin (grandMean X +
        (∑ i, precision (v i) * (cellMean X j i - observerMean X i)) / ∑ i, precision (v i)) := by
  obtain ⟨res, h1, h2, h3, h4, -⟩ := run_real (allP J I R) X sd rd hob ha (allP_voted hJ hI hR) hI
  refine ⟨res, estV (allP J I R) X, h1, h4, ?_, ?_⟩
  · rw [h3]
    simp only [estB_complete hJ hI hR]
  · rw [h2]
    simp only [estQ_complete hJ hI hR]

/-- **C143.** On a complete panel the mean of the scores is the mean of all votes. -/
theorem C143_mean (sd : StdFormula) (rd : Reader κ ℝ) (hob : ObserversHarmless rd) (hJ : 0 < J) (hI : 0 < I) (hR : 0 < R)
    (ha : rd.scores = .ok ⟨J, I, R, fun j i r => .fin (X j i r)⟩) :
    ∃ (res : Result κ ℝ) (q : Fin J → ℝ), runAPWith sd rd {} = .ok res ∧ res.qualityScores = List.ofFn (fun j => .fin (q j)) ∧
      (∑ j, q j) / J = grandMean X := by
  obtain ⟨res, h1, h2, -⟩ := run_real (allP J I R) X sd rd hob ha (allP_voted hJ hI hR) hI
  refine ⟨res, _, h1, h2, ?_⟩
  unfold estQ
  rw [Finset.sum_add_distrib, add_div, meanB_complete hJ hI hR]
  unfold lastS
  rw [seq_sum hJ hI hR]
  simp

/-! ## two observers -/

section two
variable {Y : Fin J → Fin 2 → Fin 1 → ℝ}

theorem two_equal (hJ : 0 < J) {S : Fin J → ℝ} (hS : ∀ j, S j = videoMean Y j) : passWeight Y S 0 = passWeight Y S 1 := by
  have hg : (∑ j, S j) / J = grandMean Y := by
    rw [Finset.sum_congr rfl fun j _ => hS j]
    unfold videoMean grandMean
    rw [← Finset.sum_div, div_div]
    congr 1
    push_cast
    ring
  have hm := observerMean_mean (X := Y) hJ two_pos one_pos
  rw [Fin.sum_univ_two] at hm
  have hr : ∀ (c : Fin J × Fin 1), Y c.1 1 c.2 - S c.1 - apBias (allP J 2 1) Y S 1 = -(Y c.1 0 c.2 - S c.1 - apBias (allP J 2 1) Y S 0) := by
    rintro ⟨j, r⟩
    rw [bias_complete hJ one_pos, bias_complete hJ one_pos, hg, hS j]
    have h0 : r = 0 := Subsingleton.elim _ _
    subst h0
    unfold videoMean
    rw [Fin.sum_univ_two, Fin.sum_univ_one, Fin.sum_univ_one, ← hm]
    push_cast
    ring
  unfold passWeight apSpread spread avg
  rw [allP_observer, allP_observer]
  have hneg : ∀ f : Fin J × Fin 1 → ℝ, (∑ c, -f c) = -∑ c, f c := fun f => Finset.sum_neg_distrib _
  simp only [hr, hneg]
  congr 2
  congr 1
  refine Finset.sum_congr rfl fun c _ => ?_
  ring

theorem two_next (hJ : 0 < J) {S : Fin J → ℝ} (hS : ∀ j, S j = videoMean Y j) (j : Fin J) : next (allP J 2 1) Y S j = videoMean Y j := by
  have hg : (∑ j, S j) / J = grandMean Y := by
    rw [Finset.sum_congr rfl fun j _ => hS j]
    unfold videoMean grandMean
    rw [← Finset.sum_div, div_div]
    congr 1
    push_cast
    ring
  have hm := observerMean_mean (X := Y) hJ two_pos one_pos
  have hw := two_equal hJ hS
  have hp := passWeight_pos (X := Y) S 1
  rw [next_complete hJ two_pos one_pos, hg, ← hm]
  simp only [Fin.sum_univ_two, hw]
  unfold videoMean cellMean
  simp only [Fin.sum_univ_two, Fin.sum_univ_one]
  field_simp
  push_cast
  ring

theorem two_seq (hJ : 0 < J) (k : ℕ) (j : Fin J) : seq (allP J 2 1) Y k j = videoMean Y j := by
  induction k generalizing j with
  | zero =>
    show mos0 (allP J 2 1) Y j = _
    unfold mos0 avg videoMean
    rw [allP_video, Fintype.sum_prod_type, Finset.card_univ, Fintype.card_prod, Fintype.card_fin, Fintype.card_fin]
    push_cast
    rw [mul_one]
  | succ k ih => exact two_next hJ ih j

/-- **C143.** With two observers who voted once on every video the P.910 solver returns the mean opinion scores: it cannot tell which of the two is the
more consistent one. -/
theorem C143_two_observers (sd : StdFormula) (rd : Reader κ ℝ) (hob : ObserversHarmless rd)
    (hJ : 0 < J)
    (ha : rd.scores = .ok ⟨J, 2, 1, fun j i r => .fin (Y j i r)⟩) :
    ∃ (res mos : Result κ ℝ), runAPWith sd rd {} = .ok res ∧ runMOS rd {} = .ok mos ∧ res.qualityScores = mos.qualityScores ∧
      res.qualityScores = List.ofFn fun j => .fin ((Y j 0 0 + Y j 1 0) / 2) := by
  obtain ⟨res, h1, h2, -⟩ := run_real (allP J 2 1) Y sd rd hob ha (allP_voted hJ two_pos one_pos) two_pos
  obtain ⟨mos, hm, -⟩ := (runModeling_ok hob mosRunModeling {}).1 (mosAndStats (fun E _ _ => E * 2) ⟨J, 2, 1, _⟩ ⟨J, 2, 1, _⟩) (by
    unfold mosRunModeling
    rw [preprocess_default ha]
    rfl)
  have hres : res.qualityScores = List.ofFn fun j => .fin ((Y j 0 0 + Y j 1 0) / 2) := by
    rw [h2]
    congr 1
    funext j
    unfold estQ lastS
    rw [meanB_complete hJ two_pos one_pos, two_seq hJ]
    unfold videoMean
    simp [Fin.sum_univ_two]
  refine ⟨res, mos, h1, hm, ?_, hres⟩
  rw [runMOS_default ha hm]
  show res.qualityScores = List.ofFn (meanAlongS (maskX (allP J 2 1) Y))
  rw [init_spec, maskS_fin (allP_voted hJ two_pos one_pos), hres]
  congr 1
  funext j
  have := two_seq (Y := Y) hJ 0 j
  rw [show (avg (votesOnVideo (allP J 2 1) j) fun c => Y j c.1 c.2) = videoMean Y j from this]
  unfold videoMean
  simp [Fin.sum_univ_two]

end two

/-! ## examples -/

/-- two observers who voted on both videos -/
theorem exComplete_scores : ∃ rd, rawReader exComplete = .ok rd ∧ ObserversHarmless rd ∧
    rd.scores = .ok ⟨2, 2, 1, fun e s _ => .fin ((![![5, 4], ![2, 3]] : Fin 2 → Fin 2 → ℝ) e s)⟩ := by
  obtain ⟨rd, a, hrd, -, -, -, -, -, hob⟩ := Main.reads exComplete_readable
  refine ⟨rd, hrd, hob.elim (fun ⟨l, h, _⟩ => Or.inl ⟨l, h⟩) fun h => Or.inr (Or.inl h), ?_⟩
  cases hrd
  show opinionScores exComplete.disVideos = _
  have hq := opinionScores_seq (κ := String) (K := ℝ) (d0 := { contentId := 0, assetId := 0, path := "r0", os := some (.seq false [.one (.fin 5), .one (.fin 4)]) })
    (rest := [{ contentId := 0, assetId := 1, path := "d1", os := some (.seq false [.one (.fin 2), .one (.fin 3)]) }])
    (by
      intro dv hdv
      simp only [List.mem_cons, List.not_mem_nil, or_false] at hdv
      rcases hdv with rfl | rfl <;> exact ⟨_, _, rfl⟩)
    (by
      intro dv hdv
      simp only [List.mem_cons, List.not_mem_nil, or_false] at hdv
      rcases hdv with rfl | rfl <;> rfl)
    (by
      intro dv hdv
      simp only [List.mem_cons, List.not_mem_nil, or_false] at hdv
      rcases hdv with rfl | rfl <;> simp [NdarraysSingle, entries])
  refine hq.trans ?_
  show Except.ok (⟨2, 2, 1, _⟩ : Arr3D (Fl ℝ)) = _
  congr 2
  funext e s r
  fin_cases e <;> fin_cases s <;> fin_cases r <;> simp [entries, Vote.cell]

/-- the hypotheses of `C143_closed_form`, `C143_mean` and `C143_two_observers` are met; there the scores are 4.5 and 2.5 -/
example : ∃ (rd : Reader String ℝ) (res : Result String ℝ), rawReader exComplete = .ok rd ∧ runAP2 rd {} = .ok res ∧ res.qualityScores = [.fin (9 / 2), .fin (5 / 2)] := by
  obtain ⟨rd, hrd, hob, ha⟩ := exComplete_scores
  obtain ⟨res, -, h1, -, -, h2⟩ := C143_two_observers (Y := fun e s _ => (![![5, 4], ![2, 3]] : Fin 2 → Fin 2 → ℝ) e s) sStdAlt rd hob two_pos ha
  refine ⟨rd, res, hrd, h1, ?_⟩
  rw [h2]
  norm_num [List.ofFn_succ]

end Sureal.Props
