import Verif.Lemmas.RaisedBias
import Verif.Props.Unbiased
/-!
# C163: whether a higher vote for a video can lower its score
-/
set_option linter.unusedSectionVars false
namespace Sureal.Props
open Sureal Spec Raised Unbiased RejectSym
variable {κ : Type} {E S R : ℕ}

theorem withVote_clean {a : Arr3 (Fl ℝ) E S R} (hc : ∀ e s r, NumOrNan (a e s r)) (e : Fin E) (s : Fin S) (r : Fin R) (v : ℝ) :
    ∀ e' s' r', NumOrNan (withVote a e s r v e' s' r') := by
  intro e' s' r'
  unfold withVote
  split
  · exact Or.inr ⟨v, rfl⟩
  · exact hc _ _ _

theorem withVote_self (a : Arr3 (Fl ℝ) E S R) (e : Fin E) (s : Fin S) (r : Fin R) (v : ℝ) : withVote a e s r v e s r = .fin v := if_pos ⟨rfl, rfl, rfl⟩

theorem withVote_other (a : Arr3 (Fl ℝ) E S R) (e : Fin E) (s : Fin S) (r : Fin R) (v : ℝ) {e' : Fin E} {s' : Fin S} {r' : Fin R} (h : ¬ (e' = e ∧ s' = s ∧ r' = r)) :
    withVote a e s r v e' s' r' = a e' s' r' := if_neg h

theorem mos_scores {rd : Reader κ ℝ} {a : Arr3 (Fl ℝ) E S R} (ha : rd.scores = .ok ⟨E, S, R, a⟩) (hc : ∀ e s r, NumOrNan (a e s r)) {res : Result κ ℝ}
    (hr : runMOS rd {} = .ok res) : res.qualityScores = List.ofFn fun e => meanOrNan (videoCells a e) := by
  rw [runMOS_default ha hr]
  show List.ofFn (meanAlongS a) = _
  congr 1
  funext e
  exact meanAlongS_spec _ _ (hc e)

/-- **C163, MOS.**  A higher vote raises the mean opinion score of its video and leaves all the others as they are, whoever voted how often on what. -/
theorem C163_mos (rd rd' : Reader κ ℝ) (a : Arr3 (Fl ℝ) E S R) (hc : ∀ e s r, NumOrNan (a e s r)) (e : Fin E) (s : Fin S) (r : Fin R) {v w : ℝ} (hvw : v < w)
    (ha : rd.scores = .ok ⟨E, S, R, withVote a e s r v⟩) (ha' : rd'.scores = .ok ⟨E, S, R, withVote a e s r w⟩) (res res' : Result κ ℝ)
    (hr : runMOS rd {} = .ok res) (hr' : runMOS rd' {} = .ok res') :
    (∃ x y, res.qualityScores[e.val]? = some (.fin x) ∧ res'.qualityScores[e.val]? = some (.fin y) ∧ x < y) ∧
      ∀ e' : Fin E, e' ≠ e → res'.qualityScores[e'.val]? = res.qualityScores[e'.val]? := by
  rw [mos_scores ha (withVote_clean hc e s r v) hr, mos_scores ha' (withVote_clean hc e s r w) hr']
  refine ⟨?_, fun e' he => ?_⟩
  · obtain ⟨l₁, l₂, h1, h2⟩ := split_cell (withVote a e s r v e) (withVote a e s r w e) s r (withVote_self a e s r v) (withVote_self a e s r w)
      fun s' r' h => by rw [withVote_other a e s r v fun k => h k.2, withVote_other a e s r w fun k => h k.2]
    refine ⟨_, _, ?_, ?_, mean_lt (l₁ := l₁) (l₂ := l₂) hvw⟩
    · rw [List.getElem?_ofFn, dif_pos e.isLt, meanOrNan_eq (by unfold videoCells; rw [h1]; simp)]
      unfold videoCells
      rw [h1]
    · rw [List.getElem?_ofFn, dif_pos e.isLt, meanOrNan_eq (by unfold videoCells; rw [h2]; simp)]
      unfold videoCells
      rw [h2]
  · rw [List.getElem?_ofFn, List.getElem?_ofFn, dif_pos e'.isLt, dif_pos e'.isLt]
    congr 2
    unfold videoCells
    congr 2
    funext s'
    congr 1
    funext r'
    rw [withVote_other a e s r w fun k => he k.1, withVote_other a e s r v fun k => he k.1]

theorem br_scores {rd : Reader κ ℝ} {a : Arr3 (Fl ℝ) E S R} (ha : rd.scores = .ok ⟨E, S, R, a⟩) (hc : ∀ e s r, NumOrNan (a e s r)) {res : Result κ ℝ}
    (hr : runBR_MOS rd {} = .ok res) : res.qualityScores = List.ofFn fun e => meanOrNan (videoCells (biasArr a) e) := by
  have hr' : runModeling biasremvRunModeling rd { biasOffset := yes } = .ok res := hr
  rw [runModeling_bias (preprocess_bias ha) rfl hr']
  show List.ofFn (meanAlongS (biasArr a)) = _
  congr 1
  funext e
  exact meanAlongS_spec _ _ fun s r => RejectSym.biasArr_clean a hc e s r

/-- **C163, bias removal.**  A higher vote raises the score of its video after bias removal as well, whoever voted how often on what. -/
theorem C163_bias_removal (rd rd' : Reader κ ℝ) (a : Arr3 (Fl ℝ) E S R) (hc : ∀ e s r, NumOrNan (a e s r)) (e : Fin E) (s : Fin S) (r : Fin R) {v w : ℝ} (hvw : v < w)
    (ha : rd.scores = .ok ⟨E, S, R, withVote a e s r v⟩) (ha' : rd'.scores = .ok ⟨E, S, R, withVote a e s r w⟩) (res res' : Result κ ℝ)
    (hr : runBR_MOS rd {} = .ok res) (hr' : runBR_MOS rd' {} = .ok res') :
    ∃ x y, res.qualityScores[e.val]? = some (.fin x) ∧ res'.qualityScores[e.val]? = some (.fin y) ∧ x < y := by
  have cv := withVote_clean hc e s r v
  have cw := withVote_clean hc e s r w
  rw [br_scores ha cv hr, br_scores ha' cw hr']
  have hM : (fun e' s' r' => has (withVote a e s r w e' s' r')) = fun e' s' r' => has (withVote a e s r v e' s' r') := by
    funext e' s' r'
    unfold withVote
    split <;> rfl
  have hX : (fun e' s' r' => num (withVote a e s r w e' s' r')) =
      fun e' s' r' => num (withVote a e s r v e' s' r') + if e' = e ∧ s' = s ∧ r' = r then w - v else 0 := by
    funext e' s' r'
    unfold withVote
    split
    · show w = v + (w - v)
      ring
    · exact (add_zero _).symm
  have hv := br_score _ cv e (has_sum_pos (fun s' r' => withVote a e s r v e s' r') (withVote_self a e s r v)).ne'
  have hw := br_score _ cw e (has_sum_pos (fun s' r' => withVote a e s r w e s' r') (withVote_self a e s r w)).ne'
  refine ⟨_, _, ?_, ?_, br_gain (fun e' s' r' => has (withVote a e s r v e' s' r')) (fun e' s' r' => num (withVote a e s r v e' s' r')) (fun _ _ _ => has_nonneg _)
    e s r (by rw [withVote_self]; rfl) (d := w - v) (by linarith)⟩
  · rw [List.getElem?_ofFn, dif_pos e.isLt, hv]
  · rw [List.getElem?_ofFn, dif_pos e.isLt, hw, hM, hX]
    have q1 : ∀ s' r', has (withVote a e s r w e s' r') = has (withVote a e s r v e s' r') := fun s' r' => congrFun (congrFun (congrFun hM e) s') r'
    have q2 : ∀ s' r', num (withVote a e s r w e s' r') = num (withVote a e s r v e s' r') + if e = e ∧ s' = s ∧ r' = r then w - v else 0 :=
      fun s' r' => congrFun (congrFun (congrFun hX e) s') r'
    congr 3
    · exact Finset.sum_congr rfl fun s' _ => Finset.sum_congr rfl fun r' _ => by rw [q1, q2]
    · exact Finset.sum_congr rfl fun s' _ => Finset.sum_congr rfl fun r' _ => q1 s' r'

theorem zs_scores {rd : Reader κ ℝ} {a : Arr3 (Fl ℝ) E S R} (ha : rd.scores = .ok ⟨E, S, R, a⟩) (hc : ∀ e s r, NumOrNan (a e s r)) {res : Result κ ℝ}
    (hr : runZS_MOS rd {} = .ok res) : res.qualityScores = List.ofFn fun e => meanOrNan (videoCells (zscoreArr a) e) := by
  have hr' : runModeling mosRunModeling rd { zscoreMode := yes } = .ok res := hr
  have hz : ∀ e s r, NumOrNan (zscoreArr a e s r) := by
    intro e s r
    by_cases h : ∃ x ∈ present (observerCells a s), ∃ y ∈ present (observerCells a s), x ≠ y
    · rw [zscore_affine a hc s h]; exact affine_clean (hc e s r)
    · push Not at h
      rw [zscore_const a hc s h]; exact Or.inl rfl
  rw [runModeling_mos (preprocess_zscore ha) hr']
  show List.ofFn (meanAlongS (zscoreArr a)) = _
  congr 1
  funext e
  exact meanAlongS_spec _ _ (hz e)

/-- the z-scores of an observer depend on their votes only -/
theorem zscore_congr {a b : Arr3 (Fl ℝ) E S R} (ha : ∀ e s r, NumOrNan (a e s r)) (hb : ∀ e s r, NumOrNan (b e s r)) (s : Fin S) (h : ∀ e r, a e s r = b e s r)
    (e : Fin E) (r : Fin R) : zscoreArr a e s r = zscoreArr b e s r := by
  have ho : observerCells a s = observerCells b s := by
    unfold observerCells
    congr 2
    funext e
    congr 1
    funext r
    exact h e r
  by_cases hd : ∃ x ∈ present (observerCells a s), ∃ y ∈ present (observerCells a s), x ≠ y
  · rw [zscore_affine a ha s hd, zscore_affine b hb s (ho ▸ hd), ho, h]
  · push Not at hd
    rw [zscore_const a ha s hd, zscore_const b hb s (ho ▸ hd)]

/-- **C163, z-scores (`_partial`).**  Every observer voted at most once on each video.  If neither before nor after the change all votes of the observer are the same, a
higher vote does not lower the z-scored opinion score of its video.  Missing: several votes of an observer on a video, for which it is false, see below. -/
theorem C163_zscore_partial (rd rd' : Reader κ ℝ) (a : Arr3 (Fl ℝ) E S 1) (hc : ∀ e s r, NumOrNan (a e s r)) (e : Fin E) (s : Fin S) {v w : ℝ} (hvw : v ≤ w)
    (ha : rd.scores = .ok ⟨E, S, 1, withVote a e s 0 v⟩) (ha' : rd'.scores = .ok ⟨E, S, 1, withVote a e s 0 w⟩)
    (hv : ∃ e', ∃ x ≠ v, withVote a e s 0 v e' s 0 = .fin x) (hw : ∃ e', ∃ x ≠ w, withVote a e s 0 w e' s 0 = .fin x) (res res' : Result κ ℝ)
    (hr : runZS_MOS rd {} = .ok res) (hr' : runZS_MOS rd' {} = .ok res') :
    ∃ x y, res.qualityScores[e.val]? = some (.fin x) ∧ res'.qualityScores[e.val]? = some (.fin y) ∧ x ≤ y := by
  have cv := withVote_clean hc e s 0 v
  have cw := withVote_clean hc e s 0 w
  rw [zs_scores ha cv hr, zs_scores ha' cw hr']
  have nv : ∃ x ∈ present (observerCells (withVote a e s 0 v) s), ∃ y ∈ present (observerCells (withVote a e s 0 v) s), x ≠ y := by
    obtain ⟨e', x, hx, h⟩ := hv
    exact ⟨x, (present_observerCells _ s x).mpr ⟨e', 0, h⟩, v, (present_observerCells _ s v).mpr ⟨e, 0, withVote_self a e s 0 v⟩, hx⟩
  have nw : ∃ x ∈ present (observerCells (withVote a e s 0 w) s), ∃ y ∈ present (observerCells (withVote a e s 0 w) s), x ≠ y := by
    obtain ⟨e', x, hx, h⟩ := hw
    exact ⟨x, (present_observerCells _ s x).mpr ⟨e', 0, h⟩, w, (present_observerCells _ s w).mpr ⟨e, 0, withVote_self a e s 0 w⟩, hx⟩
  obtain ⟨o₁, o₂, g1, g2⟩ := split_cell (fun e' r' => withVote a e s 0 v e' s r') (fun e' r' => withVote a e s 0 w e' s r') e 0 (withVote_self a e s 0 v)
    (withVote_self a e s 0 w) fun e' r' h => by rw [withVote_other a e s 0 v fun k => h ⟨k.1, k.2.2⟩, withVote_other a e s 0 w fun k => h ⟨k.1, k.2.2⟩]
  have g1' : present (observerCells (withVote a e s 0 v) s) = o₁ ++ v :: o₂ := g1
  have g2' : present (observerCells (withVote a e s 0 w) s) = o₁ ++ w :: o₂ := g2
  have zv := zscore_affine _ cv s nv e 0
  have zw := zscore_affine _ cw s nw e 0
  have pv := (sampleStd_pos nv).1
  have pw := (sampleStd_pos nw).1
  have hlen := (sampleStd_pos nv).2
  rw [withVote_self, g1'] at zv
  rw [withVote_self, g2'] at zw
  rw [g1'] at pv hlen
  rw [g2'] at pw
  have hne : o₁ ++ o₂ ≠ [] := by
    intro h0
    rw [List.append_eq_nil_iff] at h0
    rw [h0.1, h0.2] at hlen
    simp at hlen
  have hz := zscore_le hvw pv pw hne
  obtain ⟨l₁, l₂, h1, h2⟩ := split_cell (zscoreArr (withVote a e s 0 v) e) (zscoreArr (withVote a e s 0 w) e) s 0 zv zw fun s' r' h => by
    have hs : s' ≠ s := fun k => h ⟨k, Subsingleton.elim _ _⟩
    exact zscore_congr cv cw s' (fun e' r' => by rw [withVote_other a e s 0 v fun k => hs k.2.1, withVote_other a e s 0 w fun k => hs k.2.1]) e r'
  refine ⟨_, _, ?_, ?_, mean_le (l₁ := l₁) (l₂ := l₂) (v := 1 / Real.sqrt (sampleVar (o₁ ++ v :: o₂)) * v + -mean (o₁ ++ v :: o₂) / Real.sqrt (sampleVar (o₁ ++ v :: o₂)))
    (w := 1 / Real.sqrt (sampleVar (o₁ ++ w :: o₂)) * w + -mean (o₁ ++ w :: o₂) / Real.sqrt (sampleVar (o₁ ++ w :: o₂))) ?_⟩
  · rw [List.getElem?_ofFn, dif_pos e.isLt, meanOrNan_eq (by unfold videoCells; rw [h1]; simp)]
    unfold videoCells
    rw [h1]
  · rw [List.getElem?_ofFn, dif_pos e.isLt, meanOrNan_eq (by unfold videoCells; rw [h2]; simp)]
    unfold videoCells
    rw [h2]
  · have e1 : ∀ t m d : ℝ, 1 / d * t + -m / d = (t - m) / d := fun t m d => by ring
    rw [e1, e1]
    exact hz

/-- the hypotheses are met by the panel `gapsX` with missing votes, whose third observer gives the first video 4 or 5 -/
example : ∃ res res' x y, runBR_MOS (arrReader 3 3 1 (withVote gapsX 0 2 0 4)) {} = .ok res ∧ runBR_MOS (arrReader 3 3 1 (withVote gapsX 0 2 0 5)) {} = .ok res' ∧
    res.qualityScores[0]? = some (.fin x) ∧ res'.qualityScores[0]? = some (.fin y) ∧ x < y := by
  have run : ∀ a : Arr3 (Fl ℝ) 3 3 1, ∃ res, runBR_MOS (arrReader 3 3 1 a) {} = .ok res := fun a => by
    unfold runBR_MOS runModeling biasremvRunModeling
    rw [preprocess_bias (rd := arrReader 3 3 1 a) rfl]
    exact ⟨_, rfl⟩
  obtain ⟨res, hr⟩ := run (withVote gapsX 0 2 0 4)
  obtain ⟨res', hr'⟩ := run (withVote gapsX 0 2 0 5)
  obtain ⟨x, y, h⟩ := C163_bias_removal _ _ gapsX gaps_clean 0 2 0 (v := 4) (w := 5) (by norm_num) rfl rfl res res' hr hr'
  exact ⟨res, res', x, y, hr, hr', h⟩

theorem zs_runs (a : Arr3 (Fl ℝ) E S R) : ∃ res, runZS_MOS (arrReader E S R a) {} = .ok res := by
  unfold runZS_MOS runModeling mosRunModeling
  rw [preprocess_zscore (rd := arrReader E S R a) rfl]
  exact ⟨_, rfl⟩

/-- the hypotheses on z-scores are met by the same panel: the observer also gave a 5 to the third video, and in the second case this is the same vote as the other, so
it takes a 6 -/
example : ∃ res res' x y, runZS_MOS (arrReader 3 3 1 (withVote gapsX 0 2 0 4)) {} = .ok res ∧ runZS_MOS (arrReader 3 3 1 (withVote gapsX 0 2 0 6)) {} = .ok res' ∧
    res.qualityScores[0]? = some (.fin x) ∧ res'.qualityScores[0]? = some (.fin y) ∧ x ≤ y := by
  obtain ⟨res, hr⟩ := zs_runs (withVote gapsX 0 2 0 4)
  obtain ⟨res', hr'⟩ := zs_runs (withVote gapsX 0 2 0 6)
  obtain ⟨x, y, h⟩ := C163_zscore_partial _ _ gapsX gaps_clean 0 2 (v := 4) (w := 6) (by norm_num) rfl rfl
    ⟨2, 5, by norm_num, (withVote_other gapsX 0 2 0 4 (by decide)).trans rfl⟩ ⟨2, 5, by norm_num, (withVote_other gapsX 0 2 0 6 (by decide)).trans rfl⟩ res res' hr hr'
  exact ⟨res, res', x, y, hr, hr', h⟩

/-! ### Several votes on a video -/

/-- one observer, who votes twice on the first video and once on the second -/
noncomputable def twiceX (v : ℝ) : Arr3 (Fl ℝ) 2 1 2 := fun e _ r => ![![.fin v, .fin 1], ![.fin 0, .nan]] e r

/-- **C163 for z-scores of several votes is refuted.**  One observer gives the first video 2 and 1 and the second video 0; if they give 3 in place of 2, the score of the
first video falls from 1/2 to (2/3) / sqrt (7/3). -/
theorem C163_repeated_refuted : ∃ res res', runZS_MOS (arrReader 2 1 2 (withVote (twiceX 2) 0 0 0 2)) {} = .ok res ∧
    runZS_MOS (arrReader 2 1 2 (withVote (twiceX 2) 0 0 0 3)) {} = .ok res' ∧
    res.qualityScores[0]? = some (.fin (1 / 2)) ∧ res'.qualityScores[0]? = some (.fin (2 / 3 / Real.sqrt (7 / 3))) ∧ 2 / 3 / Real.sqrt (7 / 3) < 1 / 2 := by
  have hw : ∀ v, withVote (twiceX 2) 0 0 0 v = twiceX v := by
    intro v
    funext e s r
    fin_cases e <;> fin_cases s <;> fin_cases r <;> simp [withVote, twiceX]
  have hc : ∀ v e s r, NumOrNan (twiceX v e s r) := by
    intro v e s r
    fin_cases e <;> fin_cases s <;> fin_cases r <;> simp [twiceX, NumOrNan]
  have hp : ∀ v, present (observerCells (twiceX v) 0) = [v, 1, 0] := by
    intro v
    simp [observerCells, present, twiceX, List.ofFn_succ, Fl.val?, val_nan, List.filterMap_cons]
  have hsc : ∀ v ≠ (0 : ℝ), ∀ res, runZS_MOS (arrReader 2 1 2 (twiceX v)) {} = .ok res →
      res.qualityScores[0]? = some (.fin ((v + 1 - 2 * mean [v, 1, 0]) / 2 / Real.sqrt (sampleVar [v, 1, 0]))) := by
    intro v hv res hr
    have hz := zscore_affine (twiceX v) (hc v) 0 (by rw [hp]; exact ⟨v, by simp, 0, by simp, hv⟩)
    rw [hp] at hz
    rw [zs_scores rfl (hc v) hr, List.getElem?_ofFn, dif_pos (by norm_num)]
    congr 1
    have hpres : present (videoCells (zscoreArr (twiceX v)) 0) = [1 / Real.sqrt (sampleVar [v, 1, 0]) * v + -mean [v, 1, 0] / Real.sqrt (sampleVar [v, 1, 0]),
        1 / Real.sqrt (sampleVar [v, 1, 0]) * 1 + -mean [v, 1, 0] / Real.sqrt (sampleVar [v, 1, 0])] := by
      have e0 := hz 0 0
      have e1 := hz 0 1
      unfold videoCells present
      simp only [List.ofFn_succ, List.ofFn_zero, List.flatten_cons, List.flatten_nil, List.append_nil]
      show List.filterMap Fl.val? [zscoreArr (twiceX v) 0 0 0, zscoreArr (twiceX v) 0 0 1] = _
      rw [e0, e1]
      rfl
    show meanOrNan (videoCells (zscoreArr (twiceX v)) 0) = _
    rw [meanOrNan_eq (by rw [hpres]; simp), hpres]
    congr 1
    generalize Real.sqrt (sampleVar [v, 1, 0]) = d
    generalize mean [v, 1, 0] = m
    simp [mean]
    ring
  obtain ⟨res, hr⟩ := zs_runs (twiceX 2)
  obtain ⟨res', hr'⟩ := zs_runs (twiceX 3)
  rw [hw, hw]
  refine ⟨res, res', hr, hr', ?_, ?_, ?_⟩
  · rw [hsc 2 (by norm_num) res hr]
    have e1 : mean [(2 : ℝ), 1, 0] = 1 := by norm_num [mean]
    have e2 : sampleVar [(2 : ℝ), 1, 0] = 1 := by norm_num [sampleVar, sqDev, mean]
    rw [e1, e2, Real.sqrt_one]
    norm_num
  · rw [hsc 3 (by norm_num) res' hr']
    have e1 : mean [(3 : ℝ), 1, 0] = 4 / 3 := by norm_num [mean]
    have e2 : sampleVar [(3 : ℝ), 1, 0] = 7 / 3 := by norm_num [sampleVar, sqDev, mean]
    rw [e1, e2]
    norm_num
  · have h1 : (4 / 3 : ℝ) < Real.sqrt (7 / 3) := by
      apply Real.lt_sqrt_of_sq_lt
      norm_num
    rw [div_lt_iff₀ (by linarith)]
    linarith

/-! ### Screening -/

/-- three observers vote 1 and 5, the other votes `v` and 4 -/
noncomputable def cautiousX (v : ℝ) : Fin 2 → Fin 4 → ℝ := fun e s => if s = 0 then ![v, 4] e else ![1, 5] e

/-- **C163 for the correlation rules is refuted.**  Three observers give two videos 1 and 5, the fourth gives them 3 and 4: nobody is rejected, and the score of
the first video is 3/2.  If the fourth gives the first video 5 in place of 3, they are rejected, and its score falls to 1. -/
theorem C163_screening_refuted (sp : Bool) : ∃ res res',
    runScreened sp (arrReader 2 4 1 (withVote (fun e s _ => .fin (cautiousX 3 e s)) 0 0 0 3)) = .ok res ∧
    runScreened sp (arrReader 2 4 1 (withVote (fun e s _ => .fin (cautiousX 3 e s)) 0 0 0 5)) = .ok res' ∧
    res.observerRejected = some [false, false, false, false] ∧ res'.observerRejected = some [true, false, false, false] ∧
    res.qualityScores = [.fin (3 / 2), .fin (19 / 4)] ∧ res'.qualityScores = [.fin 1, .fin 5] := by
  have hw : ∀ v : ℝ, withVote (fun e s (_ : Fin 1) => .fin (cautiousX 3 e s)) 0 0 0 v = fun e s (_ : Fin 1) => .fin (cautiousX v e s) := by
    intro v
    funext e s r
    fin_cases e <;> fin_cases s <;> fin_cases r <;> simp [withVote, cautiousX]
  rw [hw, hw]
  have hrev : cautiousX 5 = reversed ![1, 5] (21 / 4) (1 / 4) (0 : Fin 4) := by
    funext e s
    fin_cases e <;> fin_cases s <;> norm_num [cautiousX, reversed]
  set a : Arr3 (Fl ℝ) 2 4 1 := fun e s _ => .fin (cautiousX 3 e s) with ha
  have hc : ∀ e s r, NumOrNan (a e s r) := fun _ _ _ => Or.inr ⟨_, rfl⟩
  obtain ⟨res, b, h1, h2, h3, -, -, -, h4⟩ := screened_result sp a hc (by intro s; rw [ha, opinionPairs_complete (by norm_num)]; simp)
  obtain ⟨res', k1, k2, k3⟩ := C158_reversed_partial sp ![1, 5] (21 / 4) (1 / 4) (0 : Fin 4) ⟨0, 1, by norm_num⟩ (by norm_num) (by norm_num) (by norm_num)
  have k1' : runScreened sp (arrReader 2 4 1 fun e s _ => .fin (cautiousX 5 e s)) = .ok res' := by
    rw [hrev, ← k1]; cases sp <;> rfl
  obtain ⟨g1, g2, -, -⟩ := corrReject_ok hc h2
  have hag : ∀ s, agreement sp a s = some 1 := by
    intro s
    unfold agreement
    rw [ha, opinionPairs_complete (by norm_num) (cautiousX 3) s]
    have hm : ∀ e, mean (List.ofFn fun s' => cautiousX 3 e s') = ![3 / 2, 19 / 4] e := by
      intro e
      fin_cases e <;> norm_num [mean, cautiousX, List.ofFn_succ]
    simp only [hm]
    by_cases hs : s = 0
    · have : (List.ofFn fun e => (cautiousX 3 e s, (![3 / 2, 19 / 4] : Fin 2 → ℝ) e)) = [(3, 3 / 2), (4, 19 / 4)] := by
        simp [List.ofFn_succ, cautiousX, hs]
      rw [this]
      refine (two_points sp 3 (3 / 2) 4 (19 / 4) (by norm_num) (by norm_num)).trans ?_
      norm_num
    · have : (List.ofFn fun e => (cautiousX 3 e s, (![3 / 2, 19 / 4] : Fin 2 → ℝ) e)) = [(1, 3 / 2), (5, 19 / 4)] := by
        simp [List.ofFn_succ, cautiousX, hs]
      rw [this]
      refine (two_points sp 1 (3 / 2) 5 (19 / 4) (by norm_num) (by norm_num)).trans ?_
      norm_num
  have hr : (fun s => numOrNanOf (agreement sp a s)) = fun _ => .fin 1 := by
    funext s
    rw [hag]; rfl
  have hthr : corrThreshold (List.ofFn fun s => numOrNanOf (agreement sp a s)) = .fin (7 / 10) := by
    rw [hr, corrThreshold_spec (by norm_num)]
    congr 1
    simp [agreementThreshold, popVar, sqDev, mean, List.ofFn_succ]
    norm_num
  have hlt : ∀ s : Fin 4, (corrThreshold (List.ofFn fun s => numOrNanOf (agreement sp a s))).lt (numOrNanOf (agreement sp a s)) = !false := by
    intro s
    rw [hthr, congrFun hr s, Fl.lt_fin]
    norm_num
  dsimp only at g1 g2
  refine ⟨res, res', h1, k1', ?_, ?_, ?_, ?_⟩
  · rw [h3, g2, hthr]
    have : (fun s => (numOrNanOf (agreement sp a s)).le (.fin (7 / 10))) = fun _ => false := by
      funext s
      rw [congrFun hr s, Fl.le_fin]
      norm_num
    rw [this]; rfl
  · rw [k2]
    norm_num [List.ofFn_succ]
  · rw [h4, screenedMeans a hc (fun _ => false) b.1 (by rw [g1, List.filter_congr fun s _ => hlt s])]
    have : ((List.finRange 4).filter fun _ => !false) = [0, 1, 2, 3] := by decide
    rw [this]
    simp [cellsOf, meanOrNan, present, ha, cautiousX, List.ofFn_succ, Fl.val?, mean]
    norm_num
  · rw [k3]
    norm_num [List.ofFn_succ]

end Sureal.Props
