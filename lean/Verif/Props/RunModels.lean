import Verif.Lemmas.RunModels
import Verif.Props.Mos
/-!
# C94: the statistics `run_subjective_models` adds to the results
-/
set_option linter.unusedSectionVars false
namespace Sureal.Props
open Sureal Spec Routine
variable {κ : Type}

/-- **C94.** A completed run has one report for each model, in order: the result of the model on the one reader, the paths of the
videos, and statistics exactly if the result has votes and reconstructions. -/
theorem C94_run {path : List Char} {readPy readJson : Py (Dataset κ ℝ)} {reader : Dataset κ ℝ → Py (Reader κ ℝ)}
    {models : List (Reader κ ℝ → Py (Result κ ℝ))} {out : List (Report κ ℝ)} (h : run path readPy readJson reader models = .ok out) :
    ∃ d rd, (((∃ l, path = l ++ ".py".toList) ∧ readPy = .ok d) ∨ ((∃ l, path = l ++ ".json".toList) ∧ readJson = .ok d)) ∧
      reader d = .ok rd ∧
      List.Forall₂ (fun m o => m rd = .ok o.result ∧ o.disVideoNames = rd.disVideos.map (·.path) ∧
        match o.result.rawScores, o.result.reconstructions with
        | some raw, some rec => ∃ st, o.stats = some st ∧ recStats raw rec = .ok st
        | _, _ => o.stats = none) models out := by
  unfold run at h
  dsimp only at h
  generalize hd : (if ['.', 'p', 'y'].isSuffixOf path then readPy
    else if ['.', 'j', 's', 'o', 'n'].isSuffixOf path then readJson else .error .assertion) = ds at h
  split at h
  · cases h
  · rename_i d
    split at h
    · cases h
    · rename_i rd hrd
      split at h
      · cases h
      · rename_i results hres
        refine ⟨d, rd, ?_, hrd, ?_⟩
        · split at hd
          · rename_i hs
            obtain ⟨l, hl⟩ := List.isSuffixOf_iff_suffix.mp hs
            exact Or.inl ⟨⟨l, hl.symm⟩, hd⟩
          · split at hd
            · rename_i hs
              obtain ⟨l, hl⟩ := List.isSuffixOf_iff_suffix.mp hs
              exact Or.inr ⟨⟨l, hl.symm⟩, hd⟩
            · cases hd
        · rw [mapPy_eq_ok_iff] at hres h
          clear hd hrd
          induction hres generalizing out with
          | nil => cases h; exact .nil
          | @cons m res models results h1 _ ih =>
            cases h with
            | @cons _ o _ out h2 h3 =>
              refine .cons ?_ (ih h3)
              unfold report at h2
              split at h2
              · rename_i raw rec hraw hrec
                split at h2
                · cases h2
                · rename_i st hst
                  cases h2
                  dsimp only
                  rw [hraw, hrec]
                  exact ⟨h1, rfl, st, rfl, hst⟩
              · rename_i hno
                cases h2
                dsimp only
                refine ⟨h1, rfl, ?_⟩
                split
                · rename_i raw rec hraw hrec
                  exact absurd hrec (hno raw rec hraw)
                · rfl

/-- **C94.** A file that is neither `.py` nor `.json` is refused. -/
theorem C94_extension {path : List Char} {readPy readJson : Py (Dataset κ ℝ)} {reader : Dataset κ ℝ → Py (Reader κ ℝ)}
    {models : List (Reader κ ℝ → Py (Result κ ℝ))} (h1 : ∀ l, path ≠ l ++ ".py".toList) (h2 : ∀ l, path ≠ l ++ ".json".toList) :
    run path readPy readJson reader models = .error .assertion := by
  unfold run
  rw [if_neg, if_neg]
  · intro h
    obtain ⟨l, hl⟩ := List.isSuffixOf_iff_suffix.mp h
    exact h2 l hl.symm
  · intro h
    obtain ⟨l, hl⟩ := List.isSuffixOf_iff_suffix.mp h
    exact h1 l hl.symm

/-- **C94.** The statistics are the root mean square error and the two correlations of votes and reconstructions over the cells where
both are numbers; with fewer than two such cells, or arrays of different shapes, there is an exception. -/
theorem C94_stats {E S R : ℕ} (raw rec : Arr3 (Fl ℝ) E S R) (h1 : ∀ e s r, NumOrNan (raw e s r)) (h2 : ∀ e s r, NumOrNan (rec e s r)) :
    (2 ≤ (bothPresent raw rec).length → recStats ⟨E, S, R, raw⟩ ⟨E, S, R, rec⟩ = .ok (statsOf (bothPresent raw rec))) ∧
    ((bothPresent raw rec).length < 2 → recStats ⟨E, S, R, raw⟩ ⟨E, S, R, rec⟩ = .error .value) := by
  rw [recStats_eq raw rec h1 h2]
  exact ⟨fun h => if_pos h, fun h => if_neg (by omega)⟩

theorem C94_shapes {raw rec : Arr3D (Fl ℝ)} (h : ¬ (raw.E = rec.E ∧ raw.S = rec.S ∧ raw.R = rec.R)) :
    recStats raw rec = .error .assertion := if_neg h

/-- **C94.** The mean opinion scores: the squared RMSE is the average squared deviation of the votes from the mean of their video, no other
reconstruction by one number for each video has a smaller RMSE, and the correlation is not negative, its square the share of the variance
of the votes that is not within the videos; it is NaN exactly if all votes or all opinion scores are equal. -/
theorem C94_mos (rd : Reader κ ℝ) (a : Arr3D (Fl ℝ)) (res : Result κ ℝ) (ha : rd.scores = .ok a) (hr : runMOS rd {} = .ok res)
    (hc : ∀ e s r, NumOrNan (a.get e s r)) (votes : List ℝ) (hv : votes = (List.finRange a.E).flatMap fun e => present (videoCells a.get e))
    (h2 : 2 ≤ votes.length) :
    ∃ raw rec st rmse, res.rawScores = some raw ∧ res.reconstructions = some rec ∧ recStats raw rec = .ok st ∧ st.rmse = .fin rmse ∧
      0 ≤ rmse ∧
      votes.length * rmse ^ 2 = ((List.finRange a.E).map fun e => sqDev (present (videoCells a.get e))).sum ∧
      (∀ q : Fin a.E → ℝ, ∃ st', recStats a ⟨a.E, a.S, a.R, fun e _ _ => .fin (q e)⟩ = .ok st' ∧ ∃ r', st'.rmse = .fin r' ∧ rmse ≤ r') ∧
      (popVar votes = 0 ∨ popVar votes = rmse ^ 2 → st.cc = .nan) ∧
      (popVar votes ≠ 0 → popVar votes ≠ rmse ^ 2 → ∃ c, st.cc = .fin c ∧ 0 ≤ c ∧ c ^ 2 * popVar votes = popVar votes - rmse ^ 2) := by
  have hmos : ∀ e, meanAlongS a.get e = meanOrNan (videoCells a.get e) := fun e => meanAlongS_spec a.get e (hc e)
  have hclean : ∀ e, NumOrNan (meanAlongS a.get e) := by
    intro e
    rw [hmos]
    unfold meanOrNan
    split
    · exact Or.inl rfl
    · exact Or.inr ⟨_, rfl⟩
  have hbp : bothPresent a.get (fun e _ _ => meanAlongS a.get e) = withMeans (List.finRange a.E) fun e => present (videoCells a.get e) := by
    refine bothPresent_video a.get hc _ (fun e => mean (present (videoCells a.get e))) ?_
    intro e he
    rw [hmos]
    unfold meanOrNan
    cases hp : present (videoCells a.get e) with
    | nil => exact absurd hp he
    | cons x l => rfl
  have hfst : ∀ q : Fin a.E → ℝ, ((List.finRange a.E).flatMap fun e => (present (videoCells a.get e)).map fun x => (x, q e)).map (·.1) = votes := by
    intro q
    rw [hv, List.map_flatMap]
    congr 1
    funext e
    rw [List.map_map]
    exact List.map_id'' (fun x => rfl) _
  have hlen : ∀ q : Fin a.E → ℝ, ((List.finRange a.E).flatMap fun e => (present (videoCells a.get e)).map fun x => (x, q e)).length = votes.length := by
    intro q
    rw [← hfst q, List.length_map]
  set L := fun e => present (videoCells a.get e) with hL
  set ps := withMeans (List.finRange a.E) L with hps
  have hn : (0 : ℝ) < votes.length := by exact_mod_cast (by omega : 0 < votes.length)
  have hpl : ps.length = votes.length := hlen _
  have hst := recStats_eq a.get (fun e _ _ => meanAlongS a.get e) hc (fun e _ _ => hclean e)
  rw [hbp, if_pos (by rw [hpl]; exact h2)] at hst
  have hsum : ∀ qs : List (ℝ × ℝ), qs.length = votes.length → votes.length * rmsError qs ^ 2 = (qs.map fun p => (p.1 - p.2) ^ 2).sum := by
    intro qs hq
    have hne : qs ≠ [] := by rintro rfl; simp at hq; omega
    rw [(C68_rmse Np.mean hne).2.2.2.1]
    unfold mean
    rw [List.length_map, hq]
    field_simp
  have hW := withMeans_within (List.finRange a.E) L (fun e => mean (L e)) ps rfl
  simp only [sub_self, ne_eq, OfNat.ofNat_ne_zero, not_false_eq_true, zero_pow, mul_zero, List.map_const', List.sum_replicate, smul_zero, add_zero] at hW
  have hrm := hsum ps hpl
  rw [hW] at hrm
  rw [runMOS_default ha hr]
  refine ⟨a, { a with get := fun e _ _ => meanAlongS a.get e }, statsOf ps, rmsError ps, rfl, rfl, hst, rfl, Real.sqrt_nonneg _, hrm, ?_, ?_⟩
  · intro q
    have hq := recStats_eq a.get (fun e _ _ => Fl.fin (q e)) hc (fun _ _ _ => Or.inr ⟨_, rfl⟩)
    rw [bothPresent_video a.get hc (fun e => .fin (q e)) q (fun _ _ => rfl), if_pos (by rw [hlen]; exact h2)] at hq
    refine ⟨_, hq, _, rfl, ?_⟩
    have h3 := hsum _ (hlen q)
    rw [withMeans_within (List.finRange a.E) L q _ rfl, ← hrm] at h3
    have h4 : 0 ≤ ((List.finRange a.E).map fun e => ((L e).length : ℝ) * (mean (L e) - q e) ^ 2).sum := by
      apply List.sum_nonneg
      intro y hy
      obtain ⟨e, -, rfl⟩ := List.mem_map.mp hy
      positivity
    have h5 : rmsError ps ^ 2 ≤ rmsError ((List.finRange a.E).flatMap fun e => (L e).map fun x => (x, q e)) ^ 2 := by
      have : (votes.length : ℝ) * rmsError ps ^ 2 ≤ votes.length * rmsError ((List.finRange a.E).flatMap fun e => (L e).map fun x => (x, q e)) ^ 2 := by
        rw [h3]; linarith
      exact le_of_mul_le_mul_left this hn
    exact (pow_le_pow_iff_left₀ (Real.sqrt_nonneg _) (Real.sqrt_nonneg _) two_ne_zero).mp h5
  · have hcc : (statsOf ps).cc = numOrNanOf (correlation ps) := rfl
    rw [hcc]
    have hB := Np.sqDev_nonneg (ps.map (·.2))
    have hT := Np.sqDev_nonneg (ps.map (·.1))
    have hcov := withMeans_cov (List.finRange a.E) L
    have htot := withMeans_total (List.finRange a.E) L
    rw [← hps] at hcov htot
    have hvar : popVar votes = sqDev (ps.map (·.1)) / votes.length := by
      have : ps.map (·.1) = votes := hfst _
      rw [this]
      rfl
    have hr2 : rmsError ps ^ 2 = ((List.finRange a.E).map fun e => sqDev (L e)).sum / votes.length := by
      rw [← hrm]; field_simp
    have hdiff : popVar votes - rmsError ps ^ 2 = sqDev (ps.map (·.2)) / votes.length := by
      rw [hvar, hr2, htot]; ring
    have z1 : popVar votes = 0 ↔ sqDev (ps.map (·.1)) = 0 := by
      rw [hvar, div_eq_zero_iff, or_iff_left hn.ne']
    have z2 : popVar votes = rmsError ps ^ 2 ↔ sqDev (ps.map (·.2)) = 0 := by
      rw [← sub_eq_zero, hdiff, div_eq_zero_iff, or_iff_left hn.ne']
    unfold correlation
    rw [ne_eq, ne_eq, z1, z2]
    refine ⟨fun h => by rw [if_pos h]; rfl, fun n1 n2 => ?_⟩
    rw [if_neg (by rintro (h | h); exacts [n1 h, n2 h])]
    refine ⟨_, rfl, ?_⟩
    rw [hcov]
    refine ⟨by positivity, ?_⟩
    have hT' : 0 < sqDev (ps.map (·.1)) := lt_of_le_of_ne hT (Ne.symm n1)
    have hB' : 0 < sqDev (ps.map (·.2)) := lt_of_le_of_ne hB (Ne.symm n2)
    have hsq : (sqDev (ps.map (·.2)) / (Real.sqrt (sqDev (ps.map (·.1))) * Real.sqrt (sqDev (ps.map (·.2))))) ^ 2 =
        sqDev (ps.map (·.2)) / sqDev (ps.map (·.1)) := by
      rw [div_pow, mul_pow, Real.sq_sqrt hT, Real.sq_sqrt hB]
      field_simp
    rw [hsq, hdiff, hvar]
    field_simp

theorem exArr_votes : ((List.finRange 2).flatMap fun e => present (videoCells exArr e)) = [1, 3, 4] := by
  simp [List.finRange_succ, videoCells, present, exArr]

/-- One observer skipped the second of two videos: the votes are 1, 3 and 4, the opinion scores 2 and 4. -/
example : ∃ out, run "data.py".toList (.ok (arrReader 2 2 1 exArr).dataset) (.error .json) (fun _ => .ok (arrReader 2 2 1 exArr))
      [fun rd => runMOS rd {}, fun rd => runMOS rd {}] = .ok out ∧ out.length = 2 ∧
    ∀ o ∈ out, ∃ st rmse c, o.stats = some st ∧ st.rmse = .fin rmse ∧ rmse ^ 2 = 2 / 3 ∧ st.cc = .fin c ∧ c ^ 2 = 4 / 7 := by
  obtain ⟨res, hr⟩ := arrReader_runs 2 2 1 exArr
  obtain ⟨raw, rec, st, rmse, e1, e2, e3, e4, e5, e6, -, -, e8⟩ :=
    C94_mos (arrReader 2 2 1 exArr) ⟨2, 2, 1, exArr⟩ res rfl hr exArr_clean [1, 3, 4] exArr_votes.symm (by decide)
  have h6 : rmse ^ 2 = 2 / 3 := by
    have : ((List.finRange 2).map fun e => sqDev (present (videoCells exArr e))).sum = 2 := by
      have h0 : present (videoCells exArr 0) = [1, 3] := by simp [videoCells, present, exArr]
      have h1 : present (videoCells exArr 1) = [4] := by simp [videoCells, present, exArr, Fl.val?]
      simp only [List.finRange_succ, List.finRange_zero, List.map_cons, List.map_nil, Fin.succ_zero_eq_one, h0, h1]
      norm_num [sqDev, mean]
    dsimp only at e6
    rw [this] at e6
    norm_num at e6
    linarith
  have hrep : report (arrReader 2 2 1 exArr) res = .ok ⟨res, (arrReader 2 2 1 exArr).disVideos.map (·.path), some st⟩ := by
    unfold report
    rw [e1, e2]
    dsimp only
    rw [e3]
  have hrun : run "data.py".toList (.ok (arrReader 2 2 1 exArr).dataset) (.error .json) (fun _ => .ok (arrReader 2 2 1 exArr))
      [fun rd => runMOS rd {}, fun rd => runMOS rd {}] = .ok [⟨res, (arrReader 2 2 1 exArr).disVideos.map (·.path), some st⟩,
        ⟨res, (arrReader 2 2 1 exArr).disVideos.map (·.path), some st⟩] := by
    unfold run
    rw [if_pos (by decide)]
    simp only [mapPy, hr, hrep]
  refine ⟨_, hrun, rfl, ?_⟩
  have hp : popVar ([1, 3, 4] : List ℝ) = 14 / 9 := by
    norm_num [popVar, sqDev, mean]
  rw [hp, h6] at e8
  obtain ⟨c, hc, -, h7⟩ := e8 (by norm_num) (by norm_num)
  have hc' : c ^ 2 = 4 / 7 := by linarith
  intro o ho
  have : o = ⟨res, (arrReader 2 2 1 exArr).disVideos.map (·.path), some st⟩ := by simpa using ho
  subst this
  exact ⟨st, rmse, c, rfl, e4, h6, hc, hc'⟩

example : (∀ l, "data.csv".toList ≠ l ++ ".py".toList) ∧ ∀ l, "data.csv".toList ≠ l ++ ".json".toList := by
  constructor <;> intro l h
  · have : ".py".toList <:+ "data.csv".toList := ⟨l, h.symm⟩
    revert this; decide
  · have : ".json".toList <:+ "data.csv".toList := ⟨l, h.symm⟩
    revert this; decide

end Sureal.Props
