import Verif.Props.Options
import Verif.Props.ScorePlots
set_option linter.unusedSectionVars false
/-!
# C113: scores and their uncertainties after `transform_final` and `normalize_final`
-/
namespace Sureal.Props
open Spec
variable {κ : Type}

/-- a run of MOS with final options: the plain run with other scores -/
theorem mos_final {rd : Reader κ ℝ} {res : Result κ ℝ} (hr : runMOS rd {} = .ok res) (n : Flag) (t : Option (Transform ℝ)) :
    runMOS rd { normalizeFinal := n, transformFinal := t } =
      .ok { res with qualityScores := postprocessScores { normalizeFinal := n, transformFinal := t } res.qualityScores } := by
  have hrun := mos_ignores (κ := κ) (K := ℝ) rd { normalizeFinal := n, transformFinal := t }
  unfold runMOS runModeling at hr ⊢
  rw [hrun, show plain ({ normalizeFinal := n, transformFinal := t } : Opts ℝ) = {} from rfl]
  cases h : mosRunModeling rd {} with
  | error e => rw [h] at hr; cases hr
  | ok r =>
    rw [h] at hr
    have hpost : ∀ l : List (Fl ℝ), postprocessScores ({} : Opts ℝ) l = l := fun l => rfl
    simp only [hpost] at hr
    cases hob : rd.observers with
    | ok l => rw [hob] at hr; cases hr; rfl
    | error e => rw [hob] at hr; cases e <;> first | cases hr; rfl | cases hr

/-- the MOS are numbers or NaN -/
theorem mos_numOrNan {rd : Reader κ ℝ} {a : Arr3D (Fl ℝ)} (ha : rd.scores = .ok a) (hc : ∀ e s r, NumOrNan (a.get e s r))
    {res : Result κ ℝ} (hr : runMOS rd {} = .ok res) : ∀ x ∈ res.qualityScores, NumOrNan x := by
  rw [runMOS_default ha hr]
  intro x hx
  change x ∈ List.ofFn (meanAlongS a.get) at hx
  rw [List.mem_ofFn] at hx
  obtain ⟨e, rfl⟩ := hx
  rw [meanAlongS_spec _ _ (hc e)]
  unfold meanOrNan
  split
  · exact .inl rfl
  · exact .inr ⟨_, rfl⟩

/-- the standard errors of MOS are numbers or NaN -/
theorem mos_std_numOrNan {rd : Reader κ ℝ} {a : Arr3D (Fl ℝ)} (ha : rd.scores = .ok a) (hc : ∀ e s r, NumOrNan (a.get e s r))
    {res : Result κ ℝ} (hr : runMOS rd {} = .ok res) : ∃ se, res.qualityScoresStd = some se ∧ ∀ x ∈ se, NumOrNan x := by
  obtain ⟨amb, se, lo, hi, -, h2, -, -, h5, -, -, h8⟩ := C12_mos_uncertainty rd a res ha hr hc
  refine ⟨se, h2, ?_⟩
  intro x hx
  obtain ⟨i, hi, rfl⟩ := List.mem_iff_getElem.mp hx
  have he := h8 ⟨i, by omega⟩ _ rfl
  by_cases hl : 2 ≤ (present (videoCells a.get ⟨i, by omega⟩)).length
  · have := (he.1 hl).2.1
    rw [List.getElem?_eq_getElem hi] at this
    exact .inr ⟨_, Option.some.inj this⟩
  · have := (he.2 (by omega)).2
    rw [List.getElem?_eq_getElem hi] at this
    exact .inl (Option.some.inj this)

section
variable {E S R : ℕ} (c b : ℝ) (rd rd' : Reader κ ℝ) (a : Arr3 (Fl ℝ) E S R)
  (ha : rd.scores = .ok ⟨E, S, R, a⟩) (ha' : rd'.scores = .ok ⟨E, S, R, fun e s r => affine c b (a e s r)⟩)
  (hc : ∀ e s r, NumOrNan (a e s r)) (res res' : Result κ ℝ) (hr : runMOS rd {} = .ok res) (hr' : runMOS rd' {} = .ok res')
include ha ha' hc hr hr'

/-- **C113, scores.** Mapping the final scores of MOS by `x ↦ c x + b` gives the scores of the votes mapped this way. -/
theorem C113_scores : ∃ rt, runMOS rd { transformFinal := some { p1 := some (.fin c), p0 := some (.fin b) } } = .ok rt ∧
    rt.qualityScores = res'.qualityScores := by
  refine ⟨_, mos_final hr none _, ?_⟩
  rw [(C11_mos_affine c b rd rd' a ha ha' hc res res' hr hr').1]
  change List.map _ _ = _
  refine List.map_congr_left fun x hx => ?_
  rcases mos_numOrNan ha hc hr x hx with rfl | ⟨v, rfl⟩
  · simp [affine]
  · simp [affine, Fl.zero_def]

/-- **C113, uncertainties.** The standard errors reported with the mapped scores are those of the mapped votes exactly if `|c| = 1` or no video has a standard error other than 0: they
are not mapped. -/
theorem C113_units_partial : ∃ rt se, runMOS rd { transformFinal := some { p1 := some (.fin c), p0 := some (.fin b) } } = .ok rt ∧
    res.qualityScoresStd = some se ∧ rt.qualityScoresStd = some se ∧ rt.qualityScoresCi95 = res.qualityScoresCi95 ∧
    (rt.qualityScoresStd = res'.qualityScoresStd ↔ |c| = 1 ∨ ∀ x ∈ se, x = .nan ∨ x = .fin 0) := by
  obtain ⟨se, h1, h2⟩ := mos_std_numOrNan ha hc hr
  refine ⟨_, se, mos_final hr none _, h1, h1, rfl, ?_⟩
  rw [(C11_mos_affine c b rd rd' a ha ha' hc res res' hr hr').2.1]
  change res.qualityScoresStd = _ ↔ _
  rw [h1, Option.map_some, Option.some.injEq]
  constructor
  · intro h
    by_cases hc1 : |c| = 1
    · exact .inl hc1
    · right
      intro x hx
      rcases h2 x hx with rfl | ⟨v, rfl⟩
      · exact .inl rfl
      · right
        obtain ⟨i, hi, he⟩ := List.mem_iff_getElem.mp hx
        have h3 : se[i]? = (se.map fun x => Fl.fin |c| * x)[i]? := by rw [← h]
        rw [List.getElem?_map, List.getElem?_eq_getElem hi, he, Option.map_some, Option.some.injEq, Fl.fin_mul, Fl.fin.injEq] at h3
        have : (|c| - 1) * v = 0 := by linarith
        rcases mul_eq_zero.mp this with h4 | h4
        · exact absurd (by linarith) hc1
        · rw [h4]
  · intro h
    refine (List.map_id se).symm.trans (List.map_congr_left fun x hx => ?_)
    rcases h2 x hx with rfl | ⟨v, rfl⟩
    · simp
    · rw [Fl.fin_mul, id, Fl.fin.injEq]
      rcases h with h | h
      · rw [h, one_mul]
      · rcases h _ hx with h | h
        · cases h
        · cases h; simp

end

/-- **C113, refuted.** Votes 1 and 3 give the score 2 with standard error 1.  With the final transform `x ↦ 10 x` the score is 20, the standard error still 1, while votes 10 and 30 have the standard error 10. -/
theorem C113_refuted : ∃ rt res' : Result String ℝ,
    runMOS (arrReader 2 2 1 sortArr) { transformFinal := some { p1 := some (.fin 10), p0 := some (.fin 0) } } = .ok rt ∧
    runMOS (arrReader 2 2 1 fun e s r => affine 10 0 (sortArr e s r)) {} = .ok res' ∧
    rt.qualityScores = res'.qualityScores ∧ rt.qualityScoresStd ≠ res'.qualityScoresStd := by
  obtain ⟨res, hres⟩ := arrReader_runs 2 2 1 sortArr
  obtain ⟨res', hres'⟩ := arrReader_runs 2 2 1 fun e s r => affine 10 0 (sortArr e s r)
  obtain ⟨rt, h1, h2⟩ := C113_scores 10 0 _ _ sortArr rfl rfl sortArr_clean res res' hres hres'
  obtain ⟨rt', se, h3, h4, h5, -, h6⟩ := C113_units_partial 10 0 _ _ sortArr rfl rfl sortArr_clean res res' hres hres'
  obtain rfl : rt' = rt := Except.ok.inj (h3.symm.trans h1)
  refine ⟨rt', res', h1, hres', h2, ?_⟩
  rw [Ne, h6]
  rintro (h | h)
  · norm_num at h
  · obtain ⟨amb, se', lo, hi, -, k2, -, -, -, -, -, k8⟩ := C12_mos_uncertainty (arrReader 2 2 1 sortArr) ⟨2, 2, 1, sortArr⟩ res rfl hres sortArr_clean
    obtain rfl : se' = se := Option.some.inj (k2.symm.trans h4)
    have hv1 : present (videoCells sortArr 1) = [1, 3] := by simp [videoCells, present, sortArr, Fl.val?]
    have hs1 := ((k8 (1 : Fin 2) _ rfl).1 (by rw [hv1]; simp)).2.1
    rw [hv1] at hs1
    have e1 : sampleVar [(1 : ℝ), 3] = 2 := by norm_num [sampleVar, sqDev, Spec.mean]
    rw [e1] at hs1
    rcases h _ (List.mem_of_getElem? hs1) with h | h
    · cases h
    · rw [Fl.fin.injEq] at h
      simp at h

/-- **C113, normalised.** `normalize_final` divides the scores by their standard deviation and leaves the standard errors. -/
theorem C113_normalized {rd : Reader κ ℝ} {res : Result κ ℝ} (hr : runMOS rd {} = .ok res) (q : List ℝ) (hq : res.qualityScores = q.map .fin)
    (hne : ∃ x ∈ q, ∃ y ∈ q, x ≠ y) :
    ∃ rt, runMOS rd { normalizeFinal := some (some true) } = .ok rt ∧
      rt.qualityScores = res.qualityScores.map (affine (1 / Real.sqrt (popVar q)) (-Spec.mean q / Real.sqrt (popVar q))) ∧
      rt.qualityScoresStd = res.qualityScoresStd := by
  obtain ⟨x, hx, y, hy, hxy⟩ := hne
  have hv := popVar_pos_of_ne hx hy hxy
  have hqn : q ≠ [] := List.ne_nil_of_mem hx
  have hs : 0 < Real.sqrt (popVar q) := Real.sqrt_pos.mpr hv
  refine ⟨_, mos_final hr (some (some true)) none, ?_, rfl⟩
  change List.map (fun x => (x - Np.mean res.qualityScores) / Np.std res.qualityScores) res.qualityScores = _
  rw [hq, List.map_map, List.map_map]
  refine List.map_congr_left fun v _ => ?_
  have hstd : Np.std (q.map Fl.fin) = .fin (Real.sqrt (popVar q)) := by
    unfold Np.std
    rw [Np.var_map_fin hqn, Fl.sqrt_fin (Np.popVar_nonneg q)]; rfl
  simp only [Function.comp, hstd, Np.mean_map_fin hqn, Fl.fin_sub, affine]
  rw [Fl.fin_div hs.ne']
  congr 1
  field_simp
  ring

/-- the scores 4 and 2 of `sortArr` meet the hypotheses of `C113_normalized` -/
example : ∃ (rd : Reader String ℝ) (res : Result String ℝ) (q : List ℝ), runMOS rd {} = .ok res ∧ res.qualityScores = q.map .fin ∧
    ∃ x ∈ q, ∃ y ∈ q, x ≠ y := by
  obtain ⟨rd, res, -, -, h, hq, -⟩ := C110_refuted
  exact ⟨rd, res, [4, 2], h, by rw [hq]; rfl, 4, by simp, 2, by simp, by norm_num⟩

end Sureal.Props
