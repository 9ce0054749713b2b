import Verif.Lemmas.Main
import Verif.Props.LogLik
import Verif.Props.ObsCi
/-! # C117-C119: the command line program -/
set_option linter.unusedSectionVars false
namespace Sureal.Props
open Sureal Spec Routine Format Main
variable {κ : Type} [LinearOrder κ]

/-- the names of the models belong to their classes -/
theorem class_of_name {T : String} {run : Reader κ ℝ → Py (Result κ ℝ)} (h : (T, run) ∈ runsByName) :
    ∃ c : ModelClass, c.ownType = some T ∧ (∀ other, runClass other c = run) ∧ Usable c := by
  simp only [runsByName, List.mem_cons, Prod.mk.injEq, List.not_mem_nil, or_false] at h
  rcases h with ⟨rfl, rfl⟩ | ⟨rfl, rfl⟩ | ⟨rfl, rfl⟩ | ⟨rfl, rfl⟩ | ⟨rfl, rfl⟩ | ⟨rfl, rfl⟩ | ⟨rfl, rfl⟩ | ⟨rfl, rfl⟩ | ⟨rfl, rfl⟩ |
    ⟨rfl, rfl⟩ | ⟨rfl, rfl⟩ | ⟨rfl, rfl⟩ | ⟨rfl, rfl⟩ | ⟨rfl, rfl⟩ | ⟨rfl, rfl⟩ | ⟨rfl, rfl⟩ | ⟨rfl, rfl⟩ | ⟨rfl, rfl⟩ | ⟨rfl, rfl⟩ |
    ⟨rfl, rfl⟩ | ⟨rfl, rfl⟩ | ⟨rfl, rfl⟩ | ⟨rfl, rfl⟩ | ⟨rfl, rfl⟩ | ⟨rfl, rfl⟩ | ⟨rfl, rfl⟩ | ⟨rfl, rfl⟩
  · exact ⟨.MosModel, rfl, fun _ => rfl, by decide +kernel⟩
  · exact ⟨.DmosModel, rfl, fun _ => rfl, by decide +kernel⟩
  · exact ⟨.LiveDmosModel, rfl, fun _ => rfl, by decide +kernel⟩
  · exact ⟨.SubjrejMosModel, rfl, fun _ => rfl, by decide +kernel⟩
  · exact ⟨.SubjrejMosModelPearson, rfl, fun _ => rfl, by decide +kernel⟩
  · exact ⟨.SubjrejMosModelSpearman, rfl, fun _ => rfl, by decide +kernel⟩
  · exact ⟨.ZscoringMosModel, rfl, fun _ => rfl, by decide +kernel⟩
  · exact ⟨.ZscoringSubjrejMosModel, rfl, fun _ => rfl, by decide +kernel⟩
  · exact ⟨.SubjrejDmosModel, rfl, fun _ => rfl, by decide +kernel⟩
  · exact ⟨.ZscoringSubjrejDmosModel, rfl, fun _ => rfl, by decide +kernel⟩
  · exact ⟨.BiasremvMosModel, rfl, fun _ => rfl, by decide +kernel⟩
  · exact ⟨.BiasremvSubjrejMosModel, rfl, fun _ => rfl, by decide +kernel⟩
  · exact ⟨.BiasremvSubjrejMosModelPearson, rfl, fun _ => rfl, by decide +kernel⟩
  · exact ⟨.BiasremvSubjrejMosModelSpearman, rfl, fun _ => rfl, by decide +kernel⟩
  · exact ⟨.BT500Model, rfl, fun _ => rfl, by decide +kernel⟩
  · exact ⟨.P913124Model, rfl, fun _ => rfl, by decide +kernel⟩
  · exact ⟨.SubjectMLEModelProjectionSolver, rfl, fun _ => rfl, by decide +kernel⟩
  · exact ⟨.MaximumLikelihoodEstimationModelContentObliviousAlternativeProjection, rfl, fun _ => rfl, by decide +kernel⟩
  · exact ⟨.SubjectMLEModelProjectionSolver2, rfl, fun _ => rfl, by decide +kernel⟩
  · exact ⟨.MaximumLikelihoodEstimationModelContentObliviousAlternativeProjection2, rfl, fun _ => rfl, by decide +kernel⟩
  · exact ⟨.P910AnnexEModel, rfl, fun _ => rfl, by decide +kernel⟩
  · exact ⟨.MaximumLikelihoodEstimationModel, rfl, fun _ => rfl, by decide +kernel⟩
  · exact ⟨.MaximumLikelihoodEstimationModelContentOblivious, rfl, fun _ => rfl, by decide +kernel⟩
  · exact ⟨.MaximumLikelihoodEstimationModelSubjectOblivious, rfl, fun _ => rfl, by decide +kernel⟩
  · exact ⟨.MaximumLikelihoodEstimationDmosModel, rfl, fun _ => rfl, by decide +kernel⟩
  · exact ⟨.MaximumLikelihoodEstimationDmosModelContentOblivious, rfl, fun _ => rfl, by decide +kernel⟩
  · exact ⟨.LegacyMaximumLikelihoodEstimationModel, rfl, fun _ => rfl, by decide +kernel⟩

/-- classes with the same TYPE are the same -/
theorem ownType_inj {c c' : ModelClass} {T : String} (h : c.ownType = some T) (h' : c'.ownType = some T) : c = c' := by
  have h1 := C66_package _ _ h
  have h2 := C66_package _ _ h'
  rw [h1] at h2
  exact Except.ok.inj h2

variable {ppf : Fl ℝ → ℕ → Fl ℝ} {other : ModelClass → Reader κ ℝ → Py (Result κ ℝ)}
  {pc : List ModelClass → Py (Output (String ⊕ κ) (Fl ℝ))} {path : List Char} {readPy readJson : Py (Dataset κ ℝ)} {d : Dataset κ ℝ}

theorem total_votes {a : Arr3D (Fl ℝ)} (hE : a.E = d.disVideos.length)
    (hp : ∀ (e : Fin a.E) (dv : DisVideo κ ℝ), d.disVideos[e.val]? = some dv → (present (videoCells a.get e)).Perm (numbersOf dv)) :
    votesOverall d = (votesIn a).length := by
  unfold votesOverall votesIn
  rw [List.length_flatMap]
  congr 1
  apply List.ext_getElem
  · simp [hE]
  · intro i h1 h2
    simp only [List.getElem_map, List.getElem_finRange, Fin.val_cast]
    rw [List.length_map] at h1
    exact (hp ⟨i, by rw [hE]; exact h1⟩ _ (List.getElem?_eq_getElem h1)).length_eq.symm

theorem standardError_perm {l l' : List ℝ} (h : l.Perm l') : standardError l = standardError l' := by
  have hs : sampleVar l = sampleVar l' := by
    unfold sampleVar sqDev
    rw [mean_perm h, h.length_eq, (h.map _).sum_eq]
  unfold standardError
  rw [h.length_eq, hs]

theorem halfWidth_eq (l : List ℝ) : halfWidth l = ci95Factor * standardError l := by
  unfold halfWidth standardError
  split
  · unfold ci95Factor Fl.dec
    rw [Fl.fin_mul]
    norm_num
  · simp

theorem mos_standardError {a : Arr3D (Fl ℝ)} (hc : CleanVotes a) (e : Fin a.E) :
    Np.nanstd 1 (rowL (stack1 a.get) e) / (((Np.countNotNan (rowL (stack1 a.get) e) : ℕ)) : Fl ℝ).sqrt =
      standardError (present (videoCells a.get e)) := by
  rw [nanstd1_row a.get e (hc e), countNotNan_row a.get e (hc e)]
  unfold standardError
  split
  · rename_i h2
    have hval : sampleStdOrNan (videoCells a.get e) = .fin (Real.sqrt (sampleVar (present (videoCells a.get e)))) := by
      unfold sampleStdOrNan
      match h : present (videoCells a.get e) with
      | [] => simp [h] at h2
      | [x] => simp [h] at h2
      | x :: y :: xs => rfl
    rw [hval, Fl.natCast_def, Fl.sqrt_fin (Nat.cast_nonneg _), Fl.fin_div]
    · rfl
    · show Real.sqrt _ ≠ 0
      rw [Real.sqrt_ne_zero']
      have : 0 < (present (videoCells a.get e)).length := by omega
      exact_mod_cast this
  · rename_i h2
    have hval : sampleStdOrNan (videoCells a.get e) = .nan := by
      unfold sampleStdOrNan
      match h : present (videoCells a.get e) with
      | [] => rfl
      | [x] => rfl
      | x :: y :: xs => simp [h] at h2
    rw [hval]
    simp

theorem main_mos (hl : Loads path readPy readJson d) {rd : Reader κ ℝ} {a : Arr3D (Fl ℝ)} (hrd : rawReader d = .ok rd)
    (hdv : rd.disVideos = d.disVideos) (ha : rd.scores = .ok a) (hE : a.E = d.disVideos.length) (hc : CleanVotes a) (hob : Named rd a.S)
    (h2 : 2 ≤ (votesIn a).length) :
    ∃ st out, main ppf other pc path readPy readJson ["MOS"] = .ok out ∧
      format observerName (refsOf d) ["MOS"] [resOf ppf ⟨mosResult rd a, d.disVideos.map (·.path), st⟩] = .ok out := by
  have hg := mos_good other ha hc hob h2
  have hg' : Good other rd rd.disVideos.length a.S .MosModel (mosResult rd a) :=
    ⟨hg.1, hg.2.1, Fits.cast (by rw [hE, hdv]) hg.2.2.1, hg.2.2.2⟩
  obtain ⟨reports, hf, hrun⟩ := runAll_good ppf other (cs := [.MosModel]) hl hrd (fun c hcm => by
    rw [List.mem_singleton] at hcm
    subst hcm
    exact ⟨_, hg'⟩)
  obtain ⟨out, hout⟩ := format_good ppf other (d := d) hf
  have hmain := main_raw ppf other pc (path := path) (readPy := readPy) (readJson := readJson)
    (models := ["MOS"]) (cs := [.MosModel]) (List.Forall₂.cons rfl List.Forall₂.nil) (by simp) (by
      intro c hcm
      rw [List.mem_singleton] at hcm
      subst hcm
      decide +kernel)
  rw [hrun, hout] at hmain
  cases hf with
  | cons h1 h3 =>
    cases h3
    rename_i rep
    obtain ⟨⟨h4, -⟩, h5⟩ := h1
    obtain ⟨res, names, st⟩ := rep
    dsimp only at h4 h5
    rw [hg'.1] at h4
    cases h4
    subst h5
    refine ⟨st, out, hmain, ?_⟩
    rw [← hdv]
    exact hout

/-- **C117.** The program with the model MOS on a dataset of opinion scores in Python or JSON: if there are two votes or more, the
output has one entry for each distorted video, in the order of the dataset, with its path, the mean of its votes, their standard error and
the half widths of the interval (NaN for fewer than two votes), and no entries of observers or contents. With fewer votes there is no
output but an exception. -/
theorem C117_mos (h : Readable d) (hl : Loads path readPy readJson d) :
    (2 ≤ votesOverall d → ∃ out, main ppf other pc path readPy readJson ["MOS"] = .ok out ∧
      (out.disVideos.getD []).length = d.disVideos.length ∧ out.observers.getD [] = [] ∧ out.contents.getD [] = [] ∧
      ∀ (i : ℕ) (dv : DisVideo κ ℝ), d.disVideos[i]? = some dv →
        nameIn out.disVideos i = some (.inl dv.path) ∧
        numberIn out.disVideos i "MOS" "quality_score" = some (.one (meanOrNan (videoVotes dv))) ∧
        numberIn out.disVideos i "MOS" "quality_score_std" = some (.one (standardError (numbersOf dv))) ∧
        numberIn out.disVideos i "MOS" "quality_score_ci95" = some (.row [halfWidth (numbersOf dv), halfWidth (numbersOf dv)])) ∧
    (votesOverall d < 2 → main ppf other pc path readPy readJson ["MOS"] = .error .value) := by
  obtain ⟨rd, a, hrd, hdv, ha, hE, hc, hp, hob⟩ := reads h
  have ht := total_votes hE hp
  refine ⟨fun h2 => ?_, fun h2 => ?_⟩
  · obtain ⟨st, out, hout, hfmt⟩ := main_mos (ppf := ppf) (other := other) (pc := pc) hl hrd hdv ha hE hc hob (by rw [← ht]; exact h2)
    refine ⟨out, hout, ?_, ?_, ?_, ?_⟩
    · apply le_antisymm
      · by_contra hlt
        push Not at hlt
        obtain ⟨r, hr, hlt'⟩ := (C69_names _ _ _ _ out hfmt d.disVideos.length).2.2.2.1.mp hlt
        rw [List.mem_singleton] at hr
        subst hr
        simp [videoNames, resOf] at hlt'
      · by_contra hlt
        push Not at hlt
        have := (C69_names _ _ _ _ out hfmt (out.disVideos.getD []).length).2.2.2.1.mpr
          ⟨_, List.mem_singleton_self _, by simpa [videoNames, resOf] using hlt⟩
        exact lt_irrefl _ this
    · by_contra hne
      have hpos : 0 < (out.observers.getD []).length := List.length_pos_of_ne_nil hne
      obtain ⟨r, hr, hlt'⟩ := (C69_names _ _ _ _ out hfmt 0).2.2.2.2.1.mp hpos
      rw [List.mem_singleton] at hr
      subst hr
      exact absurd hlt' (Nat.not_lt_zero _)
    · by_contra hne
      have hpos : 0 < (out.contents.getD []).length := List.length_pos_of_ne_nil hne
      obtain ⟨r, hr, hlt'⟩ := (C69_names _ _ _ _ out hfmt 0).2.2.2.2.2.mp hpos
      rw [List.mem_singleton] at hr
      subst hr
      exact absurd hlt' (Nat.not_lt_zero _)
    · intro i dv hi
      have hlt : i < d.disVideos.length := (List.getElem?_eq_some_iff.mp hi).1
      have hltE : i < a.E := by rw [hE]; exact hlt
      have hperm := hp ⟨i, hltE⟩ dv hi
      have hpl := fun k => (C69_placement_partial _ _ _ _ out hfmt (by simp) "MOS" _ (List.mem_singleton_self _) i k).1
      have hse : standardError (numbersOf dv) = Np.nanstd 1 (rowL (stack1 a.get) ⟨i, hltE⟩) /
          (((Np.countNotNan (rowL (stack1 a.get) ⟨i, hltE⟩) : ℕ)) : Fl ℝ).sqrt := by
        rw [mos_standardError hc, standardError_perm hperm]
      refine ⟨?_, ?_, ?_, ?_⟩
      · refine ((C69_names _ _ _ _ out hfmt i).1 _).mpr ⟨_, List.mem_singleton_self _, ?_⟩
        show ((d.disVideos.map (·.path)).map Sum.inl)[i]? = _
        rw [List.getElem?_map, List.getElem?_map, hi]
        rfl
      · rw [hpl]
        show ((List.ofFn (meanAlongS a.get))[i]?).map Cell.one = _
        rw [List.getElem?_ofFn, dif_pos hltE, meanAlongS_spec a.get _ (hc _), meanOrNan_perm (l' := videoVotes dv) hperm]
        rfl
      · rw [hpl, hse]
        show ((List.ofFn _)[i]?).map Cell.one = _
        rw [List.getElem?_ofFn, dif_pos hltE]
        rfl
      · rw [hpl, halfWidth_eq, hse]
        show intervalAt (bounds (List.ofFn _, List.ofFn _)) i = _
        unfold intervalAt bounds
        dsimp only
        rw [List.getElem?_ofFn, dif_pos hltE]
  · obtain ⟨l1, l2⟩ := loads_read hl
    rw [main_raw ppf other pc (cs := [.MosModel]) (List.Forall₂.cons rfl List.Forall₂.nil) (by simp) (by
      intro c hcm
      rw [List.mem_singleton] at hcm
      subst hcm
      decide +kernel)]
    have hbad := mos_bad ha hc hob (by rw [← ht]; exact h2)
    unfold runAll Routine.run
    rw [l1]
    dsimp only
    rw [hrd]
    dsimp only
    have h1 : mapPy (fun m => m rd) ([ModelClass.MosModel].map (runClass other)) = .ok [mosResult rd a] := by
      simp only [List.map_cons, List.map_nil, mapPy]
      rw [show runClass other .MosModel rd = .ok (mosResult rd a) from mos_run ha hob]
    rw [h1]
    simp only [mapPy]
    rw [hbad]

/-- a successful run: every model ran, and the reports were put together -/
theorem main_reports {models : List String} (hnd : models.Nodup) (hne : models ≠ [])
    (hm : ∀ T ∈ models, ∃ run, (T, run) ∈ (runsByName : List (String × (Reader κ ℝ → Py (Result κ ℝ))))) {out : Output (String ⊕ κ) (Fl ℝ)}
    (h : main ppf other pc path readPy readJson models = .ok out) :
    ∃ d rd reports, Loads path readPy readJson d ∧ rawReader d = .ok rd ∧ format observerName (refsOf d) models (reports.map (resOf ppf)) = .ok out ∧
      ∀ T run, T ∈ models → (T, run) ∈ runsByName → ∃ rep ∈ (reports : List (Report κ ℝ)), run rd = .ok rep.result := by
  have hcs : ∃ cs : List ModelClass, List.Forall₂ (fun t c => c.ownType = some t) models cs ∧
      ∀ c ∈ cs, Usable c := by
    clear h hnd hne
    induction models with
    | nil => exact ⟨[], .nil, by simp⟩
    | cons T ts ih =>
      obtain ⟨cs, h1, h2⟩ := ih fun t ht => hm t (List.mem_cons_of_mem _ ht)
      obtain ⟨run, hr⟩ := hm T List.mem_cons_self
      obtain ⟨c, h3, -, h4⟩ := class_of_name hr
      exact ⟨c :: cs, .cons h3 h1, fun c' hc' => (List.mem_cons.mp hc').elim (fun e => e ▸ h4) (h2 c')⟩
  obtain ⟨cs, h1, h2⟩ := hcs
  have hcne : cs ≠ [] := by
    rintro rfl
    cases h1
    exact hne rfl
  rw [main_raw ppf other pc h1 hcne h2] at h
  unfold runAll at h
  split at h
  · cases h
  · rename_i reports hrun
    obtain ⟨d, rd, hl, hrd, hf⟩ := C94_run hrun
    rw [(loads_read hl).2] at h
    dsimp only at h
    rw [types_eq h1] at h
    refine ⟨d, rd, reports, hl, hrd, h, fun T run hT hr => ?_⟩
    obtain ⟨k, hk, rfl⟩ := List.getElem_of_mem hT
    have hkc : k < cs.length := by rw [← h1.length_eq]; exact hk
    have hkr : k < reports.length := by rw [← hf.length_eq, List.length_map]; exact hkc
    obtain ⟨c, hc1, hc2, -⟩ := class_of_name hr
    have hck : cs[k].ownType = some models[k] := by simpa using h1.get hk hkc
    have hc := ownType_inj hc1 hck
    have hfk := hf.get (by rw [List.length_map]; exact hkc) hkr
    simp only [List.get_eq_getElem, List.getElem_map] at hfk
    rw [← hc, hc2 other] at hfk
    exact ⟨reports[k], List.getElem_mem _, hfk.1⟩

/-- a successful run: every model ran, and its numbers were placed under its name -/
theorem main_placed {models : List String} (hnd : models.Nodup) (hne : models ≠ [])
    (hm : ∀ T ∈ models, ∃ run, (T, run) ∈ (runsByName : List (String × (Reader κ ℝ → Py (Result κ ℝ))))) {out : Output (String ⊕ κ) (Fl ℝ)}
    (h : main ppf other pc path readPy readJson models = .ok out) :
    ∃ d rd, Loads path readPy readJson d ∧ rawReader d = .ok rd ∧ ∀ T run, T ∈ models → (T, run) ∈ runsByName →
      ∃ rep : Report κ ℝ, run rd = .ok rep.result ∧ ∀ (i : ℕ) (key : String),
        numberIn out.disVideos i T key = videoNumber (resOf ppf rep) i key ∧ numberIn out.observers i T key = observerNumber (resOf ppf rep) i key ∧
        numberIn out.contents i T key = contentNumber (resOf ppf rep) i key ∧ statIn out T key = statNumber (resOf ppf rep) key := by
  have hcs : ∃ cs : List ModelClass, List.Forall₂ (fun t c => c.ownType = some t) models cs ∧
      ∀ c ∈ cs, Usable c := by
    clear h hnd hne
    induction models with
    | nil => exact ⟨[], .nil, by simp⟩
    | cons T ts ih =>
      obtain ⟨cs, h1, h2⟩ := ih fun t ht => hm t (List.mem_cons_of_mem _ ht)
      obtain ⟨run, hr⟩ := hm T List.mem_cons_self
      obtain ⟨c, h3, -, h4⟩ := class_of_name hr
      exact ⟨c :: cs, .cons h3 h1, fun c' hc' => (List.mem_cons.mp hc').elim (fun e => e ▸ h4) (h2 c')⟩
  obtain ⟨cs, h1, h2⟩ := hcs
  have hcne : cs ≠ [] := by
    rintro rfl
    cases h1
    exact hne rfl
  rw [main_raw ppf other pc h1 hcne h2] at h
  unfold runAll at h
  split at h
  · cases h
  · rename_i reports hrun
    obtain ⟨d, rd, hl, hrd, hf⟩ := C94_run hrun
    rw [(loads_read hl).2] at h
    dsimp only at h
    rw [types_eq h1] at h
    refine ⟨d, rd, hl, hrd, fun T run hT hr => ?_⟩
    obtain ⟨k, hk, rfl⟩ := List.getElem_of_mem hT
    have hkc : k < cs.length := by rw [← h1.length_eq]; exact hk
    have hkr : k < reports.length := by rw [← hf.length_eq, List.length_map]; exact hkc
    obtain ⟨c, hc1, hc2, -⟩ := class_of_name hr
    have hck : cs[k].ownType = some models[k] := by simpa using h1.get hk hkc
    have hc := ownType_inj hc1 hck
    have hfk := hf.get (by rw [List.length_map]; exact hkc) hkr
    simp only [List.get_eq_getElem, List.getElem_map] at hfk
    rw [← hc, hc2 other] at hfk
    have hzip : (models[k], resOf ppf reports[k]) ∈ models.zip (reports.map (resOf ppf)) :=
      List.mem_iff_getElem.mpr ⟨k, by simp [hk, hkr], by simp⟩
    exact ⟨reports[k], hfk.1, fun i key => C69_placement_partial _ _ _ _ out h hnd _ _ hzip i key⟩

/-- **C117.** A successful run of the program with different models, all of which are among those for opinion scores: the dataset was
read from the file, each model ran on what the reader took from it, without options, and what the output holds under the name of a model are
the numbers this model returned, each at its position. -/
theorem C117_any {models : List String} (hnd : models.Nodup) (hne : models ≠ [])
    (hm : ∀ T ∈ models, ∃ run, (T, run) ∈ (runsByName : List (String × (Reader κ ℝ → Py (Result κ ℝ))))) {out : Output (String ⊕ κ) (Fl ℝ)}
    (h : main ppf other pc path readPy readJson models = .ok out) :
    ∃ d rd, Loads path readPy readJson d ∧ rawReader d = .ok rd ∧ ∀ T run, T ∈ models → (T, run) ∈ runsByName →
      ∃ r, run rd = .ok r ∧ ∀ i : ℕ,
        numberIn out.disVideos i T "quality_score" = r.qualityScores[i]?.map .one ∧
        numberIn out.disVideos i T "quality_score_std" = (r.qualityScoresStd.bind (·[i]?)).map .one ∧
        numberIn out.disVideos i T "quality_score_ci95" =
          (r.qualityScoresCi95.bind fun p => p.1[i]?.bind fun x => p.2[i]?.map fun y => .row [x, y]) ∧
        numberIn out.observers i T "observer_bias" = (r.observerBias.bind (·[i]?)).map .one ∧
        (r.observerBias ≠ none →
          numberIn out.observers i T "observer_bias_std" = (r.observerBiasStd.bind (·[i]?)).map .one ∧
          numberIn out.observers i T "observer_inconsistency" = (r.observerInconsistency.bind (·[i]?)).map .one ∧
          numberIn out.observers i T "observer_inconsistency_std" = (r.observerInconsistencyStd.bind (·[i]?)).map .one ∧
          numberIn out.observers i T "observer_scores_mean" = (r.observerScoresMean.bind (·[i]?)).map .one ∧
          numberIn out.observers i T "observer_scores_std" = (r.observerScoresStd.bind (·[i]?)).map .one) ∧
        numberIn out.contents i T "content_ambiguity" = (r.contentAmbiguity.bind (·[i]?)).map .one ∧
        (r.contentAmbiguity ≠ none →
          numberIn out.contents i T "content_ambiguity_std" = (r.contentAmbiguityStd.bind (·[i]?)).map .one) ∧
        statIn out T "aic" = r.aic.map .num ∧ statIn out T "bic" = r.bic.map .num := by
  obtain ⟨d, rd, hl, hrd, hall⟩ := main_placed hnd hne hm h
  refine ⟨d, rd, hl, hrd, fun T run hT hr => ?_⟩
  obtain ⟨rep, hrun, hp'⟩ := hall T run hT hr
  refine ⟨rep.result, hrun, fun i => ?_⟩
  have hp := hp' i
  refine ⟨?_, ?_, ?_, ?_, ?_, ?_, ?_, ?_, ?_⟩
  · rw [(hp _).1]; rfl
  · rw [(hp _).1]
    show (rep.result.qualityScoresStd.map Val.seq).bind (entryAt · i) = _
    cases rep.result.qualityScoresStd <;> rfl
  · rw [(hp _).1]
    show (rep.result.qualityScoresCi95.map bounds).bind (intervalAt · i) = _
    cases rep.result.qualityScoresCi95 with
    | none => rfl
    | some p =>
      show intervalAt (.rows [p.1, p.2]) i = p.1[i]?.bind fun x => p.2[i]?.map fun y => .row [x, y]
      unfold intervalAt
      dsimp only
      generalize p.1[i]? = u
      generalize p.2[i]? = v
      cases u <;> cases v <;> rfl
  · rw [(hp _).2.1]
    show (if (rep.result.observerBias.map Val.seq).isNone then none else (rep.result.observerBias.map Val.seq).bind (entryAt · i)) = _
    cases rep.result.observerBias <;> rfl
  · intro hb
    have hb' : ((resOf ppf rep).data "observer_bias").isNone = false := by
      show (rep.result.observerBias.map Val.seq).isNone = false
      cases hb0 : rep.result.observerBias with
      | none => exact absurd hb0 hb
      | some _ => rfl
    have gen : ∀ key (o : Option (List (Fl ℝ))), key ∈ ["observer_bias", "observer_bias_std", "observer_inconsistency",
        "observer_inconsistency_std", "observer_scores_mean", "observer_scores_std"] → (resOf ppf rep).data key = o.map .seq →
        numberIn out.observers i T key = (o.bind (·[i]?)).map .one := by
      intro key o hk ho
      rw [(hp _).2.1]
      unfold observerNumber
      rw [hb', if_neg (by simp), if_pos hk, ho]
      cases o <;> rfl
    exact ⟨gen _ _ (by decide) rfl, gen _ _ (by decide) rfl, gen _ _ (by decide) rfl, gen _ _ (by decide) rfl,
      gen _ _ (by decide) rfl⟩
  · rw [(hp _).2.2.1]
    show (if (rep.result.contentAmbiguity.map Val.seq).isNone then none else (rep.result.contentAmbiguity.map Val.seq).bind (entryAt · i)) = _
    cases rep.result.contentAmbiguity <;> rfl
  · intro hb
    rw [(hp _).2.2.1]
    show (if (rep.result.contentAmbiguity.map Val.seq).isNone then none else (rep.result.contentAmbiguityStd.map Val.seq).bind (entryAt · i)) = _
    cases hb0 : rep.result.contentAmbiguity with
    | none => exact absurd hb0 hb
    | some _ => cases rep.result.contentAmbiguityStd <;> rfl
  · rw [(hp _).2.2.2]; rfl
  · rw [(hp _).2.2.2]; rfl

/-- **C117.** The names of the observers in the output, if one of the models estimates biases: the keys of the observers in the dataset if it has
them, and otherwise `observer0`, `observer1` and so on. -/
theorem C117_observer_names {models : List String} (hnd : models.Nodup) (hne : models ≠ [])
    (hm : ∀ T ∈ models, ∃ run, (T, run) ∈ (runsByName : List (String × (Reader κ ℝ → Py (Result κ ℝ))))) {out : Output (String ⊕ κ) (Fl ℝ)}
    (h : main ppf other pc path readPy readJson models = .ok out) :
    ∃ d rd, Loads path readPy readJson d ∧ rawReader d = .ok rd ∧ ∀ T run, T ∈ models → (T, run) ∈ runsByName →
      ∃ r, run rd = .ok r ∧ ∀ b, r.observerBias = some b → ∀ i,
        (r.observers = none → i < b.length → nameIn out.observers i = some (.inl ("observer" ++ toString i))) ∧
        ∀ obs k, r.observers = some obs → obs[i]? = some k → nameIn out.observers i = some (.inr k) := by
  obtain ⟨d, rd, reports, hl, hrd, hfmt, hall⟩ := main_reports hnd hne hm h
  refine ⟨d, rd, hl, hrd, fun T run hT hr => ?_⟩
  obtain ⟨rep, hmem, hrun⟩ := hall T run hT hr
  refine ⟨rep.result, hrun, fun b hb i => ?_⟩
  have hdata : (resOf ppf rep).data "observer_bias" = some (.seq b) := by
    show rep.result.observerBias.map Val.seq = _
    rw [hb]; rfl
  have hmem' : resOf ppf rep ∈ reports.map (resOf ppf) := List.mem_map_of_mem hmem
  have hn := (C69_names _ _ _ _ out hfmt i).2.1
  refine ⟨fun ho hi => (hn _).mpr ⟨_, hmem', ?_⟩, fun obs k ho hk => (hn _).mpr ⟨_, hmem', ?_⟩⟩
  · unfold observerNames
    rw [hdata]
    dsimp only
    have : (resOf ppf rep).observers = none := by
      show rep.result.observers.map _ = none
      rw [ho]; rfl
    rw [this]
    dsimp only
    rw [List.getElem?_map, List.getElem?_range (show i < sizeOf' (Val.seq b) from hi)]
    rfl
  · unfold observerNames
    rw [hdata]
    dsimp only
    have : (resOf ppf rep).observers = some (obs.map .inr) := by
      show rep.result.observers.map _ = _
      rw [ho]; rfl
    rw [this]
    dsimp only
    rw [List.getElem?_map, hk]
    rfl

/-- the names of the models for paired comparisons -/
def pairedNames : List (String × ModelClass) :=
  [("THURSTONE_MLE", .ThurstoneMlePairedCompSubjectiveModel), ("BT_MLE", .BradleyTerryMlePairedCompSubjectiveModel),
    ("BT_NR", .BradleyTerryNewtonRaphsonPairedCompSubjectiveModel)]

theorem paired_class {t : String} {c : ModelClass} (h : (t, c) ∈ pairedNames) :
    c.ownType = some t ∧ c.module ≠ .experimental ∧ inMro .PairedCompSubjectiveModel c = true := by
  simp only [pairedNames, List.mem_cons, Prod.mk.injEq, List.not_mem_nil, or_false] at h
  rcases h with ⟨rfl, rfl⟩ | ⟨rfl, rfl⟩ | ⟨rfl, rfl⟩ <;> exact ⟨rfl, by decide, by decide⟩

/-- **C117.** With models for paired comparisons only, the program does what is done for these models; nothing is read as opinion scores. -/
theorem C117_paired {models : List String} {cs : List ModelClass} (h : List.Forall₂ (fun t c => (t, c) ∈ pairedNames) models cs) (hne : models ≠ []) :
    main ppf other pc path readPy readJson models = pc cs := by
  have h1 : List.Forall₂ (fun t c => c.ownType = some t) models cs := h.imp fun _ _ h => (paired_class h).1
  have h2 : ∀ c ∈ cs, ∃ t, (t, c) ∈ pairedNames := by
    intro c hc
    obtain ⟨k, hk, rfl⟩ := List.getElem_of_mem hc
    exact ⟨_, h.get (by rw [h.length_eq]; exact hk) hk⟩
  unfold main
  rw [findAll_types h1 fun c hc => (paired_class (h2 c hc).choose_spec).2.1]
  dsimp only
  rw [((C78_reader (inMro .SubjectiveModel) (inMro .PairedCompSubjectiveModel) cs (fun c _ => inMro_subj c)).2.1).mpr
    ⟨by rintro rfl; cases h; exact hne rfl, fun c hc => (paired_class (h2 c hc).choose_spec).2.2⟩]

/-- **C117.** Models for opinion scores and models for paired comparisons together are refused. -/
theorem C117_mixed {models : List String} {t T : String} {c : ModelClass} (ht : t ∈ models) (hc : (t, c) ∈ pairedNames)
    {run : Reader κ ℝ → Py (Result κ ℝ)} (hT : T ∈ models) (hr : (T, run) ∈ runsByName)
    (hall : ∀ T ∈ models, (∃ c, (T, c) ∈ pairedNames) ∨ ∃ run, (T, run) ∈ (runsByName : List (String × (Reader κ ℝ → Py (Result κ ℝ))))) :
    main ppf other pc path readPy readJson models = .error .assertion := by
  have hcs : ∃ cs : List ModelClass, List.Forall₂ (fun t c => c.ownType = some t) models cs ∧ ∀ c ∈ cs, c.module ≠ .experimental := by
    clear ht hT
    induction models with
    | nil => exact ⟨[], .nil, by simp⟩
    | cons T ts ih =>
      obtain ⟨cs, h1, h2⟩ := ih fun t ht => hall t (List.mem_cons_of_mem _ ht)
      obtain ⟨c, h3, h4⟩ : ∃ c : ModelClass, c.ownType = some T ∧ c.module ≠ .experimental := by
        rcases hall T List.mem_cons_self with ⟨c, hc⟩ | ⟨run, hr⟩
        · exact ⟨c, (paired_class hc).1, (paired_class hc).2.1⟩
        · obtain ⟨c, h3, -, h4⟩ := class_of_name hr
          exact ⟨c, h3, h4.2⟩
      exact ⟨c :: cs, .cons h3 h1, fun c' hc' => (List.mem_cons.mp hc').elim (fun e => e ▸ h4) (h2 c')⟩
  obtain ⟨cs, h1, h2⟩ := hcs
  have hmem : ∀ T ∈ models, ∀ c : ModelClass, c.ownType = some T → c ∈ cs := by
    intro T hT c hc
    obtain ⟨k, hk, rfl⟩ := List.getElem_of_mem hT
    have hk' : k < cs.length := by rw [← h1.length_eq]; exact hk
    rw [ownType_inj hc (h1.get hk hk')]
    exact List.getElem_mem _
  unfold main
  rw [findAll_types h1 h2]
  dsimp only
  obtain ⟨c', h3, -, h4⟩ := class_of_name hr
  rw [((C78_reader (inMro .SubjectiveModel) (inMro .PairedCompSubjectiveModel) cs (fun c _ => inMro_subj c)).2.2).mpr
    (Or.inr ⟨⟨c, hmem t ht c (paired_class hc).1, (paired_class hc).2.2⟩, ⟨c', hmem T hT c' h3, h4.1⟩⟩)]

example : main ppf other pc path readPy readJson ["THURSTONE_MLE", "BT_MLE"] =
    pc [.ThurstoneMlePairedCompSubjectiveModel, .BradleyTerryMlePairedCompSubjectiveModel] :=
  C117_paired (.cons (by simp [pairedNames]) (.cons (by simp [pairedNames]) .nil)) (by simp)

example : main ppf other pc path readPy readJson ["MOS", "BT_MLE"] = .error .assertion :=
  C117_mixed (t := "BT_MLE") (T := "MOS") (c := .BradleyTerryMlePairedCompSubjectiveModel) (run := (runMOS · {})) (by simp) (by simp [pairedNames]) (by simp)
    (by unfold runsByName; exact List.mem_cons_self) (by
      intro T hT
      simp only [List.mem_cons, List.not_mem_nil, or_false] at hT
      rcases hT with rfl | rfl
      · exact Or.inr ⟨_, by unfold runsByName; exact List.mem_cons_self⟩
      · exact Or.inl ⟨_, by simp [pairedNames]; exact rfl⟩)

/-- **C117.** The intervals in the output: for a bias (or an ambiguity) 1.95996 standard deviations on either side; for the inconsistency
`v` of an observer with `n` votes the distances from `v` to `v √(n / d)` and to `v √(n / c)`, where `c` and `d` are the 2.5% and
the 97.5% quantile of the chi-square distribution with `n` degrees of freedom. -/
theorem C117_intervals {models : List String} (hnd : models.Nodup) (hne : models ≠ [])
    (hm : ∀ T ∈ models, ∃ run, (T, run) ∈ (runsByName : List (String × (Reader κ ℝ → Py (Result κ ℝ))))) {out : Output (String ⊕ κ) (Fl ℝ)}
    (h : main ppf other pc path readPy readJson models = .ok out) :
    ∃ d rd, Loads path readPy readJson d ∧ rawReader d = .ok rd ∧ ∀ T run, T ∈ models → (T, run) ∈ runsByName →
      ∃ r, run rd = .ok r ∧ ∀ i : ℕ,
        (∀ b stds, r.observerBias = some b → r.observerBiasStd = some stds → ∀ s : ℝ, stds[i]? = some (.fin s) →
          numberIn out.observers i T "observer_bias_ci95" = some (.row [.fin (195996 / 100000 * s), .fin (195996 / 100000 * s)])) ∧
        (∀ b stds, r.contentAmbiguity = some b → r.contentAmbiguityStd = some stds → ∀ s : ℝ, stds[i]? = some (.fin s) →
          numberIn out.contents i T "content_ambiguity_ci95" = some (.row [.fin (195996 / 100000 * s), .fin (195996 / 100000 * s)])) ∧
        ∀ (b vs stds : List (Fl ℝ)) (x : Arr3D (Fl ℝ)), r.observerBias = some b → r.observerInconsistency = some vs →
          r.observerInconsistencyStd = some stds → r.rawScores = some x → (∀ e s q, NumOrNan (x.get e s q)) → ∀ (hi : i < x.S) (v : ℝ), vs[i]? = some (.fin v) →
          ∀ (n : ℕ) (c' d' : ℝ), n = (present (observerCells x.get ⟨i, hi⟩)).length → n ≠ 0 → QuantilesAt ppf n c' d' →
            numberIn out.observers i T "observer_inconsistency_ci95" =
              some (.row [.fin (v - v * Real.sqrt (n / d')), .fin (v * Real.sqrt (n / c') - v)]) := by
  obtain ⟨d, rd, hl, hrd, hall⟩ := main_placed hnd hne hm h
  refine ⟨d, rd, hl, hrd, fun T run hT hr => ?_⟩
  obtain ⟨rep, hrun, hp⟩ := hall T run hT hr
  have hfac : ∀ s : ℝ, ci95Factor * Fl.fin s = Fl.fin (195996 / 100000 * s) := by
    intro s
    unfold ci95Factor Fl.dec
    rw [Fl.fin_mul]
    norm_num
  have hhalf : ∀ (stds : List (Fl ℝ)) (i : ℕ) (s : ℝ), stds[i]? = some (.fin s) →
      intervalAt (halfWidths stds) i = some (.row [.fin (195996 / 100000 * s), .fin (195996 / 100000 * s)]) := by
    intro stds i s hs
    unfold intervalAt halfWidths
    dsimp only
    rw [List.getElem?_map, hs, ← hfac s]
    rfl
  refine ⟨rep.result, hrun, fun i => ⟨?_, ?_, ?_⟩⟩
  · intro b stds hb hstd s hs
    rw [(hp i _).2.1]
    show (if (rep.result.observerBias.map Val.seq).isNone then none else (rep.result.observerBiasStd.map halfWidths).bind (intervalAt · i)) = _
    rw [hb, hstd]
    exact hhalf stds i s hs
  · intro b stds hb hstd s hs
    rw [(hp i _).2.2.1]
    show (if (rep.result.contentAmbiguity.map Val.seq).isNone then none else (rep.result.contentAmbiguityStd.map halfWidths).bind (intervalAt · i)) = _
    rw [hb, hstd]
    exact hhalf stds i s hs
  · intro b vs stds x hb hvs hstd hx hc hi v hv n c' d' hn hn0 hq
    rw [(hp i _).2.1]
    show (if (rep.result.observerBias.map Val.seq).isNone then none else (inconsistencyBounds ppf rep.result).bind (intervalAt · i)) = _
    rw [hb]
    show (inconsistencyBounds ppf rep.result).bind (intervalAt · i) = _
    unfold inconsistencyBounds
    rw [hx, hvs, hstd]
    show intervalAt (bounds (ObsCi.inconsistencyCi95 ppf x.get fun i => (vs[i.val]?).getD .nan)) i = _
    have hcnt : ObsCi.cnt x.get ⟨i, hi⟩ = n := by
      unfold ObsCi.cnt
      have hcl : Np.Clean (colL (stack0 x.get) ⟨i, hi⟩) := by
        intro y hy
        obtain ⟨e, q, hyq⟩ := (mem_observerCells x.get ⟨i, hi⟩ y).mp ((colL_stack0_perm x.get ⟨i, hi⟩).mem_iff.mp hy)
        rw [← hyq]
        exact hc e _ q
      rw [Np.countNotNan_eq hcl, hn]
      exact (Np.present_perm (colL_stack0_perm x.get ⟨i, hi⟩)).length_eq
    unfold intervalAt bounds ObsCi.inconsistencyCi95
    dsimp only
    rw [List.getElem?_ofFn, List.getElem?_ofFn, dif_pos hi, dif_pos hi]
    simp only [hcnt, hv, Option.getD_some]
    rw [ci_eq hn0 hq v]
    dsimp only
    rw [show (1 - Real.sqrt (n / d')) * v = v - v * Real.sqrt (n / d') by ring,
      show (Real.sqrt (n / c') - 1) * v = v * Real.sqrt (n / c') - v by ring]

/-- the documented models run to the end if every video was rated and every observer gave two votes or more -/
theorem documented_good {models : List String} (hm : ∀ T ∈ models, T ∈ documented) (hne : models ≠ []) (h : Readable d)
    (hv : ∀ dv ∈ d.disVideos, numbersOf dv ≠ []) (ho : EachVoted 2 d) :
    ∃ (rd : Reader κ ℝ) (a : Arr3D (Fl ℝ)) (cs : List ModelClass), rawReader d = .ok rd ∧ rd.scores = .ok a ∧ 0 < a.E ∧ 0 < a.S ∧
      EveryVideoRated a ∧ (∀ e s r, NumOrNan (a.get e s r)) ∧ rd.disVideos.length = a.E ∧ List.Forall₂ (fun t c => c.ownType = some t) models cs ∧ cs ≠ [] ∧
      ∀ c ∈ cs, Usable c ∧ ∃ r, Good other rd rd.disVideos.length a.S c r := by
  obtain ⟨rd, a, hrd, hdv, ha, hE, hc, hp, hob⟩ := reads h
  have h2 := fun s => each_voted h ho hrd ha s
  have hvid : ∀ e : Fin a.E, present (videoCells a.get e) ≠ [] := by
    intro e hnil
    have hlt : e.val < d.disVideos.length := by rw [← hE]; exact e.isLt
    have := hp e _ (List.getElem?_eq_getElem hlt)
    rw [hnil] at this
    exact hv _ (List.getElem_mem hlt) (List.nil_perm.mp this)
  have hEpos : 0 < a.E := by rw [hE]; exact List.length_pos_of_ne_nil h.wf.diss
  have hrated : EveryVideoRated a := by
    intro e
    obtain ⟨x, hx⟩ := List.exists_mem_of_ne_nil _ (hvid e)
    rw [mem_present] at hx
    obtain ⟨i, r, hir⟩ := (mem_videoCells a.get e _).mp hx
    exact ⟨i, r, by rw [hir]; simp⟩
  have hS : 0 < a.S := by
    obtain ⟨i, -⟩ := hrated ⟨0, hEpos⟩
    exact i.pos
  have hvoted : EveryObserverVoted a := by
    intro s
    have : 0 < (present (observerCells a.get s)).length := by have := h2 s; omega
    obtain ⟨x, hx⟩ := List.exists_mem_of_ne_nil _ (List.ne_nil_of_length_pos this)
    rw [mem_present] at hx
    obtain ⟨e, r, her⟩ := (mem_observerCells a.get s _).mp hx
    exact ⟨e, r, by rw [her]; simp⟩
  have hall : 2 ≤ (votesIn a).length := (h2 ⟨0, hS⟩).trans (votesIn_ge a _)
  have hgood : ∀ T ∈ documented, ∃ c : ModelClass, c.ownType = some T ∧ Usable c ∧
      ∃ r, Good other rd a.E a.S c r := by
    intro T hT
    simp only [documented, List.mem_cons, List.not_mem_nil, or_false] at hT
    rcases hT with rfl | rfl | rfl | rfl
    · exact ⟨.MosModel, rfl, by decide +kernel, _, mos_good other ha hc hob hall⟩
    · exact ⟨.P910AnnexEModel, rfl, by decide +kernel, p910_good other ha hc hob hrated hvoted hall⟩
    · exact ⟨.P913124Model, rfl, by decide +kernel, p913_good other ha hc hob hS h2⟩
    · exact ⟨.BT500Model, rfl, by decide +kernel, bt500_good other ha hc hob hS h2⟩
  have hcs : ∃ cs : List ModelClass, List.Forall₂ (fun t c => c.ownType = some t) models cs ∧
      ∀ c ∈ cs, Usable c ∧ ∃ r, Good other rd a.E a.S c r := by
    clear hne
    induction models with
    | nil => exact ⟨[], .nil, by simp⟩
    | cons T ts ih =>
      obtain ⟨cs, h3, h4⟩ := ih fun t ht => hm t (List.mem_cons_of_mem _ ht)
      obtain ⟨c, h5, h6⟩ := hgood T (hm T List.mem_cons_self)
      exact ⟨c :: cs, .cons h5 h3, fun c' hc' => (List.mem_cons.mp hc').elim (fun e => e ▸ h6) (h4 c')⟩
  obtain ⟨cs, h3, h4⟩ := hcs
  have hcne : cs ≠ [] := by
    rintro rfl
    cases h3
    exact hne rfl
  exact ⟨rd, a, cs, hrd, ha, hEpos, hS, hrated, hc, by rw [hE, hdv], h3, hcne, fun c hcm => ⟨(h4 c hcm).1, by
    obtain ⟨r, hr⟩ := (h4 c hcm).2
    exact ⟨r, hr.1, hr.2.1, Fits.cast (by rw [hE, hdv]) hr.2.2.1, hr.2.2.2⟩⟩⟩

/-- **C118 (partial).** If every video was rated and every observer gave two votes or more, every choice of the documented models
gives an output. -/
theorem C118_succeeds_partial {models : List String} (hm : ∀ T ∈ models, T ∈ documented) (hne : models ≠ []) (h : Readable d)
    (hl : Loads path readPy readJson d) (hv : ∀ dv ∈ d.disVideos, numbersOf dv ≠ []) (ho : EachVoted 2 d) :
    ∃ out, main ppf other pc path readPy readJson models = .ok out := by
  obtain ⟨rd, a, cs, hrd, -, -, -, -, -, -, h3, hcne, h4⟩ := documented_good (other := other) hm hne h hv ho
  obtain ⟨reports, hf, hrun⟩ := runAll_good ppf other hl hrd fun c hcm => (h4 c hcm).2
  obtain ⟨out, hout⟩ := format_good ppf other (d := d) hf
  exact ⟨out, by rw [main_raw ppf other pc h3 hcne fun c hcm => (h4 c hcm).1, hrun, hout]⟩

/-- **C119.** The output of the program for the model MOS holds only finite numbers, as JSON demands, if and only if every
video has at least two votes. -/
theorem C119_finite_iff (h : Readable d) (hl : Loads path readPy readJson d) (h2 : 2 ≤ votesOverall d) :
    ∃ out, main ppf other pc path readPy readJson ["MOS"] = .ok out ∧
      (AllFinite out ↔ ∀ dv ∈ d.disVideos, 2 ≤ (numbersOf dv).length) := by
  obtain ⟨out, hout, hlen, -, -, hnum⟩ := (C117_mos (ppf := ppf) (other := other) (pc := pc) h hl).1 h2
  refine ⟨out, hout, fun hf dv hdv => ?_, fun hall => ?_⟩
  · obtain ⟨i, hi, rfl⟩ := List.getElem_of_mem hdv
    obtain ⟨v, hv⟩ := hf.videos i _ _ _ (hnum i _ (List.getElem?_eq_getElem hi)).2.2.1 _ (List.mem_singleton_self _)
    by_contra hlt
    unfold standardError at hv
    rw [if_neg hlt] at hv
    cases hv
  · obtain ⟨rd, a, hrd, hdv, ha, hE, hc, hp, hob⟩ := reads h
    have ht := total_votes hE hp
    have ha2 : 2 ≤ (votesIn a).length := by rw [← ht]; exact h2
    obtain ⟨st, out', hout', hfmt⟩ := main_mos (ppf := ppf) (other := other) (pc := pc) hl hrd hdv ha hE hc hob ha2
    rw [hout] at hout'
    cases hout'
    have hw := fun i T k => C69_written _ _ _ _ out hfmt i T k
    have hT : ∀ {α : Type} {x : α} {T : String} (f : Res (String ⊕ κ) (Fl ℝ) → Option α),
        ((["MOS"].zip [resOf ppf ⟨mosResult rd a, d.disVideos.map (·.path), st⟩]).reverse.findSome? fun p => if T = p.1 then f p.2 else none)
          = some x → T = "MOS" ∧ f (resOf ppf ⟨mosResult rd a, d.disVideos.map (·.path), st⟩) = some x := by
      intro α x T f hx
      simp only [List.zip_cons_cons, List.zip_nil_right, List.reverse_singleton, List.findSome?_cons, List.findSome?_nil] at hx
      by_cases hTT : T = "MOS"
      · rw [if_pos hTT] at hx
        refine ⟨hTT, ?_⟩
        cases hfx : f (resOf ppf ⟨mosResult rd a, d.disVideos.map (·.path), st⟩) with
        | none => rw [hfx] at hx; exact hx
        | some y => rw [hfx] at hx; exact hx
      · rw [if_neg hTT] at hx
        cases hx
    refine ⟨?_, ?_, ?_, ?_⟩
    · intro i T k c hcell
      have hcell' := hcell
      rw [(hw i T k).1] at hcell
      obtain ⟨rfl, hval⟩ := hT (videoNumber · i k) hcell
      have hi : i < d.disVideos.length := by
        by_contra hge
        have hnone : numberIn out.disVideos i "MOS" k = none := by
          unfold numberIn
          rw [List.getElem?_eq_none (by rw [hlen]; omega)]
          rfl
        rw [hnone] at hcell'
        cases hcell'
      have hi' := List.getElem?_eq_getElem hi
      have h2v := hall _ (List.getElem_mem hi)
      obtain ⟨-, q1, q2, q3⟩ := hnum i _ hi'
      have hk : k = "quality_score" ∨ k = "quality_score_std" ∨ k = "quality_score_ci95" := by
        unfold videoNumber at hval
        by_contra hn
        push Not at hn
        rw [if_neg hn.1, if_neg hn.2.1, if_neg hn.2.2] at hval
        cases hval
      rcases hk with rfl | rfl | rfl
      · rw [q1] at hcell'
        cases hcell'
        intro x hx
        rw [numbersIn, List.mem_singleton] at hx
        subst hx
        unfold meanOrNan
        split
        · rename_i hnil
          change numbersOf _ = [] at hnil
          rw [hnil] at h2v
          simp at h2v
        · exact ⟨_, rfl⟩
      · rw [q2] at hcell'
        cases hcell'
        intro x hx
        rw [numbersIn, List.mem_singleton] at hx
        subst hx
        unfold standardError
        rw [if_pos h2v]
        exact ⟨_, rfl⟩
      · rw [q3] at hcell'
        cases hcell'
        intro x hx
        simp only [numbersIn, List.mem_cons, List.not_mem_nil, or_false, or_self] at hx
        subst hx
        unfold halfWidth
        rw [if_pos h2v]
        exact ⟨_, rfl⟩
    · intro i T k c hcell
      rw [(hw i T k).2.1] at hcell
      obtain ⟨rfl, hval⟩ := hT (observerNumber · i k) hcell
      exact absurd hval (by
        show observerNumber _ i k ≠ some c
        unfold observerNumber
        rw [if_pos (by rfl)]
        simp)
    · intro i T k c hcell
      rw [(hw i T k).2.2.1] at hcell
      obtain ⟨rfl, hval⟩ := hT (contentNumber · i k) hcell
      exact absurd hval (by
        show contentNumber _ i k ≠ some c
        unfold contentNumber
        rw [if_pos (by rfl)]
        simp)
    · intro T k x hcell
      rw [(hw 0 T k).2.2.2] at hcell
      obtain ⟨rfl, hval⟩ := hT (statNumber · k) hcell
      have hsum : (votesIn a).length = ∑ e, (present (videoCells a.get e)).length := by
        unfold votesIn
        rw [List.length_flatMap, ← List.ofFn_eq_map, List.sum_ofFn]
      obtain ⟨-, -, haic, hbic⟩ := mosAndStats_criteria (κ := κ) (fun E _ _ => E * 2) a a hc hc _ _ hsum hsum (by omega) (by omega) _ rfl
      unfold statNumber at hval
      split at hval
      · rename_i hk
        rcases hk with rfl | rfl
        · change (mosAndStats (fun E _ _ => E * 2) a a : Result κ ℝ).aic.map Val.num = _ at hval
          rw [haic] at hval
          cases hval
          exact ⟨_, rfl⟩
        · change (mosAndStats (fun E _ _ => E * 2) a a : Result κ ℝ).bic.map Val.num = _ at hval
          rw [hbic] at hval
          cases hval
          exact ⟨_, rfl⟩
      · cases hval

/-! ### examples -/

section
variable {other : ModelClass → Reader String ℝ → Py (Result String ℝ)} {pc : List ModelClass → Py (Output (String ⊕ String) (Fl ℝ))}

/-- two observers, two votes on each of two videos -/
def exComplete : Dataset String ℝ :=
  { refVideos := [⟨0, "r0", []⟩]
    refScore := some (some (.fin 5))
    disVideos := [
      { contentId := 0, assetId := 0, path := "r0", os := some (.seq false [.one (.fin 5), .one (.fin 4)]) },
      { contentId := 0, assetId := 1, path := "d1", os := some (.seq false [.one (.fin 2), .one (.fin 3)]) }] }

/-- the same with the votes on the second video missing, but for one -/
def exScarce : Dataset String ℝ :=
  { refVideos := [⟨0, "r0", []⟩]
    disVideos := [
      { contentId := 0, assetId := 0, path := "r0", os := some (.seq false [.one (.fin 5), .one (.fin 4)]) },
      { contentId := 0, assetId := 1, path := "d1", os := some (.seq false [.one (.fin 2), .one .nan]) }] }

/-- one video with one vote -/
def exLone : Dataset String ℝ :=
  { refVideos := [⟨0, "r0", []⟩]
    disVideos := [{ contentId := 0, assetId := 0, path := "r0", os := some (.seq false [.one (.fin 5)]) }] }

theorem exComplete_readable : Readable exComplete where
  wf := by
    refine ⟨by simp [exComplete], by simp [exComplete], by simp [exComplete], by simp [exComplete], ?_, ?_⟩
    · intro dv hdv
      simp only [exComplete, List.mem_cons, List.not_mem_nil, or_false] at hdv
      rcases hdv with rfl | rfl <;> exact ⟨_, rfl, by simp⟩
    · intro d0 h0 _ dv hdv
      simp only [exComplete, List.head?_cons, Option.some.injEq] at h0
      subst h0
      simp only [exComplete, List.mem_cons, List.not_mem_nil, or_false] at hdv
      rcases hdv with rfl | rfl <;> rfl
  style := by
    left
    intro dv hdv
    simp only [exComplete, List.mem_cons, List.not_mem_nil, or_false] at hdv
    rcases hdv with rfl | rfl <;> exact ⟨_, _, rfl⟩
  single := by
    intro dv hdv xs hx
    simp only [exComplete, List.mem_cons, List.not_mem_nil, or_false] at hdv
    rcases hdv with rfl | rfl <;> simp [entries] at hx
  clean := by
    intro dv hdv x hx
    simp only [exComplete, List.mem_cons, List.not_mem_nil, or_false] at hdv
    rcases hdv with rfl | rfl <;> simp [videoVotes, entries, votesOf] at hx <;> rcases hx with rfl | rfl <;> exact Or.inr ⟨_, rfl⟩

theorem exScarce_readable : Readable exScarce where
  wf := by
    refine ⟨by simp [exScarce], by simp [exScarce], by simp [exScarce], by simp [exScarce], ?_, ?_⟩
    · intro dv hdv
      simp only [exScarce, List.mem_cons, List.not_mem_nil, or_false] at hdv
      rcases hdv with rfl | rfl <;> exact ⟨_, rfl, by simp⟩
    · intro d0 h0 _ dv hdv
      simp only [exScarce, List.head?_cons, Option.some.injEq] at h0
      subst h0
      simp only [exScarce, List.mem_cons, List.not_mem_nil, or_false] at hdv
      rcases hdv with rfl | rfl <;> rfl
  style := by
    left
    intro dv hdv
    simp only [exScarce, List.mem_cons, List.not_mem_nil, or_false] at hdv
    rcases hdv with rfl | rfl <;> exact ⟨_, _, rfl⟩
  single := by
    intro dv hdv xs hx
    simp only [exScarce, List.mem_cons, List.not_mem_nil, or_false] at hdv
    rcases hdv with rfl | rfl <;> simp [entries] at hx
  clean := by
    intro dv hdv x hx
    simp only [exScarce, List.mem_cons, List.not_mem_nil, or_false] at hdv
    rcases hdv with rfl | rfl <;> simp [videoVotes, entries, votesOf] at hx <;> rcases hx with rfl | rfl <;>
      first | exact Or.inr ⟨_, rfl⟩ | exact Or.inl rfl

theorem exLone_readable : Readable exLone where
  wf := by
    refine ⟨by simp [exLone], by simp [exLone], by simp [exLone], by simp [exLone], ?_, ?_⟩
    · intro dv hdv
      simp only [exLone, List.mem_singleton] at hdv
      subst hdv
      exact ⟨_, rfl, by simp⟩
    · intro d0 h0 _ dv hdv
      simp only [exLone, List.head?_cons, Option.some.injEq] at h0
      subst h0
      simp only [exLone, List.mem_singleton] at hdv
      subst hdv
      rfl
  style := by
    left
    intro dv hdv
    simp only [exLone, List.mem_singleton] at hdv
    subst hdv
    exact ⟨_, _, rfl⟩
  single := by
    intro dv hdv xs hx
    simp only [exLone, List.mem_singleton] at hdv
    subst hdv
    simp [entries] at hx
  clean := by
    intro dv hdv x hx
    simp only [exLone, List.mem_singleton] at hdv
    subst hdv
    simp [videoVotes, entries, votesOf] at hx
    subst hx
    exact Or.inr ⟨_, rfl⟩

theorem ex_loads (d : Dataset String ℝ) : Loads "scores.py".toList (.ok d) (.error .assertion) d :=
  Or.inl ⟨⟨"scores".toList, by decide +kernel⟩, rfl⟩

theorem exComplete_votes : votesOverall exComplete = 4 ∧ (∀ dv ∈ exComplete.disVideos, 2 ≤ (numbersOf dv).length) ∧ EachVoted 2 exComplete := by
  refine ⟨rfl, ?_, ?_⟩
  · intro dv hdv
    simp only [exComplete, List.mem_cons, List.not_mem_nil, or_false] at hdv
    rcases hdv with rfl | rfl <;> exact le_refl 2
  · rintro (o | s) hw
    · obtain ⟨dv, hdv, ho⟩ := hw
      simp only [exComplete, List.mem_cons, List.not_mem_nil, or_false] at hdv
      rcases hdv with rfl | rfl <;> simp [raters] at ho
    · obtain ⟨dv, hdv, -, hs⟩ := hw
      have hs2 : s < 2 := by
        simp only [exComplete, List.mem_cons, List.not_mem_nil, or_false] at hdv
        rcases hdv with rfl | rfl <;> exact hs
      have : s = 0 ∨ s = 1 := by omega
      rcases this with rfl | rfl <;> exact le_refl 2

/-- the hypotheses of C117, C118 and C119 are met -/
example : Readable exComplete ∧ Loads "scores.py".toList (.ok exComplete) (.error .assertion) exComplete ∧ 2 ≤ votesOverall exComplete ∧
    (∀ dv ∈ exComplete.disVideos, numbersOf dv ≠ []) ∧ EachVoted 2 exComplete :=
  ⟨exComplete_readable, ex_loads _, by rw [exComplete_votes.1]; norm_num,
    fun dv hdv hnil => by have := exComplete_votes.2.1 dv hdv; rw [hnil] at this; simp at this, exComplete_votes.2.2⟩

/-- the four documented models give an output, so the hypotheses of `C117_any` are met too -/
example : ∃ out, main ppf other pc "scores.py".toList (.ok exComplete) (.error .assertion) ["MOS", "P910", "P913", "BT500"] = .ok out ∧
    ["MOS", "P910", "P913", "BT500"].Nodup ∧
    ∀ T ∈ ["MOS", "P910", "P913", "BT500"], ∃ run, (T, run) ∈ (runsByName : List (String × (Reader String ℝ → Py (Result String ℝ)))) := by
  obtain ⟨out, hout⟩ := C118_succeeds_partial (ppf := ppf) (other := other) (pc := pc) (models := ["MOS", "P910", "P913", "BT500"])
    (by decide) (by simp) exComplete_readable (ex_loads _)
    (fun dv hdv hnil => by have := exComplete_votes.2.1 dv hdv; rw [hnil] at this; simp at this) exComplete_votes.2.2
  refine ⟨out, hout, by decide, ?_⟩
  intro T hT
  simp only [List.mem_cons, List.not_mem_nil, or_false] at hT
  rcases hT with rfl | rfl | rfl | rfl
  · exact ⟨_, by unfold runsByName; exact List.mem_cons_self⟩
  · exact ⟨(runAP2 · {}), by simp [runsByName]⟩
  · exact ⟨(runBR_SR_MOS · {}), by simp [runsByName]⟩
  · exact ⟨(runSR_MOS · {}), by simp [runsByName]⟩

/-- the result of P910 has all the entries that `C117_intervals` asks for, with the votes of the dataset -/
example {rd : Reader String ℝ} {r : Result String ℝ} {a : Arr3D (Fl ℝ)} (ha : rd.scores = .ok a) (hr : runAP2 rd {} = .ok r) :
    r.rawScores = some a ∧ (∃ b stds, r.observerBias = some b ∧ r.observerBiasStd = some stds ∧ stds.length = a.S) ∧
      ∃ vs stds, r.observerInconsistency = some vs ∧ r.observerInconsistencyStd = some stds ∧ vs.length = a.S := by
  obtain ⟨p, f, hp, hf, hres⟩ := ap_run hr
  rw [preprocess_default ha] at hp
  cases hp
  rw [hres]
  exact ⟨rfl, ⟨_, _, rfl, rfl, List.length_ofFn⟩, _, _, rfl, rfl, List.length_ofFn⟩

/-- **C118 (refuted).** Without the conditions the program may fail on a readable dataset in which every video was rated: with one vote
it raises ValueError instead of writing the mean. -/
theorem C118_refuted : Readable exLone ∧ (∀ dv ∈ exLone.disVideos, numbersOf dv ≠ []) ∧ EachVoted 1 exLone ∧
    main ppf other pc "scores.py".toList (.ok exLone) (.error .assertion) ["MOS"] = .error .value := by
  refine ⟨exLone_readable, ?_, ?_, (C117_mos exLone_readable (ex_loads _)).2 (by decide)⟩
  · intro dv hdv
    simp only [exLone, List.mem_singleton] at hdv
    subst hdv
    simp [numbersOf, videoVotes, entries, votesOf, present]
  · rintro (o | s) hw
    · obtain ⟨dv, hdv, ho⟩ := hw
      simp only [exLone, List.mem_singleton] at hdv
      subst hdv
      simp [raters] at ho
    · obtain ⟨dv, hdv, -, hs⟩ := hw
      have hs2 : s < 1 := by
        simp only [exLone, List.mem_singleton] at hdv
        subst hdv
        exact hs
      obtain rfl : s = 0 := by omega
      exact le_refl 1

/-- **C119 (refuted).** The program writes NaN, which is not JSON, for a video with one vote. -/
theorem C119_refuted : Readable exScarce ∧ (∀ dv ∈ exScarce.disVideos, numbersOf dv ≠ []) ∧
    ∃ out, main ppf other pc "scores.py".toList (.ok exScarce) (.error .assertion) ["MOS"] = .ok out ∧
      numberIn out.disVideos 1 "MOS" "quality_score_std" = some (.one .nan) ∧ ¬ AllFinite out := by
  refine ⟨exScarce_readable, ?_, ?_⟩
  · intro dv hdv
    simp only [exScarce, List.mem_cons, List.not_mem_nil, or_false] at hdv
    rcases hdv with rfl | rfl <;> simp [numbersOf, videoVotes, entries, votesOf, present]
  · obtain ⟨out, hout, -, -, -, hnum⟩ := (C117_mos (ppf := ppf) (other := other) (pc := pc) exScarce_readable (ex_loads _)).1 (by decide)
    have h1 := (hnum 1 _ rfl).2.2.1
    refine ⟨out, hout, ?_, fun hf => ?_⟩
    · rw [h1]
      rfl
    · obtain ⟨v, hv⟩ := hf.videos _ _ _ _ h1 _ (List.mem_singleton_self _)
      cases hv

end

end Sureal.Props
