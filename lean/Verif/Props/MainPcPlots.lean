import Verif.Lemmas.MainPcPlots
/-! # C152: the command line program with models for paired comparisons and plots -/
set_option linter.unusedSectionVars false
namespace Sureal.Props
open Sureal Spec Spec.BT Format PcReader MainPlots
variable {ppf : Fl ℝ → ℕ → Fl ℝ} {L : MainPc.Lib ℝ} {path : List Char} {readPy : Py (Dataset (String × Int) ℝ)} {readJson : Py (Dataset String ℝ)}
  {asked : Asked} {models : List String} {dir after : DirOf (Output String (Fl ℝ)) (Figure String ℝ)}

/-- **C152.** Asking for plots does not change the output: if the program ends well, `output.json` is what the program writes without plots; every figure
is saved in a file of its own, figure `k` as `k.png`; all other files of the directory are as before. -/
theorem C152_same (h : MainPcPlots.Run ppf L path readPy readJson asked models dir (none, after)) :
    ∃ (out : Output String (Fl ℝ)) (figs : List (Figure String ℝ)), MainPc.Main L path readPy readJson models (.ok out) ∧
      after "output.json" = some (.output out) ∧
      (∀ (k : ℕ) (f : Figure String ℝ), figs[k]? = some f → after (toString (k + 1) ++ ".png") = some (.picture f)) ∧
      ∀ name, name ≠ "output.json" → (∀ k < figs.length, name ≠ toString (k + 1) ++ ".png") → after name = dir name := by
  generalize hq : (none, after) = q at h
  cases h with
  | @mk r hr =>
    rcases r with e | ⟨out, figs⟩
    · cases hq
    refine ⟨out, figs, ?_, finish_ok hq.symm⟩
    generalize hg : (Except.ok (out, figs) : Py (Output String (Fl ℝ) × List (Figure String ℝ))) = g at hr
    cases hr with
    | unknown _ => cases hg
    | refused _ _ => cases hg
    | run h1 h2 h3 =>
      refine .run h1 h2 ?_
      cases h3 with
      | unread _ => cases hg
      | fail _ _ => cases hg
      | undrawn _ _ _ => cases hg
      | unwritten _ _ _ _ => cases hg
      | done h4 h5 _ h6 =>
        cases hg
        have := MainPc.Program.done (L := L) (path := path) (readPy := readPy) (readJson := readJson) h4 h5
        rw [h6] at this
        exact this

/-- **C152, failures.** If the program ends with an error, no file was touched. -/
theorem C152_untouched {e : PyErr} (h : MainPcPlots.Run ppf L path readPy readJson asked models dir (some e, after)) : after = dir := by
  generalize hq : (some e, after) = q at h
  cases h with
  | @mk r hr =>
    rcases r with e | ⟨out, figs⟩
    · cases hq; rfl
    · cases hq

/-- the figures of up to eight models -/
theorem pc_figures (hm : ∀ t ∈ models, t ∈ pairedModels) (hne : models ≠ []) (h8 : models.length ≤ 8) {out : Output String (Fl ℝ)}
    (h : MainPc.Main L path readPy readJson models (.ok out)) {rd : PcRd String ℝ} (hrd : MainPc.read path readPy readJson = .ok rd)
    (h0 : rd.dataset.disVideos ≠ []) :
    ∃ (arr : Arr3D (Fl ℝ)) (os : List (MainPc.PcOut ℝ)) (rows : List (List (Fl ℝ))) (s : List (ScorePlots.Series ℝ)), rd.scores = .ok arr ∧
      List.Forall₂ (fun t o => MainPc.RunOn L arr (MainPc.classOf t) (.ok o)) models os ∧
      format MainPc.observerName (MainPc.refsOf rd.dataset) models (os.map (MainPc.resOf rd)) = .ok out ∧
      rows.length = rd.dataset.disVideos.length ∧ (∀ r ∈ rows, r.length = rd.dataset.disVideos.length) ∧
      (∀ i j, i < rd.dataset.disVideos.length → j < rd.dataset.disVideos.length → pixel rows j i = some (shareIn arr i j)) ∧
      List.Forall₂ (fun o x => x.ys = o.scores ∧ x.err = (MainPcPlots.asResult o).qualityScoresCi95) os s ∧
      ∀ asked, MainPcPlots.Main ppf L path readPy readJson asked models (.ok (out,
        (if asked.rawData then [.matrix rows] else []) ++ (if asked.disVideos then [.scores s] else []) ++ (if asked.observers then [.observers [] []] else []))) := by
  obtain ⟨rd', arr, os, h1, ha, hf, hform⟩ := done_inv hm hne h
  rw [hrd] at h1
  cases h1
  obtain ⟨rows, hdraw, hr1, hr2, hr3⟩ := MainPcPlots.picture (ppf := ppf) hrd ha
  have hlen : os.length = models.length := hf.length_eq.symm
  have hsz : ∀ r ∈ os.map (MainPcPlots.asResult (K := ℝ)), r.qualityScores.length = rd.dataset.disVideos.length := by
    intro r hr
    obtain ⟨o, ho, rfl⟩ := List.mem_map.mp hr
    obtain ⟨k, hk, rfl⟩ := List.getElem_of_mem ho
    exact MainPcPlots.runOn_sized hrd ha (hf.get (by rw [← hlen]; exact hk) hk)
  have hq : ScorePlots.quality (fun l => List.range l.length) false .errorbar (os.map MainPcPlots.asResult) =
      ScorePlots.quality insArgsort false .errorbar (os.map (MainPcPlots.asResult (K := ℝ))) := by
    unfold ScorePlots.quality
    cases os <;> rfl
  obtain ⟨s, hs⟩ := C110_runs insArgsort insArgsort_ok false .errorbar nofun (os.map (MainPcPlots.asResult (K := ℝ)))
    (by rw [Ne, List.map_eq_nil_iff, ← List.length_eq_zero_iff, hlen, List.length_eq_zero_iff]; exact hne) (by rw [List.length_map]; omega)
    rd.dataset.disVideos.length (by rw [Ne, List.length_eq_zero_iff]; exact h0) hsz
  have hslen := (C110_scores insArgsort insArgsort_ok false .errorbar _ _ hsz s hs).1
  have hsk := fun k x r => C110_intervals_partial insArgsort _ _ hsz s hs k x r
  refine ⟨arr, os, rows, s, ha, hf, hform, hr1, hr2, hr3, ?_, fun asked => (MainPcPlots.main_iff hm hne).mpr ?_⟩
  · rw [List.length_map] at hslen
    rw [List.forall₂_iff_get]
    refine ⟨hslen.symm, fun k hk hk' => ?_⟩
    exact hsk k _ _ (List.getElem?_eq_getElem hk') (by rw [List.getElem?_map, List.getElem?_eq_getElem hk]; rfl)
  · refine .done hrd (MainPc.runEach_of ?_) ?_ (by rw [MainPc.types hm]; exact hform)
    · rw [List.forall₂_map_left_iff]
      exact hf.imp fun t o ho => ⟨arr, ha, ho⟩
    · have d1 := hdraw (os.map MainPcPlots.asResult)
      have d2 : draw ppf rd.scores (os.map MainPcPlots.asResult) .qualityScores = .ok (.scores s) := by unfold draw; dsimp only; rw [hq, hs]
      have d3 : draw ppf rd.scores (os.map MainPcPlots.asResult) .subjectScores = .ok (.observers [] []) := by
        unfold draw; dsimp only; rw [MainPcPlots.observers_empty]
      unfold MainPcPlots.drawAll MainPcPlots.doPlot
      rcases asked with ⟨_ | _, _ | _, _ | _⟩ <;> simp [mapPy, d1, d2, d3]

/-- **C152 (partial).** If the program with up to eight models for paired comparisons writes an output for at least one video, it also ends well with plots.
With `--plot-raw-data` the first picture has, in row `j` and column `i`, the share of the points that video `i` won against video `j`, and is empty where nobody
compared them; with `--plot-dis-videos` there is a picture of the scores and intervals of each model, in the order of the models. -/
theorem C152_figures_partial (asked : Asked) (dir : DirOf (Output String (Fl ℝ)) (Figure String ℝ)) (hm : ∀ t ∈ models, t ∈ pairedModels) (hne : models ≠ [])
    (h8 : models.length ≤ 8) {out : Output String (Fl ℝ)} (h : MainPc.Main L path readPy readJson models (.ok out)) {rd : PcRd String ℝ}
    (hrd : MainPc.read path readPy readJson = .ok rd) (h0 : rd.dataset.disVideos ≠ []) :
    ∃ (after : DirOf (Output String (Fl ℝ)) (Figure String ℝ)) (arr : Arr3D (Fl ℝ)) (rows : List (List (Fl ℝ))) (s : List (ScorePlots.Series ℝ)),
      MainPcPlots.Run ppf L path readPy readJson asked models dir (none, after) ∧ after "output.json" = some (.output out) ∧ rd.scores = .ok arr ∧
      rows.length = rd.dataset.disVideos.length ∧
      (∀ i j, i < rd.dataset.disVideos.length → j < rd.dataset.disVideos.length → pixel rows j i = some (shareIn arr i j)) ∧
      List.Forall₂ (fun t x => ∃ (v std : Fin rd.dataset.disVideos.length → Fl ℝ), Reported out t v std ∧ x.ys = List.ofFn v ∧
        x.err = some (List.ofFn (fun i => .fin (195996 / 100000) * std i), List.ofFn fun i => .fin (195996 / 100000) * std i)) models s ∧
      ∀ (k : ℕ) (f : Figure String ℝ),
        ((if asked.rawData then [.matrix rows] else []) ++ (if asked.disVideos then [.scores s] else []) ++
          (if asked.observers then [.observers [] []] else []))[k]? = some f →
        after (toString (k + 1) ++ ".png") = some (.picture f) := by
  obtain ⟨arr, os, rows, s, ha, hf, hform, hr1, hr2, hr3, hs, hmain⟩ := pc_figures (ppf := ppf) hm hne h8 h hrd h0
  have hfin := finish_ok (dir := dir) (out := out) (figs := (if asked.rawData then [.matrix rows] else []) ++ (if asked.disVideos then [.scores s] else []) ++
    (if asked.observers then [.observers [] []] else [])) rfl
  refine ⟨_, arr, rows, s, .mk (hmain asked), hfin.1, ha, hr1, hr3, ?_, fun k f hk => hfin.2.1 k f hk⟩
  obtain ⟨-, -, -, -, -, -, -, -, -, hnr, -⟩ := C139_any_partial hm hne h
  obtain ⟨hw, -⟩ := MainPc.winMatrix_wins hrd ha
  rw [List.forall₂_iff_get]
  refine ⟨hf.length_eq.trans hs.length_eq, fun k hk hk' => ?_⟩
  have hk1 : k < os.length := by rw [hs.length_eq]; exact hk'
  have hrun := hf.get hk hk1
  obtain ⟨e1, e2⟩ := hs.get hk1 hk'
  have hT : models[k] ∈ models := List.getElem_mem hk
  have hform' : ∃ v std : Fin rd.dataset.disVideos.length → Fl ℝ, os[k] = ⟨List.ofFn v, .seq (List.ofFn std), some (MainPc.ciOf std)⟩ := by
    have hc := hm _ hT
    simp only [List.get_eq_getElem] at hrun
    generalize models[k] = T at hT hc hrun
    generalize os[k] = o at hrun
    generalize hq : (Except.ok o : Py (MainPc.PcOut ℝ)) = q at hrun
    have hne' : T ≠ "BT_NR" := fun e => hnr (e ▸ hT)
    simp only [pairedModels, List.mem_cons, List.not_mem_nil, or_false] at hc
    rcases hc with rfl | rfl | rfl
    · rw [show MainPc.classOf "THURSTONE_MLE" = .ThurstoneMlePairedCompSubjectiveModel by decide] at hrun
      cases hrun with
      | notSquare _ => cases hq
      | th h1 _ => cases hq; rw [hw] at h1; cases h1; exact ⟨_, _, rfl⟩
      | thFail _ _ => cases hq
    · rw [show MainPc.classOf "BT_MLE" = .BradleyTerryMlePairedCompSubjectiveModel by decide] at hrun
      cases hrun with
      | notSquare _ => cases hq
      | mle h1 _ => cases hq; rw [hw] at h1; cases h1; exact ⟨_, _, rfl⟩
      | mleFail _ _ => cases hq
    · exact absurd rfl hne'
  obtain ⟨v, std, ho⟩ := hform'
  simp only [List.get_eq_getElem] at hrun e1 e2 ⊢
  rw [ho] at hrun e1 e2
  exact ⟨v, std, reported_of hf hform hT hrun, e1, e2⟩

/-- **C152.** What the picture of the raw scores shows, in terms of the records: for two different videos, the sum of the points the subjects gave the first, divided by the
number of subjects that compared the two, in one order or the other. -/
theorem C152_share {d : Dataset (String × Int) ℝ} {rd : PcRd String ℝ} (h : pcReader d = .ok rd) {arr : Arr3D (Fl ℝ)} (hs : rd.scores = .ok arr)
    (hstyle : ∀ dv ∈ d.disVideos, DictStyle dv) (hids : IdsArePositions d.disVideos) (href : RecordsRefer d.disVideos) {i j : ℕ}
    (hi : i < d.disVideos.length) (hj : j < d.disVideos.length) (hij : i ≠ j) :
    (comparedBy d i j = ∅ → shareIn arr i j = .nan) ∧
    ((comparedBy d i j).Nonempty → shareIn arr i j = .fin ((∑ s ∈ comparedBy d i j, pointsOf d i j s) / (comparedBy d i j).card)) := by
  classical
  obtain ⟨hdict, hl, hob, h1, h2, h3, hc⟩ := pc_inv h hs
  obtain ⟨obs, hobs, hR, -, -, hcell⟩ := C50_positions_partial d rd h arr hs hstyle hids href
  obtain ⟨-, -, hcomp⟩ := C49_complementary d rd h arr hs
  have hobs' : obs = obsOf d.disVideos := by
    rw [hob] at hobs
    exact (Except.ok.inj hobs).symm
  have hi' := List.getElem?_eq_getElem hi
  have hj' := List.getElem?_eq_getElem hj
  have hri : ∀ s b, recordOf d i s b = entryOf d.disVideos[i] (s, b) := fun s b => by unfold recordOf; rw [hi']; rfl
  have hrj : ∀ s b, recordOf d j s b = entryOf d.disVideos[j] (s, b) := fun s b => by unfold recordOf; rw [hj']; rfl
  have hai : d.disVideos[i].assetId = (i : ℤ) := hids i _ hi'
  have haj : d.disVideos[j].assetId = (j : ℤ) := hids j _ hj'
  have hsub : subjectsOf d = obs.toFinset := by rw [hobs', subjects_obs hdict]
  have hlegal : ∀ (k : ℕ) dv, d.disVideos[k]? = some dv → ∀ s b v, entryOf dv (s, b) = some v → ∃ q : ℝ, v = .one (.fin q) := by
    intro k dv hk s b v hv
    obtain ⟨l, hd, hn⟩ := hstyle dv (List.mem_of_getElem? hk)
    obtain ⟨⟨q, -, e⟩, -⟩ := hl dv (List.mem_of_getElem? hk) l hd s b v ((entryOf_iff hd hn).mp hv)
    exact ⟨q, e⟩
  have hplay : ∀ (k : ℕ) (s : String), obs[k]? = some s →
      ((∃ q : ℝ, cell arr i j k = some (.fin q)) ↔ recordOf d i s j ≠ none ∨ recordOf d j s i ≠ none) := by
    intro k s hk
    have hk' : k < arr.R := by rw [hR]; exact (List.getElem?_eq_some_iff.mp hk).1
    have c1 := hcell i j k _ _ s hij hi' hj' hk
    have c2 := hcell j i k _ _ s (Ne.symm hij) hj' hi' hk
    rw [hai, haj] at c1
    rw [hai, haj] at c2
    have hflip : ∀ q : ℝ, cell arr j i k = some (.fin q) → cell arr i j k = some (.fin (1 - q)) := by
      intro q hq
      rcases (hcomp i j k (by omega) (by omega) hk').1 hij with ⟨-, e⟩ | ⟨x, y, -, -, e, e1, e2⟩
      · rw [hq] at e; cases e
      · rw [hq] at e2
        cases e2
        rw [e1, show x = 1 - q by linarith]
    rw [hri, hrj]
    rcases Option.eq_none_or_eq_some (entryOf d.disVideos[i] (s, (j : ℤ))) with e1 | ⟨v, e1⟩
    · rcases Option.eq_none_or_eq_some (entryOf d.disVideos[j] (s, (i : ℤ))) with e2 | ⟨w, e2⟩
      · rw [c1.1 e1 e2, e1, e2]
        simp
      · obtain ⟨q, rfl⟩ := hlegal j _ hj' s _ w e2
        exact ⟨fun _ => Or.inr (by rw [e2]; simp), fun _ => ⟨_, hflip q (c2.2 q e2 (Or.inl e1))⟩⟩
    · obtain ⟨q, rfl⟩ := hlegal i _ hi' s _ v e1
      refine ⟨fun _ => Or.inl (by rw [e1]; simp), fun _ => ?_⟩
      rcases Option.eq_none_or_eq_some (entryOf d.disVideos[j] (s, (i : ℤ))) with e2 | ⟨w, e2⟩
      · exact ⟨_, c1.2 q e1 (Or.inl e2)⟩
      · obtain ⟨q', rfl⟩ := hlegal j _ hj' s _ w e2
        rcases lt_or_ge j i with hlt | hge
        · exact ⟨_, c1.2 q e1 (Or.inr (Or.inr hlt))⟩
        · exact ⟨_, hflip q' (c2.2 q' e2 (Or.inr (Or.inr (by omega))))⟩
  have hcard : playedIn arr i j = (comparedBy d i j).card := by
    unfold playedIn comparedBy
    have hmap : obs.map (fun s => if recordOf d i s j ≠ none ∨ recordOf d j s i ≠ none then 1 else 0) =
        List.ofFn fun k : Fin obs.length => if recordOf d i obs[k] j ≠ none ∨ recordOf d j obs[k] i ≠ none then 1 else 0 := by
      refine List.ext_getElem (by simp) fun k h1 h2 => by simp
    rw [Finset.card_filter, Finset.card_filter, hsub, List.sum_toFinset _ (by rw [hobs']; exact obs_nodup _), hmap, List.sum_ofFn, hR, Finset.sum_range]
    exact Finset.sum_congr rfl fun k _ => if_congr (hplay k.val _ (List.getElem?_eq_getElem k.isLt)) rfl rfl
  have hsum : winsIn arr i j = ∑ s ∈ comparedBy d i j, pointsOf d i j s := by
    rw [(C139_wins h hs hstyle hids href hi hj).1 hij]
    unfold comparedBy
    symm
    refine Finset.sum_filter_of_ne fun s _ hs0 => ?_
    by_contra hno
    push Not at hno
    apply hs0
    unfold pointsOf
    rw [hno.1, hno.2]
  unfold shareIn
  rw [hcard, hsum]
  exact ⟨fun h => by rw [if_pos (by rw [h]; rfl)], fun h => by rw [if_neg (Finset.card_pos.mpr h).ne']⟩

/-- **C152 (refuted).** With nine models or more and `--plot-dis-videos` the program ends with an IndexError and writes nothing, though it writes the output
without the option. -/
theorem C152_nine_refuted (hask : asked.disVideos = true) (hm : ∀ t ∈ models, t ∈ pairedModels) (h8 : 8 < models.length)
    {out : Output String (Fl ℝ)} (h : MainPc.Main L path readPy readJson models (.ok out)) {rd : PcRd String ℝ}
    (hrd : MainPc.read path readPy readJson = .ok rd) (h0 : rd.dataset.disVideos ≠ []) (dir : DirOf (Output String (Fl ℝ)) (Figure String ℝ)) :
    MainPcPlots.Run ppf L path readPy readJson asked models dir (some .index, dir) := by
  have hne : models ≠ [] := by rintro rfl; simp at h8
  obtain ⟨rd', arr, os, h1, ha, hf, hform⟩ := done_inv hm hne h
  rw [hrd] at h1
  cases h1
  obtain ⟨rows, hdraw, -⟩ := MainPcPlots.picture (ppf := ppf) hrd ha
  have hlen : os.length = models.length := hf.length_eq.symm
  have hsz : ∀ r ∈ os.map (MainPcPlots.asResult (K := ℝ)), r.qualityScores.length = rd.dataset.disVideos.length := by
    intro r hr
    obtain ⟨o, ho, rfl⟩ := List.mem_map.mp hr
    obtain ⟨k, hk, rfl⟩ := List.getElem_of_mem ho
    exact MainPcPlots.runOn_sized hrd ha (hf.get (by rw [← hlen]; exact hk) hk)
  have hq : ScorePlots.quality (fun l => List.range l.length) false .errorbar (os.map MainPcPlots.asResult) =
      ScorePlots.quality insArgsort false .errorbar (os.map (MainPcPlots.asResult (K := ℝ))) := by
    unfold ScorePlots.quality
    cases os <;> rfl
  have hbad := C111_refuted_nine insArgsort insArgsort_ok false .errorbar nofun (os.map (MainPcPlots.asResult (K := ℝ))) (by rw [List.length_map]; omega)
    rd.dataset.disVideos.length (by rw [Ne, List.length_eq_zero_iff]; exact h0) hsz
  have hall : MainPcPlots.drawAll ppf rd os asked = .error .index := by
    have d1 := hdraw (os.map MainPcPlots.asResult)
    have d2 : draw ppf rd.scores (os.map MainPcPlots.asResult) .qualityScores = .error .index := by unfold draw; dsimp only; rw [hq, hbad]
    unfold MainPcPlots.drawAll MainPcPlots.doPlot
    rcases asked with ⟨_ | _, _ | _, _ | _⟩ <;> first | (simp [mapPy, d1, d2]; done) | cases hask
  have hrun := MainPcPlots.Program.undrawn (ppf := ppf) (L := L) (path := path) (readPy := readPy) (readJson := readJson) (cs := models.map MainPc.classOf)
    hrd (MainPc.runEach_of (by rw [List.forall₂_map_left_iff]; exact hf.imp fun t o ho => ⟨arr, ha, ho⟩)) hall
  exact .mk (dir := dir) ((MainPcPlots.main_iff hm hne).mpr hrun)

/-- two videos; Ann and Bob prefer the first, Cid the second -/
def trioSet : Dataset (String × Int) ℝ where
  refVideos := [⟨7, "ref", []⟩]
  disVideos := [evenVideo 0 "a" [(("Ann", 1), .one (.fin 1)), (("Bob", 1), .one (.fin 1))], evenVideo 1 "b" [(("Cid", 0), .one (.fin 1))]]
  refScore := none
  datasetName := none
  attrs := []

theorem trioSet_mem {dv : DisVideo (String × Int) ℝ} (h : dv ∈ trioSet.disVideos) :
    dv = evenVideo 0 "a" [(("Ann", 1), .one (.fin 1)), (("Bob", 1), .one (.fin 1))] ∨ dv = evenVideo 1 "b" [(("Cid", 0), .one (.fin 1))] := by
  simpa [trioSet] using h

theorem trioSet_style : ∀ dv ∈ trioSet.disVideos, DictStyle dv := by
  intro dv h
  rcases trioSet_mem h with rfl | rfl <;> exact ⟨_, rfl, by simp⟩

theorem trioSet_ids : IdsArePositions trioSet.disVideos := by
  intro i dv hi
  match i, hi with
  | 0, hi => cases hi; rfl
  | 1, hi => cases hi; rfl

theorem trioSet_refer : RecordsRefer trioSet.disVideos := by
  intro dv h l hl s b v hm
  rcases trioSet_mem h with rfl | rfl
  · cases hl
    simp only [List.mem_cons, List.not_mem_nil, or_false, Prod.mk.injEq] at hm
    exact ⟨evenVideo 1 "b" [(("Cid", 0), .one (.fin 1))], by simp [trioSet], by rcases hm with hm | hm <;> exact hm.1.2.symm⟩
  · cases hl
    simp only [List.mem_singleton, Prod.mk.injEq] at hm
    exact ⟨evenVideo 0 "a" [(("Ann", 1), .one (.fin 1)), (("Bob", 1), .one (.fin 1))], by simp [trioSet], hm.1.2.symm⟩

theorem trioSet_legal : RecordsLegal trioSet.disVideos := by
  intro dv h l hl s b v hm
  rcases trioSet_mem h with rfl | rfl
  · cases hl
    simp only [List.mem_cons, List.not_mem_nil, or_false, Prod.mk.injEq] at hm
    rcases hm with ⟨⟨-, rfl⟩, rfl⟩ | ⟨⟨-, rfl⟩, rfl⟩ <;>
    exact ⟨⟨1, Or.inr (Or.inr rfl), rfl⟩, by simp [trioSet], by simp [trioSet]⟩
  · cases hl
    simp only [List.mem_singleton, Prod.mk.injEq] at hm
    obtain ⟨⟨-, rfl⟩, rfl⟩ := hm
    exact ⟨⟨1, Or.inr (Or.inr rfl), rfl⟩, by simp [trioSet], by simp [trioSet]⟩

theorem trioSet_subjects : subjectsOf trioSet = {"Ann", "Bob", "Cid"} := rfl

theorem trioSet_points : pointsOf trioSet 0 1 "Ann" = 1 ∧ pointsOf trioSet 1 0 "Ann" = 0 ∧ pointsOf trioSet 1 0 "Bob" = 0 ∧ pointsOf trioSet 1 0 "Cid" = 1 := by
  have r1 : recordOf trioSet 0 "Ann" 1 = some (.one (.fin 1)) := rfl
  have r2 : recordOf trioSet 1 "Ann" 0 = none := rfl
  have r3 : recordOf trioSet 0 "Bob" 1 = some (.one (.fin 1)) := rfl
  have r4 : recordOf trioSet 1 "Bob" 0 = none := rfl
  have r5 : recordOf trioSet 0 "Cid" 1 = none := rfl
  have r6 : recordOf trioSet 1 "Cid" 0 = some (.one (.fin 1)) := rfl
  unfold pointsOf
  simp only [Nat.cast_zero, Nat.cast_one, r1, r2, r3, r4, r5, r6]
  norm_num

theorem trioSet_compared : comparedBy trioSet 1 0 = {"Ann", "Bob", "Cid"} := by
  have r1 : recordOf trioSet 0 "Ann" 1 = some (.one (.fin 1)) := rfl
  have r3 : recordOf trioSet 0 "Bob" 1 = some (.one (.fin 1)) := rfl
  have r6 : recordOf trioSet 1 "Cid" 0 = some (.one (.fin 1)) := rfl
  unfold comparedBy
  rw [trioSet_subjects, Finset.filter_true_of_mem]
  intro s hs
  simp only [Finset.mem_insert, Finset.mem_singleton] at hs
  rcases hs with rfl | rfl | rfl
  · exact Or.inr (by rw [Nat.cast_one, r1]; simp)
  · exact Or.inr (by rw [Nat.cast_one, r3]; simp)
  · exact Or.inl (by rw [Nat.cast_zero, r6]; simp)

/-- the Bradley-Terry model on this dataset -/
theorem trioSet_runs {L : MainPc.Lib ℝ} (hp : ∀ k m, ∃ c, L.npPinv k m = .ok c) {readJson} :
    ∃ out, MainPc.Main L "x.py".toList (.ok trioSet) readJson ["BT_MLE"] (.ok out) := by
  obtain ⟨p1, -, -, p4⟩ := trioSet_points
  refine C139_bradley_terry hp ⟨['x'], rfl⟩ rfl rfl trioSet_style trioSet_ids trioSet_refer trioSet_legal (by simp [trioSet]) ?_
  intro i hi
  have : i = 0 ∨ i = 1 := by
    have : i < 2 := hi
    omega
  rcases this with rfl | rfl
  · exact ⟨1, by simp [trioSet], by norm_num, "Ann", by rw [trioSet_subjects]; simp, by rw [p1]; norm_num⟩
  · exact ⟨0, by simp [trioSet], by norm_num, "Cid", by rw [trioSet_subjects]; simp, by rw [p4]; norm_num⟩

/-- **C152 (refuted).** The axes of the picture of the raw scores say "Test Subjects" and "Video Stimuli", but its rows are not the subjects: it has a row per
video, whatever the number of subjects; and the picture of the observers is empty though the dataset has observers.  Two videos compared by three subjects: two
rows, the first of which holds the share of the second video against the first. -/
theorem C152_axes_refuted {L : MainPc.Lib ℝ} (hp : ∀ k m, ∃ c, L.npPinv k m = .ok c) {readJson} (dir : DirOf (Output String (Fl ℝ)) (Figure String ℝ)) :
    (subjectsOf trioSet).card = 3 ∧ ∃ (after : DirOf (Output String (Fl ℝ)) (Figure String ℝ)) (rows : List (List (Fl ℝ))),
      MainPcPlots.Run ppf L "x.py".toList (.ok trioSet) readJson ⟨true, false, true⟩ ["BT_MLE"] dir (none, after) ∧
      after "1.png" = some (.picture (.matrix rows)) ∧ rows.length = 2 ∧ pixel rows 0 1 = some (.fin (1 / 3)) ∧
      after "2.png" = some (.picture (.observers [] [])) := by
  refine ⟨by rw [trioSet_subjects]; rfl, ?_⟩
  obtain ⟨out, hout⟩ := trioSet_runs hp (readJson := readJson)
  have hread : MainPc.read "x.py".toList (.ok trioSet) readJson = .ok ⟨trioSet, pcScores trioSet.disVideos, pcObservers trioSet.disVideos⟩ :=
    (read_py (path := "x.py".toList) ⟨['x'], rfl⟩ rfl).trans rfl
  obtain ⟨after, arr, rows, s, h1, -, ha, h3, h4, -, h5⟩ := C152_figures_partial (ppf := ppf) ⟨true, false, true⟩ dir (by simp [pairedModels]) (by simp) (by simp)
    hout hread (by simp [trioSet])
  refine ⟨after, rows, h1, h5 0 _ rfl, h3, ?_, h5 1 _ rfl⟩
  rw [h4 1 0 (by simp [trioSet]) (by simp [trioSet])]
  obtain ⟨-, p2, p3, p4⟩ := trioSet_points
  have hsh := (C152_share (d := trioSet) (i := 1) (j := 0) rfl ha trioSet_style trioSet_ids trioSet_refer (by simp [trioSet]) (by simp [trioSet]) (by norm_num)).2
    (by rw [trioSet_compared]; simp)
  rw [hsh, trioSet_compared, Finset.sum_insert (by decide), Finset.sum_pair (by decide), p2, p3, p4, show ({"Ann", "Bob", "Cid"} : Finset String).card = 3 from rfl]
  norm_num

/-- nine times the Bradley-Terry model on this dataset -/
example {L : MainPc.Lib ℝ} (hp : ∀ k m, ∃ c, L.npPinv k m = .ok c) {readJson} (dir : DirOf (Output String (Fl ℝ)) (Figure String ℝ)) :
    MainPcPlots.Run ppf L "x.py".toList (.ok trioSet) readJson ⟨false, true, false⟩ (List.replicate 9 "BT_MLE") dir (some .index, dir) := by
  have hm : ∀ t ∈ List.replicate 9 "BT_MLE", t = "BT_MLE" ∨ t = "THURSTONE_MLE" := fun t ht => Or.inl (List.eq_of_mem_replicate ht)
  obtain ⟨out, hout⟩ := trioSet_runs hp (readJson := readJson)
  have hread : MainPc.read "x.py".toList (.ok trioSet) readJson = .ok ⟨trioSet, pcScores trioSet.disVideos, pcObservers trioSet.disVideos⟩ :=
    (read_py (path := "x.py".toList) ⟨['x'], rfl⟩ rfl).trans rfl
  obtain ⟨rd, arr, h1, ha, -, -, -, -, -, -, hbt, -⟩ := C139_any_partial (by simp [pairedModels]) (by simp) hout
  have hrd : pcReader trioSet = .ok rd := by
    rcases h1 with ⟨-, d, hd, h⟩ | ⟨⟨l, hl⟩, -⟩
    · cases hd; exact h
    · have := congrArg List.getLast? hl
      rw [show ".json".toList = ['.', 'j', 's', 'o'] ++ ['n'] from rfl, ← List.append_assoc, List.getLast?_concat] at this
      exact absurd this (by decide)
  obtain ⟨r, hr, -⟩ := hbt (by simp)
  obtain ⟨out', hout'⟩ := C139_succeeds (L := L) (readJson := readJson) hm (by simp) ⟨['x'], rfl⟩ rfl hrd ha (fun _ => ⟨r, hr⟩)
    (fun h => absurd (List.eq_of_mem_replicate h) (by decide))
  exact C152_nine_refuted rfl (fun t ht => by rw [List.eq_of_mem_replicate ht]; simp [pairedModels]) (by simp) hout' hread (by simp [trioSet]) dir

end Sureal.Props
