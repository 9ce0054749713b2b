import Verif.Lemmas.MainPlots
import Verif.Props.Main
/-! # C150: the command line program with plots -/
set_option linter.unusedSectionVars false
namespace Sureal.Props
open Sureal Spec Routine Format Main MainPlots
variable {κ : Type} [LinearOrder κ] {ppf : Fl ℝ → ℕ → Fl ℝ} {other : ModelClass → Reader κ ℝ → Py (Result κ ℝ)}
  {pc : List ModelClass → Py (Output (String ⊕ κ) (Fl ℝ) × List (Figure κ ℝ))} {path : List Char} {readPy readJson : Py (Dataset κ ℝ)}
  {d : Dataset κ ℝ} {asked : Asked} {models : List String} {dir after : Dir κ ℝ}

/-- **C150.** Asking for plots does not change the output: if the program ends well, `output.json` is what the program writes without plots; every figure
is saved in a file of its own, figure `k` as `k.png`; all other files of the directory are as before. -/
theorem C150_same (h : program ppf other pc path readPy readJson asked models dir = (none, after)) :
    ∃ (out : Output (String ⊕ κ) (Fl ℝ)) (figs : List (Figure κ ℝ)),
      Main.main ppf other (fun cs => (pc cs).map Prod.fst) path readPy readJson models = .ok out ∧
      after "output.json" = some (.output out) ∧
      (∀ (k : ℕ) (f : Figure κ ℝ), figs[k]? = some f → after (toString (k + 1) ++ ".png") = some (.picture f)) ∧
      ∀ name, name ≠ "output.json" → (∀ k < figs.length, name ≠ toString (k + 1) ++ ".png") → after name = dir name := by
  unfold program at h
  rcases hm : MainPlots.main ppf other pc path readPy readJson asked models with e | ⟨out, figs⟩
  · rw [hm] at h
    cases h
  rw [hm] at h
  refine ⟨out, figs, ?_, finish_ok h⟩
  · unfold MainPlots.main at hm
    unfold Main.main
    split at hm
    · cases hm
    rename_i cs hcs
    rw [hcs]
    dsimp only
    split at hm
    · cases hm
    · rename_i hr
      rw [hr]
      unfold MainPlots.runAll at hm
      unfold Main.runAll
      dsimp only
      split at hm
      · cases hm
      rename_i reports hrep
      rw [hrep]
      dsimp only
      split at hm
      · cases hm
      rename_i d hd
      rw [hd]
      dsimp only
      split at hm
      · cases hm
      split at hm
      · cases hm
      split at hm
      · cases hm
      rename_i hf
      cases hm
      exact hf
    · rename_i hr
      rw [hr]
      dsimp only
      rw [hm]
      rfl

/-- **C150, failures.** If the program ends with an error, no file was touched. -/
theorem C150_untouched {e : PyErr} (h : program ppf other pc path readPy readJson asked models dir = (some e, after)) : after = dir := by
  unfold program finish at h
  split at h
  · cases h; rfl
  · cases h

/-- the program for models of raw scores -/
theorem plots_main_raw {cs : List ModelClass} (h1 : List.Forall₂ (fun t c => c.ownType = some t) models cs) (hne : cs ≠ []) (h2 : ∀ c ∈ cs, Usable c) :
    MainPlots.main ppf other pc path readPy readJson asked models = MainPlots.runAll ppf other path readPy readJson asked cs := by
  unfold MainPlots.main
  rw [findAll_types h1 fun c hc => (h2 c hc).2]
  dsimp only
  rw [((C78_reader (inMro .SubjectiveModel) (inMro .PairedCompSubjectiveModel) cs (fun c _ => inMro_subj c)).1).mpr ⟨hne, fun c hc => (h2 c hc).1⟩]

/-- **C150 (partial).** For up to eight of the documented models, a readable dataset, votes on every video and at least two votes by every observer, the
program ends well whatever plots were asked for.  The files are, in this order: with `--plot-raw-data` the matrix of the mean votes of each observer on each video, the counts by video and the counts
by observer; with `--plot-dis-videos` the scores and intervals of each model; with `--plot-observers` the biases and inconsistencies of the models that have them,
with the intervals that are written to the output and the names of the observers. -/
theorem C150_figures_partial (asked : Asked) (dir : Dir κ ℝ) (hm : ∀ T ∈ models, T ∈ documented) (hne : models ≠ []) (h8 : models.length ≤ 8) (h : Readable d)
    (hl : Loads path readPy readJson d) (hv : ∀ dv ∈ d.disVideos, numbersOf dv ≠ []) (ho : EachVoted 2 d) :
    ∃ (after : Dir κ ℝ) (rd : Reader κ ℝ) (a : Arr3D (Fl ℝ)) (results : List (Result κ ℝ)) (c c' : List (ℕ × Fl ℝ × ℕ))
      (s : List (ScorePlots.Series ℝ)) (b : List (ScorePlots.Series ℝ × Option (List κ))) (v : List (ScorePlots.Series ℝ)),
      program ppf other pc path readPy readJson asked models dir = (none, after) ∧ rawReader d = .ok rd ∧ rd.scores = .ok a ∧
      List.Forall₂ (fun T r => ∃ m : ModelClass, m.ownType = some T ∧ runClass other m rd = .ok r) models results ∧
      Plots.rawCounts a.get = .ok c ∧ Plots.rawCountsPerSubject a.get = .ok c' ∧
      s.map (·.ys) = results.map (·.qualityScores) ∧ s.map (·.err) = results.map (·.qualityScoresCi95) ∧
      b.map (fun p => (p.1.ys, p.1.err.map fun e => Val.rows [e.1, e.2], p.2)) =
        results.filterMap (fun r => r.observerBias.map fun l => (l, entry ppf r "observer_bias_ci95", r.observers)) ∧
      v.map (fun s => (s.ys, s.err.map fun e => Val.rows [e.1, e.2])) =
        results.filterMap (fun r => r.observerInconsistency.map fun l => (l, entry ppf r "observer_inconsistency_ci95")) ∧
      ∀ (k : ℕ) (f : Figure κ ℝ),
        ((if asked.rawData then [.matrix (List.ofFn fun i => List.ofFn fun j => Plots.meanMatrix a.get i j), .counts c, .counts c'] else []) ++
          (if asked.disVideos then [.scores s] else []) ++ (if asked.observers then [.observers b v] else []))[k]? = some f →
        after (toString (k + 1) ++ ".png") = some (.picture f) := by
  obtain ⟨rd, a, cs, hrd, ha, hE, hS, hrated, hc, hdv, h3, hcne, h4⟩ := documented_good (other := other) hm hne h hv ho
  obtain ⟨reports, hf, hrun⟩ := run_good other hl hrd fun c hcm => (h4 c hcm).2
  obtain ⟨out, hout⟩ := format_good ppf other (d := d) hf
  have hlen : (reports.map (·.result)).length = models.length := by rw [List.length_map, ← hf.length_eq, h3.length_eq]
  have hfits : ∀ r ∈ reports.map (·.result), Fits rd.disVideos.length a.S r := by
    intro r hr
    obtain ⟨rep, hm, rfl⟩ := List.mem_map.mp hr
    obtain ⟨k, hk, rfl⟩ := List.getElem_of_mem hm
    have := hf.get (by rw [hf.length_eq]; exact hk) hk
    exact this.1.2.2.1
  have hresults : List.Forall₂ (fun T r => ∃ m : ModelClass, m.ownType = some T ∧ runClass other m rd = .ok r) models (reports.map (·.result)) := by
    rw [List.forall₂_map_right_iff]
    clear hrun hout hlen hfits h4 hcne h8 hm hne
    induction h3 generalizing reports with
    | nil => cases hf; exact .nil
    | cons h1 _ ih =>
      cases hf with
      | cons h2 h5 => exact .cons ⟨_, h1, h2.1.1⟩ (ih _ h5)
  generalize hres : reports.map (·.result) = results at hlen hfits hresults
  obtain ⟨⟨c, hcc⟩, ⟨c', hcc'⟩⟩ := rawCounts_runs (some_mean hE hrated hc)
  have harg : Argsort fun l : List (Fl ℝ) => insArgsort l := insArgsort_ok
  have hq : ScorePlots.quality (fun l => List.range l.length) false .errorbar results = ScorePlots.quality insArgsort false .errorbar results := by
    unfold ScorePlots.quality
    cases results <;> rfl
  obtain ⟨s, hs⟩ := C110_runs insArgsort harg false .errorbar nofun results (by rintro rfl; exact hne (List.length_eq_zero_iff.mp hlen.symm)) (by omega)
    rd.disVideos.length (by omega) fun r hr => (hfits r hr).scores
  have hslen := (C110_scores insArgsort harg false .errorbar results _ (fun r hr => (hfits r hr).scores) s hs).1
  have hsk := fun k x r => C110_intervals_partial insArgsort results _ (fun r hr => (hfits r hr).scores) s hs k x r
  obtain ⟨⟨b, v⟩, hbv⟩ := observersLoop_runs ppf hS (k := 0) (rs := results) (by omega) hfits
  obtain ⟨hb, hv'⟩ := observersLoop_ok ppf hbv
  have hdraw : mapPy (draw ppf rd.scores results) (doPlot asked) = .ok
      ((if asked.rawData then [.matrix (List.ofFn fun i => List.ofFn fun j => Plots.meanMatrix a.get i j), .counts c, .counts c'] else []) ++
          (if asked.disVideos then [.scores s] else []) ++ (if asked.observers then [.observers b v] else [])) := by
    have d1 : draw ppf rd.scores results .rawScores = .ok (.matrix (List.ofFn fun i => List.ofFn fun j => Plots.meanMatrix a.get i j)) := by
      unfold draw; rw [ha]
    have d2 : draw ppf rd.scores results .rawCounts = .ok (.counts c) := by unfold draw; rw [ha]; dsimp only; rw [hcc]
    have d3 : draw ppf rd.scores results .rawCountsPerSubject = .ok (.counts c') := by unfold draw; rw [ha]; dsimp only; rw [hcc']
    have d4 : draw ppf rd.scores results .qualityScores = .ok (.scores s) := by unfold draw; dsimp only; rw [hq, hs]
    have d5 : draw ppf rd.scores results .subjectScores = .ok (.observers b v) := by unfold draw; dsimp only; rw [hbv]
    unfold doPlot
    rcases asked with ⟨_ | _, _ | _, _ | _⟩ <;> simp [mapPy, d1, d2, d3, d4, d5]
  generalize hfigs : (if asked.rawData then [Figure.matrix (List.ofFn fun i => List.ofFn fun j => Plots.meanMatrix a.get i j), .counts c, .counts c'] else []) ++
          (if asked.disVideos then [.scores s] else []) ++ (if asked.observers then [.observers b v] else []) = figs at hdraw
  have hmain : MainPlots.main ppf other pc path readPy readJson asked models = .ok (out, figs) := by
    rw [plots_main_raw h3 hcne fun c hcm => (h4 c hcm).1]
    unfold MainPlots.runAll
    rw [hrun]
    dsimp only
    rw [(loads_read hl).2]
    dsimp only
    rw [hrd]
    dsimp only
    rw [hres, hdraw]
    dsimp only
    rw [hout]
  refine ⟨_, rd, a, results, c, c', s, b, v, by unfold program; rw [hmain]; rfl, hrd, ha, hresults, hcc, hcc', ?_, ?_, hb, hv', ?_⟩
  · apply List.ext_getElem (by simp [hslen])
    intro k h1 h2
    rw [List.length_map] at h1 h2
    simp only [List.getElem_map]
    exact (hsk k _ _ (List.getElem?_eq_getElem h1) (List.getElem?_eq_getElem h2)).1
  · apply List.ext_getElem (by simp [hslen])
    intro k h1 h2
    rw [List.length_map] at h1 h2
    simp only [List.getElem_map]
    exact (hsk k _ _ (List.getElem?_eq_getElem h1) (List.getElem?_eq_getElem h2)).2
  · intro k f hk
    rw [hfigs] at hk
    rw [Nat.add_comm k 1]
    exact show_figure _ 1 _ k f hk

/-- **C150 (refuted).** With nine models or more and `--plot-dis-videos` the program ends with an IndexError and writes nothing, though it writes the output
without the option: the list of colours has eight entries, and the plots are drawn before the output is written. -/
theorem C150_nine_refuted (asked : Asked) (hask : asked.disVideos = true) (dir : Dir κ ℝ) (hm : ∀ T ∈ models, T ∈ documented) (h8 : 8 < models.length) (h : Readable d)
    (hl : Loads path readPy readJson d) (hv : ∀ dv ∈ d.disVideos, numbersOf dv ≠ []) (ho : EachVoted 2 d) :
    program ppf other pc path readPy readJson asked models dir = (some .index, dir) ∧
      ∃ after, program ppf other pc path readPy readJson {} models dir = (none, after) ∧ ∃ out, after "output.json" = some (.output out) := by
  have hne : models ≠ [] := by rintro rfl; simp at h8
  obtain ⟨rd, a, cs, hrd, ha, hE, hS, hrated, hc, hdv, h3, hcne, h4⟩ := documented_good (other := other) hm hne h hv ho
  obtain ⟨reports, hf, hrun⟩ := run_good other hl hrd fun c hcm => (h4 c hcm).2
  obtain ⟨out, hout⟩ := format_good ppf other (d := d) hf
  have hlen : (reports.map (·.result)).length = models.length := by rw [List.length_map, ← hf.length_eq, h3.length_eq]
  have hfits : ∀ r ∈ reports.map (·.result), Fits rd.disVideos.length a.S r := by
    intro r hr
    obtain ⟨rep, hm, rfl⟩ := List.mem_map.mp hr
    obtain ⟨k, hk, rfl⟩ := List.getElem_of_mem hm
    have := hf.get (by rw [hf.length_eq]; exact hk) hk
    exact this.1.2.2.1
  generalize hres : reports.map (·.result) = results at hlen hfits
  obtain ⟨⟨c, hcc⟩, ⟨c', hcc'⟩⟩ := rawCounts_runs (some_mean hE hrated hc)
  have hq : ScorePlots.quality (fun l => List.range l.length) false .errorbar results = ScorePlots.quality insArgsort false .errorbar results := by
    unfold ScorePlots.quality
    cases results <;> rfl
  have hbad := C111_refuted_nine insArgsort insArgsort_ok false .errorbar nofun results (by omega) rd.disVideos.length (by omega) fun r hr => (hfits r hr).scores
  have hdraw : mapPy (draw ppf rd.scores results) (doPlot asked) = .error .index := by
    have d1 : draw ppf rd.scores results .rawScores = .ok (.matrix (List.ofFn fun i => List.ofFn fun j => Plots.meanMatrix a.get i j)) := by
      unfold draw; rw [ha]
    have d2 : draw ppf rd.scores results .rawCounts = .ok (.counts c) := by unfold draw; rw [ha]; dsimp only; rw [hcc]
    have d3 : draw ppf rd.scores results .rawCountsPerSubject = .ok (.counts c') := by unfold draw; rw [ha]; dsimp only; rw [hcc']
    have d4 : draw ppf rd.scores results .qualityScores = .error .index := by unfold draw; dsimp only; rw [hq, hbad]
    unfold doPlot
    rcases asked with ⟨_ | _, _ | _, _ | _⟩ <;> first | (simp [mapPy, d1, d2, d3, d4]; done) | cases hask
  have hrunall : ∀ asked', MainPlots.main ppf other pc path readPy readJson asked' models =
      match mapPy (draw ppf rd.scores results) (doPlot asked') with
        | .error e => .error e
        | .ok figs => .ok (out, figs) := by
    intro asked'
    rw [plots_main_raw h3 hcne fun c hcm => (h4 c hcm).1]
    unfold MainPlots.runAll
    rw [hrun]
    dsimp only
    rw [(loads_read hl).2]
    dsimp only
    rw [hrd]
    dsimp only
    rw [hres]
    cases mapPy (draw ppf rd.scores results) (doPlot asked') with
    | error e => rfl
    | ok figs =>
      dsimp only
      rw [hout]
  refine ⟨?_, ?_⟩
  · unfold program
    rw [hrunall, hdraw]
    rfl
  · refine ⟨dir.write "output.json" (.output out), ?_, out, if_pos rfl⟩
    unfold program
    rw [hrunall]
    rfl

/-- **C150 (refuted).** The pictures in the directory need not belong to the output beside them: a picture of an earlier run with more plots stays. -/
theorem C150_stale_refuted (old : File (Output (String ⊕ κ) (Fl ℝ)) (Figure κ ℝ)) (hold : dir "1.png" = some old) (hm : ∀ T ∈ models, T ∈ documented) (hne : models ≠ []) (h8 : models.length ≤ 8)
    (h : Readable d) (hl : Loads path readPy readJson d) (hv : ∀ dv ∈ d.disVideos, numbersOf dv ≠ []) (ho : EachVoted 2 d) :
    ∃ after, program ppf other pc path readPy readJson {} models dir = (none, after) ∧ after "1.png" = some old := by
  obtain ⟨rd, a, cs, hrd, ha, hE, hS, hrated, hc, hdv, h3, hcne, h4⟩ := documented_good (other := other) hm hne h hv ho
  obtain ⟨reports, hf, hrun⟩ := run_good other hl hrd fun c hcm => (h4 c hcm).2
  obtain ⟨out, hout⟩ := format_good ppf other (d := d) hf
  refine ⟨dir.write "output.json" (.output out), ?_, by rw [← hold]; exact if_neg (by decide +kernel)⟩
  unfold program
  rw [plots_main_raw h3 hcne fun c hcm => (h4 c hcm).1]
  unfold MainPlots.runAll
  rw [hrun]
  dsimp only
  rw [(loads_read hl).2]
  dsimp only
  rw [hrd]
  dsimp only
  rw [show mapPy (draw ppf rd.scores (reports.map (·.result))) (doPlot {}) = .ok [] from rfl]
  dsimp only
  rw [hout]
  rfl

/-- the four documented models with all plots on the dataset `exComplete`: five pictures beside the output; nine times MOS fails -/
example (ppf : Fl ℝ → ℕ → Fl ℝ) (other : ModelClass → Reader String ℝ → Py (Result String ℝ))
    (pc : List ModelClass → Py (Output (String ⊕ String) (Fl ℝ) × List (Figure String ℝ))) (dir : Dir String ℝ) :
    (∃ after b v, program ppf other pc "scores.py".toList (.ok exComplete) (.error .assertion) ⟨true, true, true⟩ ["MOS", "P910", "P913", "BT500"] dir = (none, after) ∧
      after "5.png" = some (.picture (.observers b v))) ∧
    program ppf other pc "scores.py".toList (.ok exComplete) (.error .assertion) ⟨false, true, false⟩ (List.replicate 9 "MOS") dir = (some .index, dir) := by
  have hv : ∀ dv ∈ exComplete.disVideos, numbersOf (κ := String) (K := ℝ) dv ≠ [] := fun dv hdv hnil => by
    have := exComplete_votes.2.1 dv hdv
    rw [hnil] at this
    simp at this
  constructor
  · obtain ⟨after, rd, a, results, c, c', s, b, v, h1, -, -, -, -, -, -, -, -, -, h2⟩ := C150_figures_partial (ppf := ppf) (other := other) (pc := pc)
      (models := ["MOS", "P910", "P913", "BT500"]) ⟨true, true, true⟩ dir (by decide) (by simp) (by decide) exComplete_readable (ex_loads _) hv exComplete_votes.2.2
    exact ⟨after, b, v, h1, h2 4 _ rfl⟩
  · exact (C150_nine_refuted ⟨false, true, false⟩ rfl dir (by intro T hT; rw [List.eq_of_mem_replicate hT]; decide) (by simp) exComplete_readable (ex_loads _) hv
      exComplete_votes.2.2).1

end Sureal.Props
