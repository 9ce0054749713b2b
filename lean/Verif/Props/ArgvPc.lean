import Verif.Lemmas.ArgvPc
import Verif.Props.Argv
import Verif.Props.MainPcPlots
/-! # C162: the command line program from its words on, with models for paired comparisons -/
set_option linter.unusedSectionVars false
namespace Sureal.Props
open Sureal Spec Spec.Argv Spec.BT Format PcReader MainPlots

variable {A : Argv.Lib} {ppf : Fl ℝ → ℕ → Fl ℝ} {L : MainPc.Lib ℝ} {readPy : Word → Py (Dataset (String × Int) ℝ)} {readJson : Word → Py (Dataset String ℝ)}
  {argv : List Word} {dirs after : Argv.Dirs (Output String (Fl ℝ)) (Figure String ℝ)} {seen : Argv.Seen (Output String (Fl ℝ)) (Figure String ℝ)}

/-- **C162.** A command line has at most one effect. -/
theorem C162_deterministic {r r' : Argv.Seen (Output String (Fl ℝ)) (Figure String ℝ) × Argv.Dirs (Output String (Fl ℝ)) (Figure String ℝ)}
    (h : ArgvPc.Program A ppf L readPy readJson argv dirs r) (h' : ArgvPc.Program A ppf L readPy readJson argv dirs r') : r = r' := by
  cases h with
  | help h1 =>
    cases h' with
    | help _ => rfl
    | usage h2 => rw [h1] at h2; cases h2
    | run h2 _ => rw [h1] at h2; cases h2
  | usage h1 =>
    cases h' with
    | help h2 => rw [h1] at h2; cases h2
    | usage _ => rfl
    | run h2 _ => rw [h1] at h2; cases h2
  | run h1 r1 =>
    cases h' with
    | help h2 => rw [h1] at h2; cases h2
    | usage h2 => rw [h1] at h2; cases h2
    | run h2 r2 => rw [h1] at h2; cases h2; rw [ArgvPc.main_det r1 r2]

/-- **C162.** Words that do not spell options of the program with a dataset and models: the program ends with code 0 (help) or 2 and does nothing. -/
theorem C162_refused (h : ¬ ∃ ps, Spells A.neg argv ps ∧ datasets ps ≠ [] ∧ modelLists ps ≠ []) :
    ∃ code, (code = 0 ∨ code = 2) ∧ ∀ r, ArgvPc.Program A ppf L readPy readJson argv dirs r ↔ r = ({ code := code }, dirs) := by
  cases hp : Argv.parse A argv with
  | error e =>
    cases e with
    | help => exact ⟨0, Or.inl rfl, fun r => ⟨fun hr => C162_deterministic hr (.help hp), fun e => e ▸ .help hp⟩⟩
    | usage => exact ⟨2, Or.inr rfl, fun r => ⟨fun hr => C162_deterministic hr (.usage hp), fun e => e ▸ .usage hp⟩⟩
  | ok a =>
    obtain ⟨ps, hs, hd, hm, _⟩ := (C155_taken A argv a).1 hp
    refine absurd ⟨ps, hs, ?_, ?_⟩ h
    · intro e; rw [e] at hd; cases hd
    · intro e; rw [e] at hm; cases hm

/-- **C162.** A run that does not end with code 0 shows nothing and leaves all directories as they were; a run that does changes at most the directory
in the last `--output-dir`, and none if it is not given. -/
theorem C162_untouched (h : ArgvPc.Program A ppf L readPy readJson argv dirs (seen, after)) :
    (seen.code ≠ 0 → seen.screen = none ∧ after = dirs) ∧
      ∀ dir, after dir ≠ dirs dir → ∃ ps, Spells A.neg argv ps ∧ (outputDirs ps).getLast? = some dir ∧ dir ≠ [] := by
  generalize hq : (seen, after) = q at h
  cases h with
  | help _ => cases hq; exact ⟨fun h => absurd rfl h, fun _ h => absurd rfl h⟩
  | usage _ => cases hq; exact ⟨fun _ => ⟨rfl, rfl⟩, fun _ h => absurd rfl h⟩
  | @run a r hp _ =>
    obtain ⟨ps, hs, _, _, ho, _⟩ := (C155_taken A argv a).1 hp
    unfold Argv.finishIn at hq
    match r with
    | .error e => cases hq; exact ⟨fun _ => ⟨rfl, rfl⟩, fun _ h => absurd rfl h⟩
    | .ok (o, figs) =>
      dsimp only at hq
      cases hout : a.outputDir with
      | none => rw [hout] at hq; cases hq; exact ⟨fun h => absurd rfl h, fun _ h => absurd rfl h⟩
      | some w =>
        rw [hout] at hq ho
        cases w with
        | nil => cases hq; exact ⟨fun _ => ⟨rfl, rfl⟩, fun _ h => absurd rfl h⟩
        | cons c cs =>
          cases hq
          refine ⟨fun h => absurd rfl h, fun dir hd => ?_⟩
          by_cases e : dir = c :: cs
          · subst e
            exact ⟨ps, hs, ho, List.cons_ne_nil _ _⟩
          · exact absurd (if_neg e) hd

/-- the words after parsing -/
theorem spelled {ps : List Piece} {path : Word} {models : List Word} (hs : Spells A.neg argv ps) (hd : (datasets ps).getLast? = some path)
    (hm : (modelLists ps).getLast? = some models) :
    models.map String.ofList ≠ [] ∧ Argv.parse A argv =
      .ok ⟨path, models, (outputDirs ps).getLast?, ⟨decide (.plotRawData ∈ ps), decide (.plotDisVideos ∈ ps), decide (.plotObservers ∈ ps)⟩⟩ := by
  refine ⟨?_, (C155_taken A argv _).2 ⟨ps, hs, hd, hm, rfl, decide_eq_true_iff, decide_eq_true_iff, decide_eq_true_iff⟩⟩
  rw [Ne, List.map_eq_nil_iff]
  rintro rfl
  have := List.mem_of_getLast? hm
  rw [modelLists, List.mem_filterMap] at this
  obtain ⟨p, _, hp⟩ := this
  cases p <;> simp at hp

/-- **C162 (partial).** Words that spell up to eight models for paired comparisons and a dataset with videos on which these models have an output, in any order and with any
plots: the program ends with code 0.  With a directory, its `output.json` is this output, and figure `k` is in `k.png`; without one the output
and the figures are shown on the screen, and nothing is written.  Each plot asked for is one figure. -/
theorem C162_program_partial {ps : List Piece} {path : Word} {models : List Word} (hs : Spells A.neg argv ps) (hd : (datasets ps).getLast? = some path)
    (hm : (modelLists ps).getLast? = some models) (ho : [] ∉ outputDirs ps) (hpc : ∀ T ∈ models, String.ofList T ∈ pairedModels) (h8 : models.length ≤ 8)
    {out : Output String (Fl ℝ)} (h : MainPc.Main L path (readPy path) (readJson path) (models.map String.ofList) (.ok out)) {rd : PcRd String ℝ}
    (hrd : MainPc.read path (readPy path) (readJson path) = .ok rd) (h0 : rd.dataset.disVideos ≠ []) :
    ∃ figs : List (Figure String ℝ),
      figs.length = (if .plotRawData ∈ ps then 1 else 0) + (if .plotDisVideos ∈ ps then 1 else 0) + (if .plotObservers ∈ ps then 1 else 0) ∧
      ((outputDirs ps = [] ∧ ∀ r, ArgvPc.Program A ppf L readPy readJson argv dirs r ↔ r = ({ code := 0, screen := some (out, figs) }, dirs)) ∨
        ∃ dir after, (outputDirs ps).getLast? = some dir ∧ (∀ r, ArgvPc.Program A ppf L readPy readJson argv dirs r ↔ r = ({ code := 0 }, after)) ∧
          after dir "output.json" = some (.output out) ∧ (∀ (k : ℕ) (f : Figure String ℝ), figs[k]? = some f → after dir (toString (k + 1) ++ ".png") = some (.picture f)) ∧
          ∀ dir', dir' ≠ dir → after dir' = dirs dir') := by
  obtain ⟨hne, hp⟩ := spelled hs hd hm
  have hpc' : ∀ T ∈ models.map String.ofList, T ∈ pairedModels := fun T hT => by obtain ⟨w, hw, rfl⟩ := List.mem_map.1 hT; exact hpc w hw
  obtain ⟨arr, os, rows, s, -, -, -, -, -, -, -, hall⟩ := pc_figures (ppf := ppf) hpc' hne (by simpa using h8) h hrd h0
  have hrun := hall ⟨decide (.plotRawData ∈ ps), decide (.plotDisVideos ∈ ps), decide (.plotObservers ∈ ps)⟩
  dsimp only at hrun
  set figs : List (Figure String ℝ) := (if decide (.plotRawData ∈ ps) = true then [.matrix rows] else []) ++ (if decide (.plotDisVideos ∈ ps) = true then [.scores s] else []) ++
    (if decide (.plotObservers ∈ ps) = true then [.observers [] []] else []) with hfigs
  have hpr := ArgvPc.Program.run (A := A) (dirs := dirs) hp hrun
  dsimp only at hpr
  refine ⟨figs, ?_, ?_⟩
  · rw [hfigs]
    by_cases q1 : Piece.plotRawData ∈ ps <;> by_cases q2 : Piece.plotDisVideos ∈ ps <;> by_cases q3 : Piece.plotObservers ∈ ps <;> simp [q1, q2, q3]
  cases hout : (outputDirs ps).getLast? with
  | none =>
    rw [hout] at hpr
    exact Or.inl ⟨List.getLast?_eq_none_iff.1 hout, fun r => ⟨fun h' => C162_deterministic h' hpr, fun e => e ▸ hpr⟩⟩
  | some w =>
    right
    rw [hout] at hpr
    cases w with
    | nil => exact absurd (List.mem_of_getLast? hout) ho
    | cons c cs =>
      obtain ⟨f1, f2, -⟩ := finish_ok (out := out) (figs := figs) (dir := dirs (c :: cs)) rfl
      refine ⟨c :: cs, fun dd => if dd = c :: cs then (finish (.ok (out, figs)) (dirs dd)).2 else dirs dd, rfl,
        fun r => ⟨fun h' => C162_deterministic h' hpr, fun e => e ▸ hpr⟩, ?_, ?_, fun dir' hne => if_neg hne⟩
      · dsimp only
        rw [if_pos rfl]
        exact f1
      · dsimp only
        rw [if_pos rfl]
        exact f2

/-- a failure of the program after its words are read -/
theorem run_fails {ps : List Piece} {path : Word} {models : List Word} (hs : Spells A.neg argv ps) (hd : (datasets ps).getLast? = some path)
    (hm : (modelLists ps).getLast? = some models)
    (hno : ∀ out, ¬ MainPc.Main L path (readPy path) (readJson path) (models.map String.ofList) (.ok out))
    {r : Argv.Seen (Output String (Fl ℝ)) (Figure String ℝ) × Argv.Dirs (Output String (Fl ℝ)) (Figure String ℝ)}
    (h : ArgvPc.Program A ppf L readPy readJson argv dirs r) : r = ({ code := 1 }, dirs) := by
  obtain ⟨-, hp⟩ := spelled hs hd hm
  cases h with
  | help h2 => rw [hp] at h2; cases h2
  | usage h2 => rw [hp] at h2; cases h2
  | @run a r h2 hr =>
    rw [hp] at h2
    cases h2
    rcases r with e | ⟨out, figs⟩
    · rfl
    · exact absurd (ArgvPc.main_output hr) (hno out)

/-- **C162.** The full claim, that the program ends well with any of its models for paired comparisons, fails: with `BT_NR` among them in the last `--models` it ends, if it ends, with
code 1 and writes nothing, whatever the dataset, the other models and the plots are. -/
theorem C162_newton_refuted {ps : List Piece} {path : Word} {models : List Word} (hs : Spells A.neg argv ps) (hd : (datasets ps).getLast? = some path)
    (hm : (modelLists ps).getLast? = some models) (hpc : ∀ T ∈ models, String.ofList T ∈ pairedModels) (hnr : "BT_NR".toList ∈ models)
    {r : Argv.Seen (Output String (Fl ℝ)) (Figure String ℝ) × Argv.Dirs (Output String (Fl ℝ)) (Figure String ℝ)}
    (h : ArgvPc.Program A ppf L readPy readJson argv dirs r) : r = ({ code := 1 }, dirs) := by
  refine run_fails hs hd hm (fun out ho => ?_) h
  obtain ⟨e, he⟩ := C139_newton_fails (fun T hT => by obtain ⟨w, hw, rfl⟩ := List.mem_map.1 hT; exact hpc w hw)
    (List.mem_map.mpr ⟨_, hnr, by decide +kernel⟩) ho
  cases he

/-- **C162.** It fails also for datasets in JSON files: with a comparison in one of them the program ends with code 1 and writes nothing, with any models for paired
comparisons and any plots. -/
theorem C162_json_refuted {ps : List Piece} {path : Word} {models : List Word} (hs : Spells A.neg argv ps) (hd : (datasets ps).getLast? = some path)
    (hm : (modelLists ps).getLast? = some models) (hpc : ∀ T ∈ models, String.ofList T ∈ pairedModels) (hpath : ∃ l, path = l ++ ".json".toList)
    {d : Dataset String ℝ} (hj : readJson path = .ok d) {dv : DisVideo String ℝ} (hdv : dv ∈ d.disVideos) {q : String × Vote ℝ} {l : List (String × Vote ℝ)}
    (hq : dv.os = some (.dict (q :: l))) :
    ∀ r, ArgvPc.Program A ppf L readPy readJson argv dirs r ↔ r = ({ code := 1 }, dirs) := by
  obtain ⟨hne, hp⟩ := spelled hs hd hm
  have hpc' : ∀ T ∈ models.map String.ofList, T ∈ pairedModels := fun T hT => by obtain ⟨w, hw, rfl⟩ := List.mem_map.1 hT; exact hpc w hw
  obtain ⟨e, he, hall, -⟩ := C139_json (L := L) (readPy := readPy path) hpc' hne hpath hj hdv hq
  have hfail : ∀ r, ArgvPc.Program A ppf L readPy readJson argv dirs r → r = ({ code := 1 }, dirs) :=
    fun r => run_fails hs hd hm fun out ho => by cases hall _ ho
  refine fun r => ⟨hfail r, fun e => e ▸ ?_⟩
  obtain ⟨e', he'⟩ := ArgvPc.main_fails (ppf := ppf) (asked := ⟨decide (.plotRawData ∈ ps), decide (.plotDisVideos ∈ ps), decide (.plotObservers ∈ ps)⟩) he
  exact ArgvPc.Program.run (A := A) (dirs := dirs) hp he'

/-- `--models=BT_MLE --plot-raw --plot-o --out=results --data x.py` on the dataset `trioSet` -/
example (A : Argv.Lib) {L : MainPc.Lib ℝ} (hp : ∀ k m, ∃ c, L.npPinv k m = .ok c) (readJson : Word → Py (Dataset String ℝ))
    (dirs : Argv.Dirs (Output String (Fl ℝ)) (Figure String ℝ)) :
    ∃ after out f g, ArgvPc.Program A ppf L (fun _ => .ok trioSet) readJson
      ["--models=BT_MLE".toList, "--plot-raw".toList, "--plot-o".toList, "--out=results".toList, "--data".toList, "x.py".toList] dirs ({ code := 0 }, after) ∧
      after "results".toList "output.json" = some (.output out) ∧ after "results".toList "1.png" = some (.picture f) ∧
      after "results".toList "2.png" = some (.picture g) := by
  have hs : Spells A.neg ["--models=BT_MLE".toList, "--plot-raw".toList, "--plot-o".toList, "--out=results".toList, "--data".toList, "x.py".toList]
      [.models "BT_MLE".toList [], .plotRawData, .plotObservers, .outputDir "results".toList, .dataset "x.py".toList] :=
    .modelsEq (p := "--models".toList) (by refine ⟨?_, ?_, ?_⟩ <;> decide +kernel)
      (.plotRawData (by refine ⟨?_, ?_, ?_⟩ <;> decide +kernel)
        (.plotObservers (by refine ⟨?_, ?_, ?_⟩ <;> decide +kernel)
          (.outputDirEq (p := "--out".toList) (by refine ⟨?_, ?_, ?_⟩ <;> decide +kernel)
            (.dataset (by refine ⟨?_, ?_, ?_⟩ <;> decide +kernel) (by left; decide +kernel) .nil))))
  obtain ⟨out, hout⟩ := trioSet_runs hp (readJson := readJson "x.py".toList)
  have hread : MainPc.read "x.py".toList (.ok trioSet) (readJson "x.py".toList) = .ok ⟨trioSet, pcScores trioSet.disVideos, pcObservers trioSet.disVideos⟩ :=
    (read_py (path := "x.py".toList) ⟨['x'], rfl⟩ rfl).trans rfl
  obtain ⟨figs, h2, h3⟩ := C162_program_partial (A := A) (ppf := ppf) (readPy := fun _ => .ok trioSet) (readJson := readJson) (dirs := dirs) hs
    (path := "x.py".toList) (models := ["BT_MLE".toList]) rfl rfl (by decide +kernel) (by decide +kernel) (by decide) hout hread (by simp [trioSet])
  rcases h3 with ⟨h3, _⟩ | ⟨dir, after, h3, h4, h5, h6, _⟩
  · cases h3
  · cases h3
    match figs, h2, h6 with
    | [f, g], _, h6 => exact ⟨after, out, f, g, (h4 _).mpr rfl, h5, h6 0 f rfl, h6 1 g rfl⟩
    | [], h2, _ => exact absurd (h2.trans (by decide +kernel : _ = 2)) (by simp)
    | [_], h2, _ => exact absurd (h2.trans (by decide +kernel : _ = 2)) (by simp)
    | _ :: _ :: _ :: l, h2, _ => exact absurd (h2.trans (by decide +kernel : _ = 2)) (by simp)

/-- the hypotheses of the refutations: `--data x.py --models BT_MLE BT_NR`, and `--data x.json --models BT_MLE` on the dataset `evenJson` -/
example (A : Argv.Lib) (readPy : Word → Py (Dataset (String × Int) ℝ)) :
    (∀ r, ArgvPc.Program A ppf L readPy readJson ["--data".toList, "x.py".toList, "--models".toList, "BT_MLE".toList, "BT_NR".toList] dirs r → r = ({ code := 1 }, dirs)) ∧
      ArgvPc.Program A ppf L readPy (fun _ => .ok evenJson) ["--data".toList, "x.json".toList, "--models=BT_MLE".toList] dirs ({ code := 1 }, dirs) := by
  have ab : Abbrev "--data".toList "--dataset".toList := by refine ⟨?_, ?_, ?_⟩ <;> decide +kernel
  have am : Abbrev "--models".toList "--models".toList := by refine ⟨?_, ?_, ?_⟩ <;> decide +kernel
  refine ⟨fun r hr => ?_, ?_⟩
  · refine C162_newton_refuted (ps := [.dataset "x.py".toList, .models "BT_MLE".toList ["BT_NR".toList]]) ?_ rfl rfl (by decide +kernel) (by decide +kernel) hr
    exact .dataset ab (by left; decide +kernel) (.models (ms := ["BT_NR".toList]) (l := []) am (by intro v hv; left; revert v; decide +kernel) .nil)
  · refine (C162_json_refuted (ps := [.dataset "x.json".toList, .models "BT_MLE".toList []]) ?_ rfl rfl (by decide +kernel) ⟨['x'], rfl⟩ rfl
      (dv := evenJson.disVideos.head (by simp [evenJson])) (List.head_mem _) rfl _).mpr rfl
    exact .dataset ab (by left; decide +kernel) (.modelsEq (p := "--models".toList) am .nil)

end Sureal.Props
