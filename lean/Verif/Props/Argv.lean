import Verif.Lemmas.Argv
import Verif.Props.MainPlots
/-! # C155: the command line program from the words of the command line on -/
set_option linter.unusedSectionVars false
namespace Sureal.Props
open Sureal Spec Spec.Argv Routine Format Main MainPlots

/-- **C155.** The arguments are taken if and only if they spell options of the program: options in any order, by their names or by beginnings that belong to one option only, with values
after a blank or after `=`, among them `--dataset` and `--models`.  Then the dataset, the models and the directory are the ones in the last such option,
and a plot is drawn if it is asked for anywhere. -/
theorem C155_taken (L : Argv.Lib) (argv : List Word) (a : Argv.Args) :
    Argv.parse L argv = .ok a ↔
      ∃ ps, Spells L.neg argv ps ∧ (datasets ps).getLast? = some a.dataset ∧ (modelLists ps).getLast? = some a.models ∧
        (outputDirs ps).getLast? = a.outputDir ∧ (a.asked.rawData = true ↔ .plotRawData ∈ ps) ∧ (a.asked.disVideos = true ↔ .plotDisVideos ∈ ps) ∧
        (a.asked.observers = true ↔ .plotObservers ∈ ps) := by
  constructor
  · intro h
    rw [Argv.parse] at h
    cases ht : Argv.tokens L argv with
    | error e => rw [ht] at h; cases h
    | ok ts =>
      rw [ht] at h
      dsimp only at h
      cases hc : Argv.consume L {} ts with
      | error e => rw [hc] at h; cases h
      | ok ns =>
        rw [hc] at h
        dsimp only at h
        cases hd : ns.dataset with
        | none => rw [hd] at h; cases h
        | some d =>
          cases hm : ns.models with
          | none => rw [hd, hm] at h; cases h
          | some ms =>
            rw [hd, hm] at h
            dsimp only at h
            cases he : ns.extras with
            | true => rw [he] at h; cases h
            | false =>
              rw [he] at h
              cases h
              obtain ⟨ps, hs, e⟩ := Argv.spells_consume argv.length argv ts {} ns le_rfl ht hc he
              obtain ⟨h1, h2, h3, h4, h5, h6, _⟩ := Argv.foldl_apply ps
              rw [← e] at h1 h2 h3 h4 h5 h6
              refine ⟨ps, hs, h1 ▸ hd, h2 ▸ hm, h3.symm, ?_, ?_, ?_⟩
              · rw [h4, decide_eq_true_eq]
              · rw [h5, decide_eq_true_eq]
              · rw [h6, decide_eq_true_eq]
  · rintro ⟨ps, hs, hd, hm, ho, q1, q2, q3⟩
    obtain ⟨ts, ht, _, hc⟩ := Argv.consume_spells hs
    obtain ⟨h1, h2, h3, h4, h5, h6, h7⟩ := Argv.foldl_apply ps
    rw [Argv.parse, ht]
    dsimp only
    rw [hc]
    dsimp only
    rw [h1, hd, h2, hm]
    dsimp only
    rw [h7, h3, ho]
    have e : (ps.foldl Argv.apply {}).asked = a.asked := by
      have p1 : (ps.foldl Argv.apply {}).asked.rawData = a.asked.rawData := by rw [h4, Bool.eq_iff_iff, decide_eq_true_eq]; exact q1.symm
      have p2 : (ps.foldl Argv.apply {}).asked.disVideos = a.asked.disVideos := by rw [h5, Bool.eq_iff_iff, decide_eq_true_eq]; exact q2.symm
      have p3 : (ps.foldl Argv.apply {}).asked.observers = a.asked.observers := by rw [h6, Bool.eq_iff_iff, decide_eq_true_eq]; exact q3.symm
      generalize (ps.foldl Argv.apply {}).asked = x at p1 p2 p3
      obtain ⟨x1, x2, x3⟩ := x
      obtain ⟨_, _, _, y1, y2, y3⟩ := a
      simp only at p1 p2 p3
      rw [p1, p2, p3]
    rw [e]
    rfl

variable {κ : Type} [LinearOrder κ] {L : Argv.Lib} {ppf : Fl ℝ → ℕ → Fl ℝ} {other : ModelClass → Reader κ ℝ → Py (Result κ ℝ)}
  {pc : Argv.Args → List ModelClass → Py (Output (String ⊕ κ) (Fl ℝ) × List (Figure κ ℝ))} {readPy readJson : Word → Py (Dataset κ ℝ)}
  {d : Dataset κ ℝ} {argv : List Word} {dirs after : Argv.Dirs (Output (String ⊕ κ) (Fl ℝ)) (Figure κ ℝ)}
  {seen : Argv.Seen (Output (String ⊕ κ) (Fl ℝ)) (Figure κ ℝ)}

/-- **C155.** Words that do not spell options of the program with a dataset and models: the program ends with code 0 (help) or 2 and does nothing. -/
theorem C155_refused
    (h : ¬ ∃ ps, Spells L.neg argv ps ∧ datasets ps ≠ [] ∧ modelLists ps ≠ []) :
    ∃ code, (code = 0 ∨ code = 2) ∧ Argv.program L ppf other pc readPy readJson argv dirs = ({ code := code }, dirs) := by
  unfold Argv.program
  cases hp : Argv.parse L argv with
  | error e =>
    cases e with
    | help => exact ⟨0, Or.inl rfl, rfl⟩
    | usage => exact ⟨2, Or.inr rfl, rfl⟩
  | ok a =>
    obtain ⟨ps, hs, hd, hm, _⟩ := (C155_taken L argv a).1 hp
    refine absurd ⟨ps, hs, ?_, ?_⟩ h
    · intro e; rw [e] at hd; cases hd
    · intro e; rw [e] at hm; cases hm

/-- **C155.** A run that does not end with code 0 shows nothing and leaves all directories as they were; a run that does changes at most the directory
in the last `--output-dir`, and none if it is not given. -/
theorem C155_untouched (h : Argv.program L ppf other pc readPy readJson argv dirs = (seen, after)) :
    (seen.code ≠ 0 → seen.screen = none ∧ after = dirs) ∧
      ∀ dir, after dir ≠ dirs dir → ∃ ps, Spells L.neg argv ps ∧ (outputDirs ps).getLast? = some dir ∧ dir ≠ [] := by
  unfold Argv.program at h
  cases hp : Argv.parse L argv with
  | error e =>
    rw [hp] at h
    cases e with
    | help => cases h; exact ⟨fun h => absurd rfl h, fun _ h => absurd rfl h⟩
    | usage => cases h; exact ⟨fun _ => ⟨rfl, rfl⟩, fun _ h => absurd rfl h⟩
  | ok a =>
    rw [hp] at h
    dsimp only at h
    obtain ⟨ps, hs, _, _, ho, _⟩ := (C155_taken L argv a).1 hp
    generalize MainPlots.main ppf other (pc a) a.dataset (readPy a.dataset) (readJson a.dataset) a.asked (a.models.map String.ofList) = r at h
    unfold Argv.finishIn at h
    match r with
    | .error e => cases h; exact ⟨fun _ => ⟨rfl, rfl⟩, fun _ h => absurd rfl h⟩
    | .ok (o, figs) =>
      dsimp only at h
      cases hout : a.outputDir with
      | none => rw [hout] at h; cases h; exact ⟨fun h => absurd rfl h, fun _ h => absurd rfl h⟩
      | some w =>
        rw [hout] at h ho
        cases w with
        | nil => cases h; exact ⟨fun _ => ⟨rfl, rfl⟩, fun _ h => absurd rfl h⟩
        | cons c cs =>
          cases h
          refine ⟨fun h => absurd rfl h, fun dir hd => ?_⟩
          by_cases e : dir = c :: cs
          · subst e
            exact ⟨ps, hs, ho, List.cons_ne_nil _ _⟩
          · exact absurd (if_neg e) hd

/-- **C155 (partial).** Words that spell a readable dataset, up to eight of the documented models and any plots, in any order: the program ends with code 0.  With a
directory, its `output.json` is what the models in the last `--models` give on the dataset in the last `--dataset`, and figure `k` is in `k.png`; without one the output
and the figures are shown on the screen, and nothing is written.  Missing: the models in all but the last `--models`. -/
theorem C155_program_partial {ps : List Piece} {path : Word} {models : List Word} (hs : Spells L.neg argv ps) (hd : (datasets ps).getLast? = some path)
    (hm : (modelLists ps).getLast? = some models) (ho : [] ∉ outputDirs ps) (hdoc : ∀ T ∈ models, String.ofList T ∈ documented) (h8 : models.length ≤ 8)
    (h : Readable d) (hl : Loads path (readPy path) (readJson path) d) (hv : ∀ dv ∈ d.disVideos, numbersOf dv ≠ []) (hob : EachVoted 2 d) :
    ∃ (out : Output (String ⊕ κ) (Fl ℝ)) (figs : List (Figure κ ℝ)),
      (∀ pc', Main.main ppf other pc' path (readPy path) (readJson path) (models.map String.ofList) = .ok out) ∧
      figs.length = (if .plotRawData ∈ ps then 3 else 0) + (if .plotDisVideos ∈ ps then 1 else 0) + (if .plotObservers ∈ ps then 1 else 0) ∧
      ((outputDirs ps = [] ∧ Argv.program L ppf other pc readPy readJson argv dirs = ({ code := 0, screen := some (out, figs) }, dirs)) ∨
        ∃ dir after, (outputDirs ps).getLast? = some dir ∧ Argv.program L ppf other pc readPy readJson argv dirs = ({ code := 0 }, after) ∧
          after dir "output.json" = some (.output out) ∧ (∀ (k : ℕ) (f : Figure κ ℝ), figs[k]? = some f → after dir (toString (k + 1) ++ ".png") = some (.picture f)) ∧
          ∀ dir', dir' ≠ dir → after dir' = dirs dir') := by
  have hne : models.map String.ofList ≠ [] := by
    rw [Ne, List.map_eq_nil_iff]
    rintro rfl
    have := List.mem_of_getLast? hm
    rw [modelLists, List.mem_filterMap] at this
    obtain ⟨p, _, hp⟩ := this
    cases p <;> simp at hp
  have hdoc' : ∀ T ∈ models.map String.ofList, T ∈ documented := fun T hT => by obtain ⟨w, hw, rfl⟩ := List.mem_map.1 hT; exact hdoc w hw
  let a : Argv.Args := ⟨path, models, (outputDirs ps).getLast?, ⟨decide (.plotRawData ∈ ps), decide (.plotDisVideos ∈ ps), decide (.plotObservers ∈ ps)⟩⟩
  have hp : Argv.parse L argv = .ok a :=
    (C155_taken L argv a).2 ⟨ps, hs, hd, hm, rfl, decide_eq_true_iff, decide_eq_true_iff, decide_eq_true_iff⟩
  obtain ⟨aft, -, -, -, -, -, -, -, -, hprog, -⟩ := C150_figures_partial (ppf := ppf) (other := other) (pc := pc a) (models := models.map String.ofList) a.asked (fun _ => none)
    hdoc' hne (by simpa using h8) h hl hv hob
  obtain ⟨_, _, cs, _, _, _, _, _, _, _, h3, hcne, h4⟩ := documented_good (other := other) hdoc' hne h hv hob
  obtain ⟨out, figs, hrun⟩ : ∃ out figs, MainPlots.main ppf other (pc a) path (readPy path) (readJson path) a.asked (models.map String.ofList) = .ok (out, figs) := by
    unfold MainPlots.program at hprog
    rcases hmm : MainPlots.main ppf other (pc a) path (readPy path) (readJson path) a.asked (models.map String.ofList) with e | ⟨out, figs⟩
    · rw [hmm] at hprog; cases hprog
    · exact ⟨out, figs, rfl⟩
  have hmain : ∀ pc', Main.main ppf other pc' path (readPy path) (readJson path) (models.map String.ofList) = .ok out := by
    intro pc'
    obtain ⟨o2, f2, hm2, ho2, -⟩ := C150_same hprog
    unfold MainPlots.program at hprog
    rw [hrun] at hprog
    obtain ⟨h1, -⟩ := finish_ok hprog
    rw [h1] at ho2
    cases ho2
    rw [main_raw ppf other _ h3 hcne fun c hc => (h4 c hc).1] at hm2
    rw [main_raw ppf other _ h3 hcne fun c hc => (h4 c hc).1, hm2]
  have hlen : figs.length = (doPlot a.asked).length := by
    rw [plots_main_raw h3 hcne fun c hc => (h4 c hc).1] at hrun
    unfold MainPlots.runAll at hrun
    split at hrun
    · cases hrun
    split at hrun
    · cases hrun
    split at hrun
    · cases hrun
    split at hrun
    · cases hrun
    rename_i hdraw
    split at hrun
    · cases hrun
    cases hrun
    exact mapPy_length hdraw
  refine ⟨out, figs, hmain, ?_, ?_⟩
  · rw [hlen]
    show (doPlot ⟨decide (.plotRawData ∈ ps), decide (.plotDisVideos ∈ ps), decide (.plotObservers ∈ ps)⟩).length = _
    by_cases q1 : Piece.plotRawData ∈ ps <;> by_cases q2 : Piece.plotDisVideos ∈ ps <;> by_cases q3 : Piece.plotObservers ∈ ps <;> simp [doPlot, q1, q2, q3]
  have hpr : Argv.program L ppf other pc readPy readJson argv dirs = Argv.finishIn (outputDirs ps).getLast? (.ok (out, figs)) dirs := by
    unfold Argv.program
    rw [hp]
    dsimp only
    rw [show MainPlots.main ppf other (pc a) a.dataset (readPy a.dataset) (readJson a.dataset) a.asked (a.models.map String.ofList) = .ok (out, figs) from hrun]
  rw [hpr]
  cases hout : (outputDirs ps).getLast? with
  | none => exact Or.inl ⟨List.getLast?_eq_none_iff.1 hout, rfl⟩
  | some w =>
    right
    cases w with
    | nil => exact absurd (List.mem_of_getLast? hout) ho
    | cons c cs =>
      obtain ⟨f1, f2, -⟩ := finish_ok (out := out) (figs := figs) (dir := dirs (c :: cs)) rfl
      refine ⟨c :: cs, fun dd => if dd = c :: cs then (finish (.ok (out, figs)) (dirs dd)).2 else dirs dd, rfl, rfl, ?_, ?_, fun dir' hne => if_neg hne⟩
      · dsimp only
        rw [if_pos rfl]
        exact f1
      · dsimp only
        rw [if_pos rfl]
        exact f2

/-- **C155.** The full claim, that all models named on the command line are run, fails: of two lists of models the first has no effect. -/
theorem C155_last_refuted {path m m' : Word} {ms ms' : List Word} (hp : Value L.neg path) (h : ∀ v ∈ m :: ms, Value L.neg v) (h' : ∀ v ∈ m' :: ms', Value L.neg v) :
    Argv.program L ppf other pc readPy readJson ("--dataset".toList :: path :: "--models".toList :: m :: (ms ++ "--models".toList :: m' :: ms')) dirs =
      Argv.program L ppf other pc readPy readJson ("--dataset".toList :: path :: "--models".toList :: m' :: ms') dirs := by
  have ab : ∀ n ∈ longNames, Abbrev n n := by
    intro n hn
    refine ⟨?_, List.prefix_refl _, ?_⟩
    · revert n; decide +kernel
    · revert n; decide +kernel
  have h1 : Argv.parse L ("--dataset".toList :: path :: "--models".toList :: m' :: ms') = .ok ⟨path, m' :: ms', none, {}⟩ := by
    refine (C155_taken L _ _).2 ⟨[.dataset path, .models m' ms'], ?_, rfl, rfl, rfl, by simp, by simp, by simp⟩
    have := Spells.models (ab _ (by decide +kernel)) h' (.nil (neg := L.neg))
    rw [List.append_nil] at this
    exact .dataset (ab _ (by decide +kernel)) hp this
  have h2 : Argv.parse L ("--dataset".toList :: path :: "--models".toList :: m :: (ms ++ "--models".toList :: m' :: ms')) = .ok ⟨path, m' :: ms', none, {}⟩ := by
    refine (C155_taken L _ _).2 ⟨[.dataset path, .models m ms, .models m' ms'], ?_, rfl, rfl, rfl, by simp, by simp, by simp⟩
    have := Spells.models (ab _ (by decide +kernel)) h' (.nil (neg := L.neg))
    rw [List.append_nil] at this
    exact .dataset (ab _ (by decide +kernel)) hp (.models (ab _ (by decide +kernel)) h this)
  unfold Argv.program
  rw [h1, h2]

/-- `--plot-d --models MOS P910 --out=results --data scores.py --models=BT500` on the dataset `exComplete` -/
example (L : Argv.Lib) (ppf : Fl ℝ → ℕ → Fl ℝ) (other : ModelClass → Reader String ℝ → Py (Result String ℝ))
    (pc : Argv.Args → List ModelClass → Py (Output (String ⊕ String) (Fl ℝ) × List (Figure String ℝ)))
    (dirs : Argv.Dirs (Output (String ⊕ String) (Fl ℝ)) (Figure String ℝ)) :
    ∃ after out f, Argv.program L ppf other pc (fun _ => .ok exComplete) (fun _ => .error .assertion)
      ["--plot-d".toList, "--models".toList, "MOS".toList, "P910".toList, "--out=results".toList, "--data".toList, "scores.py".toList, "--models=BT500".toList] dirs =
        ({ code := 0 }, after) ∧ after "results".toList "output.json" = some (.output out) ∧ after "results".toList "1.png" = some (.picture f) ∧
      ∀ pc', Main.main ppf other pc' "scores.py".toList (.ok exComplete) (.error .assertion) ["BT500"] = .ok out := by
  have hv : ∀ dv ∈ exComplete.disVideos, numbersOf (κ := String) (K := ℝ) dv ≠ [] := fun dv hdv hnil => by
    have := exComplete_votes.2.1 dv hdv
    rw [hnil] at this
    simp at this
  have hs : Spells L.neg ["--plot-d".toList, "--models".toList, "MOS".toList, "P910".toList, "--out=results".toList, "--data".toList, "scores.py".toList, "--models=BT500".toList]
      [.plotDisVideos, .models "MOS".toList ["P910".toList], .outputDir "results".toList, .dataset "scores.py".toList, .models "BT500".toList []] :=
    .plotDisVideos (by refine ⟨?_, ?_, ?_⟩ <;> decide +kernel)
      (.models (ms := ["P910".toList]) (by refine ⟨?_, ?_, ?_⟩ <;> decide +kernel) (by intro v hv; left; revert v; decide +kernel)
        (.outputDirEq (p := "--out".toList) (by refine ⟨?_, ?_, ?_⟩ <;> decide +kernel)
          (.dataset (by refine ⟨?_, ?_, ?_⟩ <;> decide +kernel) (by left; decide +kernel)
            (.modelsEq (p := "--models".toList) (by refine ⟨?_, ?_, ?_⟩ <;> decide +kernel) .nil))))
  obtain ⟨out, figs, h1, h2, h3⟩ := C155_program_partial (L := L) (ppf := ppf) (other := other) (pc := pc) (readPy := fun _ => .ok exComplete) (readJson := fun _ => .error .assertion)
    (dirs := dirs) hs (path := "scores.py".toList) (models := ["BT500".toList]) rfl rfl (by decide +kernel) (by decide +kernel) (by decide) exComplete_readable (ex_loads _) hv exComplete_votes.2.2
  rcases h3 with ⟨h3, _⟩ | ⟨dir, after, h3, h4, h5, h6, _⟩
  · cases h3
  · cases h3
    obtain ⟨f, hf⟩ : ∃ f, figs[0]? = some f := by
      cases figs with
      | nil => exact absurd h2 (by decide +kernel)
      | cons f l => exact ⟨f, rfl⟩
    exact ⟨after, out, f, h4, h5, h6 0 f hf, h1⟩

/-- words that are refused: a word too many, an ambiguous beginning, a value that looks like an option, no models -/
example (L : Argv.Lib) (h : L.neg "-x".toList = false) :
    Argv.parse L ["--dataset".toList, "a.py".toList, "b.py".toList, "--models".toList, "MOS".toList] = .error .usage ∧
      Argv.parse L ["--dataset".toList, "a.py".toList, "--models".toList, "MOS".toList, "--plot".toList] = .error .usage ∧
      Argv.parse L ["--models".toList, "MOS".toList, "--dataset".toList, "-x".toList] = .error .usage ∧
      Argv.parse L ["--dataset".toList, "a.py".toList] = .error .usage := by
  refine ⟨?_, ?_, ?_, ?_⟩
  · rw [Argv.parse, show Argv.tokens L _ = .ok [.option (some .dataset) "--dataset".toList none, .value "a.py".toList, .value "b.py".toList,
      .option (some .models) "--models".toList none, .value "MOS".toList] from rfl]
    simp [Argv.consume, Argv.leading]
  · rw [Argv.parse, show Argv.tokens L _ = .error .usage from rfl]
  · have e : Argv.classify L "-x".toList = .ok (.option none "-x".toList none) := by
      rcases Argv.classify_short L (c := 'x') (by decide) [] with ⟨h', _⟩ | ⟨_, e⟩
      · exact absurd h' (by decide)
      · rw [show L.neg ['-', 'x'] = false from h] at e
        exact e
    have t : Argv.tokens L ["-x".toList] = .ok [.option none "-x".toList none] := Argv.tokens_cons (by decide +kernel) e rfl
    rw [Argv.parse, Argv.tokens_cons (t := .option (some .models) "--models".toList none) (by decide +kernel) rfl
      (Argv.tokens_cons (t := .value "MOS".toList) (by decide +kernel) rfl
        (Argv.tokens_cons (t := .option (some .dataset) "--dataset".toList none) (by decide +kernel) rfl t))]
    simp [Argv.consume, Argv.leading]
  · rw [Argv.parse, show Argv.tokens L _ = .ok [.option (some .dataset) "--dataset".toList none, .value "a.py".toList] from rfl]
    simp [Argv.consume]

end Sureal.Props
