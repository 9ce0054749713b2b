import Verif.Spec.Deprecated
import Verif.Props.Main
import Verif.Props.CorrRejection
import Verif.Props.SampleStats
/-!
# C124: the deprecated command line program
-/
set_option linter.unusedSectionVars false
namespace Sureal.Props
open Sureal Spec Routine Format
variable {κ : Type} [LinearOrder κ]

/-! ### which models are found -/

/-- the options of the deprecated program are the defaults -/
theorem dep_run (other : ModelClass → Reader κ ℝ → Py (Result κ ℝ)) (c : ModelClass) (rd : Reader κ ℝ) :
    Deprecated.runClass other c rd = Main.runClass other c rd := by
  cases c <;> rfl

theorem imported_below {ms : List ModelClass.Module} {c d : ModelClass} (h : Below (ModelClass.imported ms) c d) : ms.contains d.module = true := by
  have : ∃ x, d ∈ (ModelClass.imported ms).subs x := by
    cases h with
    | single h => exact ⟨_, h⟩
    | tail _ h => exact ⟨_, h⟩
  obtain ⟨x, hx⟩ := this
  exact (List.mem_filter.mp hx).2

/-- **C66.** The program `sureal` finds the classes of the imported modules by their TYPE, and those only: not the ones in `sureal.experimental`. -/
theorem C66_program (c : ModelClass) (t : String) :
    Main.known.find .SubjectiveModel t = .ok c ↔ c.ownType = some t ∧ c.module ≠ .experimental := by
  constructor
  · intro h
    obtain ⟨h1, h2, -⟩ := C66_sound _ h
    refine ⟨h2, fun he => ?_⟩
    have := imported_below h1
    rw [he] at this
    exact absurd this (by decide)
  · rintro ⟨h1, h2⟩
    exact Main.known_find c t h1 h2

theorem dep_find (c : ModelClass) (t : String) :
    Deprecated.known.find .SubjectiveModel t = .ok c ↔ c.ownType = some t ∧ (c.module = .subjectiveModel ∨ c.module = .package) := by
  constructor
  · intro h
    obtain ⟨h1, h2, -⟩ := C66_sound _ h
    refine ⟨h2, ?_⟩
    have := imported_below h1
    revert this
    cases c.module <;> decide
  · rintro ⟨h1, h2⟩
    revert h1 h2
    cases c <;> intro h1 h2 <;> first | exact absurd h2 (by decide) | (cases h1; rfl) | cases h1

/-- the accepted names are the TYPEs of the classes that can be found -/
theorem accepted_iff (t : String) : t ∈ accepted ↔ ∃ c, Deprecated.known.find .SubjectiveModel t = .ok c := by
  constructor
  · intro h
    simp only [accepted, listed, List.cons_append, List.nil_append, List.mem_cons, List.not_mem_nil, or_false] at h
    rcases h with rfl | rfl | rfl | rfl | rfl | rfl | rfl | rfl | rfl | rfl | rfl | rfl | rfl | rfl | rfl | rfl | rfl | rfl | rfl | rfl | rfl |
      rfl | rfl | rfl | rfl | rfl | rfl | rfl | rfl <;> exact ⟨_, rfl⟩
  · rintro ⟨c, h⟩
    obtain ⟨h1, h2⟩ := (dep_find c t).mp h
    revert h1 h2
    cases c <;> intro h1 h2 <;> first | exact absurd h2 (by decide) | (cases h1; decide) | cases h1

variable {ppf : Fl ℝ → ℕ → Fl ℝ} {other : ModelClass → Reader κ ℝ → Py (Result κ ℝ)} {readPy readJson : Py (Dataset κ ℝ)}

/-- what the options say -/
theorem dep_options (argv : List String) : ∃ dir print, getCmdOption argv 3 argv.length "--output-dir" = .ok dir ∧
    cmdOptionExists argv 3 argv.length "--print" = .ok print ∧
    (∀ p, dir = some p ↔ ∃ k, FirstAt argv 3 argv.length "--output-dir" k ∧ argv[k + 1]? = some p) ∧
    (print = true ↔ ∃ j, 3 ≤ j ∧ argv[j]? = some "--print") := by
  obtain ⟨print, hp, hp'⟩ := C65_exists (le_refl argv.length) (b := 3) "--print"
  have hp2 : print = true ↔ ∃ j, 3 ≤ j ∧ argv[j]? = some "--print" := by
    rw [hp']
    exact ⟨fun ⟨j, h1, _, h3⟩ => ⟨j, h1, h3⟩, fun ⟨j, h1, h3⟩ => ⟨j, h1, (List.getElem?_eq_some_iff.mp h3).1, h3⟩⟩
  rcases C65_cases argv 3 argv.length "--output-dir" with h | ⟨k, h⟩
  · refine ⟨none, print, C65_absent (le_refl _) h, hp, fun p => ⟨fun he => (by cases he), ?_⟩, hp2⟩
    rintro ⟨k, hk, -⟩
    exact absurd hk.2.2.1 (h k hk.1 hk.2.1)
  · refine ⟨_, print, C65_found (le_refl _) h, hp, fun p => ?_, hp2⟩
    have huniq : ∀ k', FirstAt argv 3 argv.length "--output-dir" k' → k' = k := by
      intro k' h'
      rcases Nat.lt_trichotomy k' k with hlt | he | hlt
      · exact absurd h'.2.2.1 (h.2.2.2 k' h'.1 hlt)
      · exact he
      · exact absurd h.2.2.1 (h'.2.2.2 k h.1 hlt)
    constructor
    · intro he
      split at he
      · exact ⟨k, h, he⟩
      · cases he
    · rintro ⟨k', hk', he⟩
      obtain rfl := huniq k' hk'
      rw [if_pos (List.getElem?_eq_some_iff.mp he).1]
      exact he

/-- **C124.** The program prints its usage and returns 2 if and only if fewer than two arguments follow its name; otherwise it returns 1 if and only if
the first of them is not the name of a model it accepts. Neither depends on the dataset. -/
theorem C124_exit (argv : List String) :
    (Deprecated.main ppf other readPy readJson argv = .ok .usage ↔ argv.length < 3) ∧
    ∀ prog model path rest, argv = prog :: model :: path :: rest →
      (Deprecated.main ppf other readPy readJson argv = .ok .noModel ↔ model ∉ accepted) := by
  obtain ⟨dir, print, h1, h2, -, -⟩ := dep_options argv
  have key : ∀ prog model path rest, argv = prog :: model :: path :: rest →
      Deprecated.main ppf other readPy readJson argv ≠ .ok .usage ∧
      (Deprecated.main ppf other readPy readJson argv = .ok .noModel ↔ model ∉ accepted) := by
    rintro prog model path rest rfl
    unfold Deprecated.main
    simp only [h1, h2]
    rw [accepted_iff]
    cases hf : Deprecated.known.find .SubjectiveModel model with
    | error e => simp
    | ok c =>
      dsimp only
      split <;> simp
  refine ⟨?_, fun prog model path rest h => (key prog model path rest h).2⟩
  match argv, key with
  | [], _ => simp [Deprecated.main]
  | [_], _ => simp [Deprecated.main]
  | [_, _], _ => simp [Deprecated.main]
  | a :: b :: c :: l, key =>
    have := (key a b c l rfl).1
    simp only [List.length_cons]
    exact ⟨fun h => absurd h this, fun h => by omega⟩

/-- what the dictionary holds if no entry but the three-dimensional ones is an array -/
theorem dict_holds (c : ModelClass) (r : Report κ ℝ) (h1 : Deprecated.scoresAreArray c = false) (h2 : Deprecated.rejectionIsArray c = false) :
    HasLists (Deprecated.printed (Deprecated.dict ppf c r)) r.result ∧ HasLists (legible (Deprecated.written (Deprecated.dict ppf c r))) r.result ∧
      HasScalars (legible (Deprecated.written (Deprecated.dict ppf c r))) r.result := by
  obtain ⟨res, names, st⟩ := r
  have hq : Deprecated.dict ppf c ⟨res, names, st⟩ "quality_scores" = some (.nums res.qualityScores) := by
    show some (if Deprecated.scoresAreArray c then _ else _) = _
    rw [h1]
    rfl
  have hr : Deprecated.dict ppf c ⟨res, names, st⟩ "observer_rejected" = res.observerRejected.map .flags := by
    show (res.observerRejected.map fun l => if Deprecated.rejectionIsArray c then _ else _) = _
    rw [h2]
    rfl
  have hr1 : Deprecated.dict ppf c ⟨res, names, st⟩ "observer_rejected_1st_stats" = res.observerRejectedStats1.map .nums := by
    show (res.observerRejectedStats1.map fun l => if Deprecated.rejectionIsArray c then _ else _) = _
    rw [h2]
    rfl
  have hr2 : Deprecated.dict ppf c ⟨res, names, st⟩ "observer_rejected_2nd_stats" = res.observerRejectedStats2.map .nums := by
    show (res.observerRejectedStats2.map fun l => if Deprecated.rejectionIsArray c then _ else _) = _
    rw [h2]
    rfl
  have hv : ∀ (k : String) (o : Option (Val (Fl ℝ))), Deprecated.dict ppf c ⟨res, names, st⟩ k = (Main.entry ppf res k).bind Deprecated.ofVal →
      Main.entry ppf res k = o → Deprecated.dict ppf c ⟨res, names, st⟩ k = o.bind Deprecated.ofVal := by
    intro k o h3 h4
    rw [h3, h4]
  have e1 := hv "quality_scores_std" (res.qualityScoresStd.map .seq) rfl rfl
  have e2 := hv "quality_scores_ci95" (res.qualityScoresCi95.map Main.bounds) rfl rfl
  have e3 := hv "observer_bias" (res.observerBias.map .seq) rfl rfl
  have e4 := hv "observer_bias_std" (res.observerBiasStd.map .seq) rfl rfl
  have e5 := hv "observer_inconsistency" (res.observerInconsistency.map .seq) rfl rfl
  have e6 := hv "observer_inconsistency_std" (res.observerInconsistencyStd.map .seq) rfl rfl
  have e7 := hv "content_ambiguity" (res.contentAmbiguity.map .seq) rfl rfl
  have e8 := hv "content_ambiguity_std" (res.contentAmbiguityStd.map .seq) rfl rfl
  have e9 := hv "aic" (res.aic.map .num) rfl rfl
  have e10 := hv "bic" (res.bic.map .num) rfl rfl
  have e11 : Deprecated.dict ppf c ⟨res, names, st⟩ "quality_ambiguity" = res.qualityAmbiguity.map .nums := rfl
  have e12 : Deprecated.dict ppf c ⟨res, names, st⟩ "observers" = res.observers.map .keys := rfl
  have e13 : Deprecated.dict ppf c ⟨res, names, st⟩ "dof" = res.dof.map .num := rfl
  have e14 : Deprecated.dict ppf c ⟨res, names, st⟩ "loglikelihood" = res.loglikelihood.map .num := rfl
  have e15 : Deprecated.dict ppf c ⟨res, names, st⟩ "num_iter" = res.numIter.map .int := rfl
  refine ⟨?_, ?_, ?_⟩
  · constructor <;> unfold Deprecated.printed <;> dsimp only <;>
      simp only [hq, hr, hr1, hr2, e1, e2, e3, e4, e5, e6, e7, e8, e11, e12]
    · rfl
    · cases res.qualityScoresStd <;> rfl
    · cases res.qualityScoresCi95 <;> rfl
    · cases res.qualityAmbiguity <;> rfl
    · cases res.observerBias <;> rfl
    · cases res.observerBiasStd <;> rfl
    · cases res.observerInconsistency <;> rfl
    · cases res.observerInconsistencyStd <;> rfl
    · cases res.contentAmbiguity <;> rfl
    · cases res.contentAmbiguityStd <;> rfl
    · cases res.observers <;> rfl
    · cases res.observerRejected <;> rfl
    · cases res.observerRejectedStats1 <;> rfl
    · cases res.observerRejectedStats2 <;> rfl
  · constructor <;> unfold legible Deprecated.written <;> dsimp only <;>
      simp only [hq, hr, hr1, hr2, e1, e2, e3, e4, e5, e6, e7, e8, e11, e12]
    · rfl
    · cases res.qualityScoresStd <;> rfl
    · cases res.qualityScoresCi95 <;> rfl
    · cases res.qualityAmbiguity <;> rfl
    · cases res.observerBias <;> rfl
    · cases res.observerBiasStd <;> rfl
    · cases res.observerInconsistency <;> rfl
    · cases res.observerInconsistencyStd <;> rfl
    · cases res.contentAmbiguity <;> rfl
    · cases res.contentAmbiguityStd <;> rfl
    · cases res.observers <;> rfl
    · cases res.observerRejected <;> rfl
    · cases res.observerRejectedStats1 <;> rfl
    · cases res.observerRejectedStats2 <;> rfl
  · constructor <;> unfold legible Deprecated.written <;> dsimp only <;> simp only [e9, e10, e13, e14, e15]
    · cases res.dof <;> rfl
    · cases res.loglikelihood <;> rfl
    · cases res.aic <;> rfl
    · cases res.bic <;> rfl
    · cases res.numIter <;> rfl

/-- a run that returns 0 -/
theorem dep_done {prog model path : String} {rest : List String} {plots : List String} {print file}
    (h : Deprecated.main ppf other readPy readJson (prog :: model :: path :: rest) = .ok (.done plots print file)) :
    ∃ c d rd rep, Deprecated.known.find .SubjectiveModel model = .ok c ∧ Loads path.toList readPy readJson d ∧ rawReader d = .ok rd ∧
      Main.runClass other c rd = .ok rep.result ∧ rep.disVideoNames = d.disVideos.map (·.path) ∧ plots = Deprecated.plots model ∧
      ((∃ j, 3 ≤ j ∧ (prog :: model :: path :: rest)[j]? = some "--print") → print = some (Deprecated.printed (Deprecated.dict ppf c rep))) ∧
      ((¬ ∃ j, 3 ≤ j ∧ (prog :: model :: path :: rest)[j]? = some "--print") → print = none) ∧
      (∀ k p, FirstAt (prog :: model :: path :: rest) 3 (rest.length + 3) "--output-dir" k → (prog :: model :: path :: rest)[k + 1]? = some p →
        file = some (p, Deprecated.written (Deprecated.dict ppf c rep))) ∧
      ((∀ k p, FirstAt (prog :: model :: path :: rest) 3 (rest.length + 3) "--output-dir" k → (prog :: model :: path :: rest)[k + 1]? ≠ some p) →
        file = none) := by
  obtain ⟨dir, pr, h1, h2, h3, h4⟩ := dep_options (prog :: model :: path :: rest)
  have hlen : (prog :: model :: path :: rest).length = rest.length + 3 := rfl
  unfold Deprecated.main at h
  simp only [h1, h2] at h
  split at h
  · cases h
  · rename_i c hc
    split at h
    · cases h
    · cases h
    · rename_i rep reps hrun
      obtain ⟨d, rd, hl, hrd, hf⟩ := C94_run hrun
      cases hf with
      | cons hh _ =>
        obtain ⟨hr, hn, -⟩ := hh
        rw [dep_run] at hr
        rw [Except.ok.injEq, Deprecated.Outcome.done.injEq] at h
        obtain ⟨rfl, rfl, rfl⟩ := h
        have hdv : rd.disVideos = d.disVideos := by
          obtain ⟨-, rfl⟩ := Mock.rawReader_inv hrd
          rfl
        refine ⟨c, d, rd, rep, hc, hl, hrd, hr, by rw [hn, hdv], rfl, ?_, ?_, ?_, ?_⟩
        · intro hj
          rw [if_pos (h4.mpr hj)]
        · intro hj
          rw [if_neg fun hp => hj (h4.mp hp)]
        · intro k p hk hp
          rw [(h3 p).mpr ⟨k, hk, hp⟩]
          rfl
        · intro hno
          cases dir with
          | none => rfl
          | some p =>
            obtain ⟨k, hk, hp⟩ := (h3 p).mp rfl
            exact absurd hp (hno k p hk)

/-! ### what the models return -/

theorem mosFamily_entries {rd : Reader κ ℝ} {o : Opts ℝ} {r : Result κ ℝ} (h : runModeling mosRunModeling rd o = .ok r) :
    r.observerBias = none ∧ r.contentAmbiguity = none := by
  have key : ∀ {res : Result κ ℝ}, mosRunModeling rd o = .ok res → res.observerBias = none ∧ res.contentAmbiguity = none := by
    intro res hr
    unfold mosRunModeling at hr
    split at hr
    · cases hr
    · rename_i p _
      cases hr
      unfold Result.withRejection
      cases p.rejection <;> exact ⟨rfl, rfl⟩
  unfold runModeling at h
  split at h
  · cases h
  · rename_i res hres
    have := key hres
    split at h <;> cases h <;> exact this

theorem mle_entries {mode : Mle.Mode} {rd : Reader κ ℝ} {o : Mle.Opts ℝ} {r : Result κ ℝ} (h : Mle.run mode rd o = .ok r) :
    (r.observerBias ≠ none ↔ mode ≠ .subjectOblivious) ∧ (r.contentAmbiguity ≠ none ↔ mode ≠ .contentOblivious) := by
  obtain ⟨p, C, m, mos, cid, f, dens, obs, -, rfl⟩ := Mle.run_inv h
  cases mode <;> simp [Mle.result]

theorem ap_entries {sd : StdFormula} {rd : Reader κ ℝ} {o : Opts ℝ} {r : Result κ ℝ} (h : runAPWith sd rd o = .ok r) :
    r.observerBias ≠ none ∧ r.contentAmbiguity = none := by
  obtain ⟨p, f, -, -, h⟩ := ap_run h
  rw [h]
  exact ⟨by simp [Ap.result], rfl⟩

/-- the models of the usage message, with what they return and what is plotted -/
theorem listed_class {model : String} (h : model ∈ listed) :
    ∃ (c : ModelClass) (run : Reader κ ℝ → Py (Result κ ℝ)), Deprecated.known.find .SubjectiveModel model = .ok c ∧ (model, run) ∈ runsByName ∧
      (∀ other, Main.runClass other c = run) ∧ Deprecated.scoresAreArray c = false ∧ Deprecated.rejectionIsArray c = false ∧
      ∀ rd r, run rd = .ok r → ("subject_scores" ∈ Deprecated.plots model ↔ r.observerBias ≠ none) ∧
        ("content_scores" ∈ Deprecated.plots model ↔ r.contentAmbiguity ≠ none) := by
  have hno : ∀ {r : Result κ ℝ} {P Q : Prop}, ¬ P → ¬ Q → r.observerBias = none ∧ r.contentAmbiguity = none →
      (P ↔ r.observerBias ≠ none) ∧ (Q ↔ r.contentAmbiguity ≠ none) := by
    rintro r P Q hP hQ ⟨h1, h2⟩
    simp [hP, hQ, h1, h2]
  simp only [listed, List.mem_cons, List.not_mem_nil, or_false] at h
  rcases h with rfl | rfl | rfl | rfl | rfl | rfl | rfl | rfl | rfl | rfl | rfl | rfl
  · exact ⟨.MosModel, (runMOS · {}), rfl, by simp [runsByName], fun _ => rfl, rfl, rfl,
      fun rd r hr => hno (by decide) (by decide) (mosFamily_entries hr)⟩
  · refine ⟨.MaximumLikelihoodEstimationModel, (runMLE · {}), rfl, by simp [runsByName], fun _ => rfl, rfl, rfl, fun rd r hr => ?_⟩
    obtain ⟨h1, h2⟩ := mle_entries hr
    rw [h1, h2]
    decide
  · refine ⟨.MaximumLikelihoodEstimationModelContentOblivious, (runMLE_CO · {}), rfl, by simp [runsByName], fun _ => rfl, rfl, rfl, fun rd r hr => ?_⟩
    obtain ⟨h1, h2⟩ := mle_entries hr
    rw [h1, h2]
    decide
  · refine ⟨.MaximumLikelihoodEstimationModelContentObliviousAlternativeProjection, (runAP · {}), rfl, by simp [runsByName], fun _ => rfl, rfl, rfl,
      fun rd r hr => ?_⟩
    obtain ⟨h1, h2⟩ := ap_entries hr
    exact ⟨⟨fun _ => h1, fun _ => by decide⟩, ⟨fun h => absurd h (by decide), fun h => absurd h2 h⟩⟩
  · refine ⟨.MaximumLikelihoodEstimationModelContentObliviousAlternativeProjection2, (runAP2 · {}), rfl, by simp [runsByName], fun _ => rfl, rfl, rfl,
      fun rd r hr => ?_⟩
    obtain ⟨h1, h2⟩ := ap_entries hr
    exact ⟨⟨fun _ => h1, fun _ => by decide⟩, ⟨fun h => absurd h (by decide), fun h => absurd h2 h⟩⟩
  · exact ⟨.DmosModel, (runDMOS · {}), rfl, by simp [runsByName], fun _ => rfl, rfl, rfl,
      fun rd r hr => hno (by decide) (by decide) (mosFamily_entries (o := { dscoreMode := yes }) hr)⟩
  · refine ⟨.MaximumLikelihoodEstimationDmosModel, (runDMOS_MLE · {}), rfl, by simp [runsByName], fun _ => rfl, rfl, rfl, fun rd r hr => ?_⟩
    obtain ⟨h1, h2⟩ := mle_entries (mode := .default) (o := { base := { dscoreMode := yes } }) hr
    rw [h1, h2]
    decide
  · refine ⟨.MaximumLikelihoodEstimationDmosModelContentOblivious, (runDMOS_MLE_CO · {}), rfl, by simp [runsByName], fun _ => rfl, rfl, rfl,
      fun rd r hr => ?_⟩
    obtain ⟨h1, h2⟩ := mle_entries (mode := .contentOblivious) (o := { base := { dscoreMode := yes } }) hr
    rw [h1, h2]
    decide
  · exact ⟨.SubjrejMosModel, (runSR_MOS · {}), rfl, by simp [runsByName], fun _ => rfl, rfl, rfl,
      fun rd r hr => hno (by decide) (by decide) (mosFamily_entries (o := { subjectRejection := yes }) hr)⟩
  · exact ⟨.ZscoringSubjrejMosModel, (runZS_SR_MOS · {}), rfl, by simp [runsByName], fun _ => rfl, rfl, rfl,
      fun rd r hr => hno (by decide) (by decide) (mosFamily_entries (o := { zscoreMode := yes, subjectRejection := yes }) hr)⟩
  · exact ⟨.SubjrejDmosModel, (runSR_DMOS · {}), rfl, by simp [runsByName], fun _ => rfl, rfl, rfl,
      fun rd r hr => hno (by decide) (by decide) (mosFamily_entries (o := { dscoreMode := yes, subjectRejection := yes }) hr)⟩
  · exact ⟨.ZscoringSubjrejDmosModel, (runZS_SR_DMOS · {}), rfl, by simp [runsByName], fun _ => rfl, rfl, rfl,
      fun rd r hr => hno (by decide) (by decide)
        (mosFamily_entries (o := { dscoreMode := yes, zscoreMode := yes, subjectRejection := yes }) hr)⟩

/-- **C124 (partial).** A run that returns 0, with a model of the usage message: the model ran without options on the dataset of the file. With `--print`
the lists of its result are printed, without it nothing is. With `--output-dir` and a directory the lists and the scalars are written there, without it
nothing is. Scores of observers (of contents) are plotted if and only if the model returned biases (ambiguities). Missing: the raw scores and the
reconstructions, which are not written (`C124_lost`), and the other models the program accepts (`C124_refuted`). -/
theorem C124_listed_partial {prog model path : String} {rest : List String} (hm : model ∈ listed) {plots : List String} {print file}
    (h : Deprecated.main ppf other readPy readJson (prog :: model :: path :: rest) = .ok (.done plots print file)) :
    ∃ d rd run r, Loads path.toList readPy readJson d ∧ rawReader d = .ok rd ∧ (model, run) ∈ runsByName ∧ run rd = .ok r ∧
      (if "--print" ∈ rest then ∃ f, print = some f ∧ HasLists f r ∧ f "dis_video_names" = some (.strings (d.disVideos.map (·.path)))
        else print = none) ∧
      (∀ k p, FirstAt (prog :: model :: path :: rest) 3 (rest.length + 3) "--output-dir" k → (prog :: model :: path :: rest)[k + 1]? = some p →
        ∃ f, file = some (p, f) ∧ HasLists (legible f) r ∧ HasScalars (legible f) r ∧
          legible f "dis_video_names" = some (.strings (d.disVideos.map (·.path)))) ∧
      ((∀ k p, FirstAt (prog :: model :: path :: rest) 3 (rest.length + 3) "--output-dir" k → (prog :: model :: path :: rest)[k + 1]? ≠ some p) →
        file = none) ∧
      "raw_scores" ∈ plots ∧ "quality_scores" ∈ plots ∧
      ("subject_scores" ∈ plots ↔ r.observerBias ≠ none) ∧ ("content_scores" ∈ plots ↔ r.contentAmbiguity ≠ none) := by
  obtain ⟨c, d, rd, rep, hc, hl, hrd, hrun, hn, rfl, hp1, hp2, hf1, hf2⟩ := dep_done h
  obtain ⟨c', run, hc', hmem, hcr, hs, hrej, hplots⟩ := listed_class (κ := κ) hm
  rw [hc] at hc'
  cases hc'
  rw [hcr] at hrun
  obtain ⟨hh1, hh2, hh3⟩ := dict_holds (ppf := ppf) c rep hs hrej
  have hpr : (∃ j, 3 ≤ j ∧ (prog :: model :: path :: rest)[j]? = some "--print") ↔ "--print" ∈ rest := by
    constructor
    · rintro ⟨j, hj, he⟩
      obtain ⟨i, rfl⟩ : ∃ i, j = i + 3 := ⟨j - 3, by omega⟩
      exact List.mem_of_getElem? (i := i) he
    · intro he
      obtain ⟨i, hi⟩ := List.mem_iff_getElem?.mp he
      exact ⟨i + 3, by omega, hi⟩
  have hnames : Deprecated.dict ppf c rep "dis_video_names" = some (.strings (d.disVideos.map (·.path))) := by
    rw [← hn]
    rfl
  refine ⟨d, rd, run, rep.result, hl, hrd, hmem, hrun, ?_, ?_, hf2, ?_, ?_, hplots rd rep.result hrun⟩
  · split
    · rename_i hin
      refine ⟨_, hp1 (hpr.mpr hin), hh1, ?_⟩
      unfold Deprecated.printed
      rw [hnames]
      rfl
    · rename_i hin
      exact hp2 fun hj => hin (hpr.mp hj)
  · intro k p hk hp
    refine ⟨_, hf1 k p hk hp, hh2, hh3, ?_⟩
    unfold legible Deprecated.written
    rw [hnames]
    rfl
  · unfold Deprecated.plots
    dsimp only
    split <;> split <;> simp
  · unfold Deprecated.plots
    dsimp only
    split <;> split <;> simp

/-- **C124 (lost).** Whatever the model, the file never holds the raw scores and the reconstructions of a result, but `'<not serializable>'`, and they are
not printed. -/
theorem C124_lost {prog model path : String} {rest : List String} {plots : List String} {print file}
    (h : Deprecated.main ppf other readPy readJson (prog :: model :: path :: rest) = .ok (.done plots print file)) :
    (∀ p f, file = some (p, f) → ∀ k ∈ ["raw_scores", "reconstructions"], f k = none ∨ f k = some .notSerializable) ∧
    ∀ f, print = some f → ∀ k ∈ ["raw_scores", "reconstructions"], f k = none := by
  obtain ⟨c, d, rd, rep, hc, hl, hrd, hrun, hn, rfl, hp1, hp2, hf1, hf2⟩ := dep_done h
  have hd1 : Deprecated.dict ppf c rep "raw_scores" = rep.result.rawScores.map .array3 := rfl
  have hd2 : Deprecated.dict ppf c rep "reconstructions" = rep.result.reconstructions.map .array3 := rfl
  refine ⟨?_, ?_⟩
  · intro p f hfile k hk
    have hf : f = Deprecated.written (Deprecated.dict ppf c rep) := by
      by_cases hex : ∃ k p, FirstAt (prog :: model :: path :: rest) 3 (rest.length + 3) "--output-dir" k ∧
          (prog :: model :: path :: rest)[k + 1]? = some p
      · obtain ⟨k', p', h1, h2⟩ := hex
        rw [hf1 k' p' h1 h2] at hfile
        cases hfile
        rfl
      · rw [hf2 fun k' p' h1 h2 => hex ⟨k', p', h1, h2⟩] at hfile
        cases hfile
    subst hf
    simp only [List.mem_cons, List.not_mem_nil, or_false] at hk
    unfold Deprecated.written
    rcases hk with rfl | rfl
    · rw [hd1]
      cases rep.result.rawScores
      · exact Or.inl rfl
      · exact Or.inr rfl
    · rw [hd2]
      cases rep.result.reconstructions
      · exact Or.inl rfl
      · exact Or.inr rfl
  · intro f hprint k hk
    have hf : f = Deprecated.printed (Deprecated.dict ppf c rep) := by
      by_cases hex : ∃ j, 3 ≤ j ∧ (prog :: model :: path :: rest)[j]? = some "--print"
      · rw [hp1 hex] at hprint
        cases hprint
        rfl
      · rw [hp2 hex] at hprint
        cases hprint
    subst hf
    simp only [List.mem_cons, List.not_mem_nil, or_false] at hk
    unfold Deprecated.printed
    rcases hk with rfl | rfl
    · rw [hd1]
      cases rep.result.rawScores <;> rfl
    · rw [hd2]
      cases rep.result.reconstructions <;> rfl

/-- what is printed and written comes from the dictionary -/
theorem dep_outputs {prog model path : String} {rest : List String} {plots : List String} {print file}
    (h : Deprecated.main ppf other readPy readJson (prog :: model :: path :: rest) = .ok (.done plots print file)) :
    ∃ c rd rep, Deprecated.known.find .SubjectiveModel model = .ok c ∧ Main.runClass other c rd = .ok rep.result ∧
      (∀ f, print = some f → f = Deprecated.printed (Deprecated.dict ppf c rep)) ∧ ∀ p f, file = some (p, f) → f = Deprecated.written (Deprecated.dict ppf c rep) := by
  obtain ⟨c, d, rd, rep, hc, hl, hrd, hrun, hn, rfl, hp1, hp2, hf1, hf2⟩ := dep_done h
  refine ⟨c, rd, rep, hc, hrun, ?_, ?_⟩
  · intro f hprint
    by_cases hex : ∃ j, 3 ≤ j ∧ (prog :: model :: path :: rest)[j]? = some "--print"
    · rw [hp1 hex] at hprint
      cases hprint
      rfl
    · rw [hp2 hex] at hprint
      cases hprint
  · intro p f hfile
    by_cases hex : ∃ k p, FirstAt (prog :: model :: path :: rest) 3 (rest.length + 3) "--output-dir" k ∧
        (prog :: model :: path :: rest)[k + 1]? = some p
    · obtain ⟨k', p', h1, h2⟩ := hex
      rw [hf1 k' p' h1 h2] at hfile
      cases hfile
      rfl
    · rw [hf2 fun k' p' h1 h2 => hex ⟨k', p', h1, h2⟩] at hfile
      cases hfile

theorem rejectStep_reports {o : Opts ℝ} {ty : Option String} {a b : Arr3D (Fl ℝ)} {rej : Option (Rejection ℝ)} (h : rejectStep o ty a = .ok (b, rej))
    (ho : o.subjectRejection.isTrue = true) : ∃ r, rej = some r := by
  unfold rejectStep at h
  rw [if_pos ho] at h
  by_cases h1 : ty = some "kurtosis"
  · rw [if_pos h1] at h
    cases h
    exact ⟨_, rfl⟩
  · rw [if_neg h1] at h
    by_cases h2 : ty = some "pearson" ∨ ty = some "spearman"
    · rw [if_pos h2] at h
      split at h
      · cases h
      · cases h
        exact ⟨_, rfl⟩
    · rw [if_neg h2] at h
      cases h

theorem preprocess_rejects {rd : Reader κ ℝ} {o : Opts ℝ} {p : Prep ℝ} (h : preprocess rd o = .ok p) (ho : o.subjectRejection.isTrue = true) :
    ∃ r, p.rejection = some r := by
  unfold preprocess at h
  split at h
  · cases h
  · split at h
    · cases h
    · split at h
      · cases h
      · dsimp only at h
        split at h
        · cases h
        · rename_i a4 rej hrej
          cases h
          exact rejectStep_reports hrej ho

/-- a result that reports the rejections -/
def ReportsRejection (r : Result κ ℝ) : Prop :=
  (∃ l, r.observerRejected = some l) ∧ (∃ l, r.observerRejectedStats1 = some l) ∧ ∃ l, r.observerRejectedStats2 = some l

theorem withRejection_reports (res : Result κ ℝ) (r : Rejection ℝ) : ReportsRejection (res.withRejection (some r)) := ⟨⟨_, rfl⟩, ⟨_, rfl⟩, _, rfl⟩

theorem runModeling_reports {run : Reader κ ℝ → Opts ℝ → Py (Result κ ℝ)} {rd : Reader κ ℝ} {o : Opts ℝ} {r : Result κ ℝ}
    (hrun : ∀ r, run rd o = .ok r → ReportsRejection r) (h : runModeling run rd o = .ok r) : ReportsRejection r := by
  unfold runModeling at h
  split at h
  · cases h
  · rename_i res hres
    have := hrun _ hres
    split at h <;> cases h <;> exact this

theorem mos_reports {rd : Reader κ ℝ} {o : Opts ℝ} {r : Result κ ℝ} (ho : o.subjectRejection.isTrue = true) (h : mosRunModeling rd o = .ok r) : ReportsRejection r := by
  unfold mosRunModeling at h
  split at h
  · cases h
  · rename_i p hp
    cases h
    obtain ⟨rj, hrj⟩ := preprocess_rejects hp ho
    rw [hrj]
    exact withRejection_reports _ _

theorem biasremv_reports {rd : Reader κ ℝ} {o : Opts ℝ} {r : Result κ ℝ} (ho : o.subjectRejection.isTrue = true) (h : biasremvRunModeling rd o = .ok r) :
    ReportsRejection r := by
  unfold biasremvRunModeling at h
  split at h
  · cases h
  · rename_i p hp
    split at h
    · cases h
    · cases h
      obtain ⟨rj, hrj⟩ := preprocess_rejects hp ho
      rw [hrj]
      exact withRejection_reports _ _

/-- **C124 (lost rejections).** With the models that reject observers by their correlation the program rejects observers, but nowhere says which: it does not print the flags and statistics,
and writes `'<not serializable>'` in their place. -/
theorem C124_lost_rejections {prog model path : String} {rest : List String} {plots : List String} {print file}
    (hm : model ∈ ["SR_MOS_PCC", "SR_MOS_SRCC", "BR_SR_MOS_PCC", "BR_SR_MOS_SRCC"])
    (h : Deprecated.main ppf other readPy readJson (prog :: model :: path :: rest) = .ok (.done plots print file)) :
    ∀ k ∈ ["observer_rejected", "observer_rejected_1st_stats", "observer_rejected_2nd_stats"],
      (∀ f, print = some f → f k = none) ∧ ∀ p f, file = some (p, f) → f k = some .notSerializable := by
  obtain ⟨c, rd, rep, hc, hrun, hp, hf⟩ := dep_outputs h
  have key : Deprecated.rejectionIsArray c = true ∧ ReportsRejection rep.result := by
    rw [dep_find] at hc
    simp only [List.mem_cons, List.not_mem_nil, or_false] at hm
    have hct : c = .SubjrejMosModelPearson ∨ c = .SubjrejMosModelSpearman ∨ c = .BiasremvSubjrejMosModelPearson ∨ c = .BiasremvSubjrejMosModelSpearman := by
      obtain ⟨hc, -⟩ := hc
      rcases hm with rfl | rfl | rfl | rfl <;> revert hc <;> cases c <;> decide
    rcases hct with rfl | rfl | rfl | rfl
    · exact ⟨rfl, runModeling_reports (fun r => mos_reports rfl) hrun⟩
    · exact ⟨rfl, runModeling_reports (fun r => mos_reports rfl) hrun⟩
    · exact ⟨rfl, runModeling_reports (fun r => biasremv_reports rfl) hrun⟩
    · exact ⟨rfl, runModeling_reports (fun r => biasremv_reports rfl) hrun⟩
  obtain ⟨ha, ⟨l0, e0⟩, ⟨l1, e1⟩, l2, e2⟩ := key
  have d0 : Deprecated.dict ppf c rep "observer_rejected" = some (.flagArray l0) := by
    show (rep.result.observerRejected.map fun l => if Deprecated.rejectionIsArray c then _ else _) = _
    rw [ha, e0]
    rfl
  have d1 : Deprecated.dict ppf c rep "observer_rejected_1st_stats" = some (.array l1) := by
    show (rep.result.observerRejectedStats1.map fun l => if Deprecated.rejectionIsArray c then _ else _) = _
    rw [ha, e1]
    rfl
  have d2 : Deprecated.dict ppf c rep "observer_rejected_2nd_stats" = some (.array l2) := by
    show (rep.result.observerRejectedStats2.map fun l => if Deprecated.rejectionIsArray c then _ else _) = _
    rw [ha, e2]
    rfl
  intro k hk
  refine ⟨?_, ?_⟩
  · intro f hpr
    rw [hp f hpr]
    unfold Deprecated.printed
    simp only [List.mem_cons, List.not_mem_nil, or_false] at hk
    rcases hk with rfl | rfl | rfl
    · rw [d0]; rfl
    · rw [d1]; rfl
    · rw [d2]; rfl
  · intro p f hfile
    rw [hf p f hfile]
    unfold Deprecated.written
    simp only [List.mem_cons, List.not_mem_nil, or_false] at hk
    rcases hk with rfl | rfl | rfl
    · rw [d0]; rfl
    · rw [d1]; rfl
    · rw [d2]; rfl

/-! ### examples -/

section
variable {other : ModelClass → Reader String ℝ → Py (Result String ℝ)}

/-- the reader of the example -/
theorem exComplete_reader : ∃ rd, rawReader exComplete = .ok rd ∧ rd.disVideos = exComplete.disVideos := by
  obtain ⟨rd, a, h1, h2, -⟩ := Main.reads exComplete_readable
  exact ⟨rd, h1, h2⟩

/-- a run of a class on the example gives a run of the program -/
theorem exComplete_main {model : String} {c : ModelClass} (hc : Deprecated.known.find .SubjectiveModel model = .ok c) {rd : Reader String ℝ}
    (hrd : rawReader exComplete = .ok rd) {r : Result String ℝ} {rep : Report String ℝ} (hr : Main.runClass other c rd = .ok r)
    (hrep : report rd r = .ok rep) :
    Deprecated.main ppf other (.ok exComplete) (.error .assertion) ["sureal", model, "scores.py", "--print", "--output-dir", "out"] =
      .ok (.done (Deprecated.plots model) (some (Deprecated.printed (Deprecated.dict ppf c rep)))
        (some ("out", Deprecated.written (Deprecated.dict ppf c rep)))) := by
  have hrun : Routine.run "scores.py".toList (.ok exComplete) (.error .assertion) rawReader [Deprecated.runClass other c] = .ok [rep] := by
    unfold Routine.run
    rw [(Main.loads_read (ex_loads exComplete)).1]
    dsimp only
    rw [hrd]
    dsimp only
    simp only [mapPy]
    rw [dep_run, hr]
    dsimp only [mapPy]
    rw [hrep]
  obtain ⟨dir, pr, h1, h2, h3, h4⟩ := dep_options ["sureal", model, "scores.py", "--print", "--output-dir", "out"]
  obtain rfl : dir = some "out" := (h3 "out").mpr ⟨4, ⟨by omega, by simp, rfl, by
    intro j hj1 hj2
    obtain rfl : j = 3 := by omega
    simp⟩, rfl⟩
  obtain rfl : pr = true := h4.mpr ⟨3, by omega, rfl⟩
  unfold Deprecated.main
  simp only [h1, h2, hc, hrun]
  rfl

/-- a run with a model of the usage message -/
example : ∃ plots print file, Deprecated.main ppf other (.ok exComplete) (.error .assertion)
    ["sureal", "MOS", "scores.py", "--print", "--output-dir", "out"] = .ok (.done plots print file) ∧ "MOS" ∈ listed := by
  obtain ⟨rd, a, hrd, hdv, ha, hE, hc, hp, hob⟩ := Main.reads exComplete_readable
  have ht := total_votes hE hp
  have hg := Main.mos_good other ha hc hob (by rw [← ht, exComplete_votes.1]; omega)
  obtain ⟨st, hst⟩ := hg.2.1
  exact ⟨_, _, _, exComplete_main rfl hrd hg.1 hst, by decide⟩

/-- the votes of the example -/
def exCompleteVotes : Fin 2 → Fin 2 → ℝ := fun e s => if e = 0 then (if s = 0 then 5 else 4) else if s = 0 then 2 else 3

theorem exComplete_agreement (s : Fin 2) : agreement false (fun e s (_ : Fin 1) => Fl.fin (exCompleteVotes e s)) s = some 1 := by
  unfold agreement
  simp only [Bool.false_eq_true, if_false]
  rw [opinionPairs_complete (by decide)]
  unfold correlation
  have hy : ∀ s, sqDev ((List.ofFn fun e => (exCompleteVotes e s, mean (List.ofFn fun s' => exCompleteVotes e s'))).map (·.2)) = 2 := by
    intro s; fin_cases s <;> simp [sqDev, mean, exCompleteVotes, List.ofFn_succ] <;> norm_num
  have hx0 : sqDev ((List.ofFn fun e => (exCompleteVotes e 0, mean (List.ofFn fun s' => exCompleteVotes e s'))).map (·.1)) = 9 / 2 := by
    simp [sqDev, mean, exCompleteVotes, List.ofFn_succ]; norm_num
  have hx1 : sqDev ((List.ofFn fun e => (exCompleteVotes e 1, mean (List.ofFn fun s' => exCompleteVotes e s'))).map (·.1)) = 1 / 2 := by
    simp [sqDev, mean, exCompleteVotes, List.ofFn_succ]; norm_num
  have h0 : Real.sqrt (9 / 2) * Real.sqrt 2 = 3 := by
    rw [← Real.sqrt_mul (by norm_num), show (9 / 2 * 2 : ℝ) = 3 ^ 2 by norm_num]
    exact Real.sqrt_sq (by norm_num)
  have h1 : Real.sqrt (1 / 2) * Real.sqrt 2 = 1 := by
    rw [← Real.sqrt_mul (by norm_num)]; norm_num
  fin_cases s
  · dsimp only [Fin.zero_eta]
    rw [if_neg (by rw [hx0, hy]; norm_num), hx0, hy, h0]
    congr 1
    simp [mean, exCompleteVotes, List.ofFn_succ]
    norm_num
  · dsimp only [Fin.mk_one]
    rw [if_neg (by rw [hx1, hy]; norm_num), hx1, hy, h1]
    congr 1
    simp [mean, exCompleteVotes, List.ofFn_succ]
    norm_num

/-- the hypotheses of `C124_lost_rejections` are met: nobody is rejected here -/
example : ∃ plots print p f, Deprecated.main ppf other (.ok exComplete) (.error .assertion)
      ["sureal", "SR_MOS_PCC", "scores.py", "--print", "--output-dir", "out"] = .ok (.done plots (some print) (some (p, f))) ∧
    print "observer_rejected" = none ∧ f "observer_rejected" = some .notSerializable := by
  have ⟨rd, hrd, ha⟩ : ∃ rd, rawReader exComplete = .ok rd ∧ rd.scores = .ok ⟨2, 2, 1, fun e s _ => .fin (exCompleteVotes e s)⟩ := by
    refine ⟨_, rfl, ?_⟩
    show opinionScores exComplete.disVideos = _
    have hm : maxReps exComplete.disVideos = 1 := rfl
    have hq := opinionScores_seq (κ := String) (K := ℝ) (d0 := { contentId := 0, assetId := 0, path := "r0", os := some (.seq false [.one (.fin 5), .one (.fin 4)]) })
      (rest := [{ contentId := 0, assetId := 1, path := "d1", os := some (.seq false [.one (.fin 2), .one (.fin 3)]) }])
      (by
        intro dv hdv
        simp only [List.mem_cons, List.not_mem_nil, or_false] at hdv
        rcases hdv with rfl | rfl <;> exact ⟨_, _, rfl⟩)
      (by
        intro dv hdv
        simp only [List.mem_cons, List.not_mem_nil, or_false] at hdv
        rcases hdv with rfl | rfl <;> rfl)
      (by
        intro dv hdv
        simp only [List.mem_cons, List.not_mem_nil, or_false] at hdv
        rcases hdv with rfl | rfl <;> simp [NdarraysSingle, entries])
    refine hq.trans ?_
    show Except.ok (⟨2, 2, 1, _⟩ : Arr3D (Fl ℝ)) = _
    congr 2
    funext e s r
    fin_cases e <;> fin_cases s <;> fin_cases r <;> simp [exCompleteVotes, entries, Vote.cell]
  have hob : Main.Named rd 2 := by
    obtain ⟨rd', a', hrd', -, ha', -, -, -, hob⟩ := Main.reads exComplete_readable
    rw [hrd] at hrd'
    cases hrd'
    rw [ha] at ha'
    cases ha'
    exact hob
  have hc : ∀ e s r, NumOrNan ((fun e s (_ : Fin 1) => Fl.fin (exCompleteVotes e s)) e s r) := fun e s r => Or.inr ⟨_, rfl⟩
  have hm : ∃ b, corrReject false (fun e s (_ : Fin 1) => Fl.fin (exCompleteVotes e s)) = .ok b := by
    unfold corrReject
    have hk : ∀ s, observerCorr false (fun e s (_ : Fin 1) => Fl.fin (exCompleteVotes e s)) s = .ok (.fin 1) := by
      intro s
      rw [observerCorr_spec false _ hc s, exComplete_agreement, if_neg]
      · rfl
      · rintro ⟨-, h⟩
        rw [opinionPairs_complete (by decide)] at h
        simp at h
    rw [mapPy_ok fun s _ => hk s]
    exact ⟨_, rfl⟩
  obtain ⟨⟨b, rj⟩, hb⟩ := hm
  obtain ⟨hb1, -⟩ := corrReject_ok hc hb
  have hfl : ((List.finRange 2).filter fun s => (corrThreshold (List.ofFn fun s => numOrNanOf (agreement false (fun e s (_ : Fin 1) => Fl.fin (exCompleteVotes e s)) s))).lt
      (numOrNanOf (agreement false (fun e s (_ : Fin 1) => Fl.fin (exCompleteVotes e s)) s))) = List.finRange 2 := by
    refine List.filter_eq_self.mpr fun s _ => ?_
    simp only [exComplete_agreement, numOrNanOf]
    rw [corrThreshold_spec (by decide) fun _ => 1, Fl.lt_fin]
    refine decide_eq_true ?_
    exact (min_le_left _ _).trans_lt (by norm_num)
  dsimp only at hb1
  have hrun : runSR_MOS_PCC rd {} = .ok { (mosAndStats (fun E _ _ => E * 2) b ⟨2, 2, 1, fun e s _ => .fin (exCompleteVotes e s)⟩ : Result String ℝ).withRejection (some rj)
      with observers := Main.namesOf rd } := by
    refine Main.runModeling_named hob mosRunModeling { subjectRejection := yes, subjectRejectionType := some "pearson" } rfl rfl ?_ rfl
    unfold mosRunModeling
    have := preprocess_withCorr (rd := rd) (o := {}) rfl rfl (preprocess_default ha) false
    dsimp only at this
    rw [hb] at this
    have h' : preprocess rd { subjectRejection := yes, subjectRejectionType := some "pearson" } = _ := this
    rw [h']
  have hv : 2 ≤ (Main.votesIn b).length := by
    rw [hb1]
    unfold Main.votesIn
    rw [List.length_flatMap]
    dsimp only
    have hlen : ∀ (cols : List (Fin 2)) (e : Fin 2), (present (videoCells (fun (e : Fin 2) (i : Fin cols.length) (_ : Fin 1) => Fl.fin (exCompleteVotes e (cols.get i))) e)).length =
        cols.length := by
      intro cols e
      rw [present_complete, length_complete (fun (e : Fin 2) (i : Fin cols.length) (_ : Fin 1) => exCompleteVotes e (cols.get i)), mul_one]
    rw [List.map_congr_left fun e _ => hlen _ e, hfl]
    decide
  have hcb : CleanVotes b := by
    rw [hb1]
    exact fun e s r => Or.inr ⟨_, rfl⟩
  have hrep := Main.report_ok (rd := rd) (r := { (mosAndStats (fun E _ _ => E * 2) b ⟨2, 2, 1, fun e s _ => .fin (exCompleteVotes e s)⟩ : Result String ℝ).withRejection (some rj)
      with observers := Main.namesOf rd }) rfl rfl ((Main.recStats_mos b hcb).trans (if_pos hv))
  have hmain := exComplete_main (ppf := ppf) (other := other) (model := "SR_MOS_PCC") (c := .SubjrejMosModelPearson) rfl hrd hrun hrep
  obtain ⟨k1, k2⟩ := C124_lost_rejections (by decide) hmain "observer_rejected" (by decide)
  exact ⟨_, _, _, _, hmain, k1 _ rfl, k2 _ _ rfl⟩

/-- **C124 (refuted).** The program accepts LIVE_DMOS, but then neither prints the scores nor writes them; and it accepts P910, which returns biases of the
observers, but does not plot them. -/
theorem C124_refuted :
    ("LIVE_DMOS" ∈ accepted ∧ ∃ plots print p f, Deprecated.main ppf other (.ok exComplete) (.error .assertion)
        ["sureal", "LIVE_DMOS", "scores.py", "--print", "--output-dir", "out"] = .ok (.done plots (some print) (some (p, f))) ∧
      print "quality_scores" = none ∧ f "quality_scores" = some .notSerializable) ∧
    ("P910" ∈ accepted ∧ ∃ plots print p f, Deprecated.main ppf other (.ok exComplete) (.error .assertion)
        ["sureal", "P910", "scores.py", "--print", "--output-dir", "out"] = .ok (.done plots (some print) (some (p, f))) ∧
      print "observer_bias" ≠ none ∧ "subject_scores" ∉ plots) := by
  obtain ⟨rd, a, hrd, hdv, ha, hE, hc, hp, hob⟩ := Main.reads exComplete_readable
  refine ⟨⟨by decide, ?_⟩, by decide, ?_⟩
  · have hrun : ∃ r, runLIVE_DMOS rd {} = .ok r ∧ r.rawScores = none := by
      obtain ⟨-, rfl⟩ := Mock.rawReader_inv hrd
      refine ⟨_, rfl, ?_⟩
      rfl
    obtain ⟨r, hr, hraw⟩ := hrun
    have hrep : report rd r = .ok ⟨r, rd.disVideos.map (·.path), none⟩ := by
      unfold report
      rw [hraw]
    exact ⟨_, _, _, _, exComplete_main (c := .LiveDmosModel) rfl hrd hr hrep, rfl, rfl⟩
  · have h2 := fun s => Main.each_voted exComplete_readable exComplete_votes.2.2 hrd ha s
    have hrated : EveryVideoRated a := by
      intro e
      have hlt : e.val < exComplete.disVideos.length := by rw [← hE]; exact e.isLt
      have hl := (hp e _ (List.getElem?_eq_getElem hlt)).length_eq
      have h2v := exComplete_votes.2.1 _ (List.getElem_mem hlt)
      obtain ⟨x, hx⟩ := List.exists_mem_of_ne_nil (present (videoCells a.get e)) (by
        intro hnil
        rw [hnil] at hl
        rw [← hl] at h2v
        simp at h2v)
      rw [mem_present] at hx
      obtain ⟨i, r, hir⟩ := (mem_videoCells a.get e _).mp hx
      exact ⟨i, r, by rw [hir]; simp⟩
    have hvoted : EveryObserverVoted a := by
      intro s
      have : 0 < (present (observerCells a.get s)).length := by have := h2 s; omega
      obtain ⟨x, hx⟩ := List.exists_mem_of_ne_nil _ (List.ne_nil_of_length_pos this)
      rw [mem_present] at hx
      obtain ⟨e, r, her⟩ := (mem_observerCells a.get s _).mp hx
      exact ⟨e, r, by rw [her]; simp⟩
    have ht := total_votes hE hp
    obtain ⟨r, hg⟩ := Main.p910_good other ha hc hob hrated hvoted (by rw [← ht, exComplete_votes.1]; omega)
    obtain ⟨st, hst⟩ := hg.2.1
    refine ⟨_, _, _, _, exComplete_main (c := .P910AnnexEModel) rfl hrd hg.1 hst, ?_, by decide⟩
    rw [(dict_holds (ppf := ppf) .P910AnnexEModel ⟨r, _, st⟩ rfl rfl).1.bias]
    have := (ap_entries (sd := Ap.sStdAlt) (o := {}) hg.1).1
    cases hb : r.observerBias with
    | none => exact absurd hb this
    | some b => simp

end

end Sureal.Props
