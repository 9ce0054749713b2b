import Verif.Model.MainPlots
import Verif.Lemmas.Main
import Verif.Lemmas.Overlap
import Verif.Props.Plots
import Verif.Props.ScorePlots
/-!
# Lemmas: the command line program with plots
-/
set_option linter.unusedSectionVars false
namespace Sureal.MainPlots
open Sureal Routine Format Main Spec Props
variable {κ : Type}

/-! ### Files -/

theorem png_ne (k : ℕ) : toString k ++ ".png" ≠ "output.json" := by
  intro h
  have h1 := congrArg (fun s : String => s.toList.reverse.head?) h
  simp only [String.toList_append, List.reverse_append] at h1
  rw [show (".png" : String).toList = ['.', 'p', 'n', 'g'] by decide +kernel, show ("output.json" : String).toList.reverse.head? = some 'n' by decide +kernel] at h1
  simp at h1

theorem png_inj {j k : ℕ} (h : toString j ++ ".png" = toString k ++ ".png") : j = k := by
  apply Sureal.Conv.toString_nat_inj
  have h1 := congrArg String.toList h
  rw [String.toList_append, String.toList_append] at h1
  exact String.toList_injective (List.append_cancel_right h1)

variable {K : Type} [Zero K] [One K] [Add K] [Neg K] [Sub K] [Mul K] [Div K] [NatCast K]
  [LT K] [LE K] [DecidableLT K] [DecidableLE K] [MathFn K] [DecidableEq K]

theorem show_other {O F : Type} (figs : List F) (k : ℕ) (dir : DirOf O F) (name : String)
    (h : ∀ j < figs.length, name ≠ toString (k + j) ++ ".png") : showFrom k figs dir name = dir name := by
  induction figs generalizing k dir with
  | nil => rfl
  | cons f fs ih =>
    rw [showFrom, ih (k + 1) _ fun j hj => by
      have := h (j + 1) (by simpa using hj)
      rwa [← Nat.add_assoc, Nat.add_right_comm] at this]
    exact if_neg (h 0 (by simp))

theorem show_figure {O F : Type} (figs : List F) (k : ℕ) (dir : DirOf O F) (j : ℕ) (f : F) (h : figs[j]? = some f) :
    showFrom k figs dir (toString (k + j) ++ ".png") = some (.picture f) := by
  induction figs generalizing k dir j with
  | nil => cases h
  | cons g gs ih =>
    cases j with
    | zero =>
      cases h
      rw [showFrom, show_other]
      · exact if_pos rfl
      · intro j _ he
        have := png_inj he
        omega
    | succ j =>
      rw [showFrom, show k + (j + 1) = k + 1 + j by omega]
      exact ih (k + 1) _ j h

/-- the files after a run that ends well -/
theorem finish_ok {O F : Type} {out : O} {figs : List F} {dir after : DirOf O F} (h : finish (.ok (out, figs)) dir = (none, after)) :
    after "output.json" = some (.output out) ∧
      (∀ (k : ℕ) (f : F), figs[k]? = some f → after (toString (k + 1) ++ ".png") = some (.picture f)) ∧
      ∀ name, name ≠ "output.json" → (∀ k < figs.length, name ≠ toString (k + 1) ++ ".png") → after name = dir name := by
  cases h
  refine ⟨?_, ?_, ?_⟩
  · rw [show_other _ _ _ _ fun j _ => (png_ne _).symm]
    exact if_pos rfl
  · intro k f hk
    rw [Nat.add_comm k 1]
    exact show_figure figs 1 _ k f hk
  · intro name h1 h2
    rw [show_other _ _ _ _ fun j hj => by rw [Nat.add_comm]; exact h2 j hj]
    exact if_neg h1

/-! ### Plots -/

section
variable {κ : Type} (ppf : Fl ℝ → ℕ → Fl ℝ)

theorem series_runs {k : ℕ} (hk : k < 8) {ys : List (Fl ℝ)} (hy : ys ≠ []) (ci : Option (List (Fl ℝ) × List (Fl ℝ))) :
    ∃ s, ScorePlots.series .errorbar k ys ci = .ok s := by
  obtain ⟨x, xs, rfl⟩ := List.exists_cons_of_ne_nil hy
  interval_cases k <;> exact ⟨_, rfl⟩

omit ppf in
theorem series_err {k : ℕ} {ys : List (Fl ℝ)} {ci : Option (List (Fl ℝ) × List (Fl ℝ))} {s : ScorePlots.Series ℝ}
    (h : ScorePlots.series .errorbar k ys ci = .ok s) : s.err = ci := by
  unfold ScorePlots.series at h
  dsimp only at h
  split at h
  · cases h
  split at h
  · cases h
  cases h
  rfl

theorem entry_bias (r : Result κ ℝ) : Main.entry ppf r "observer_bias_ci95" = (biasCi r).map fun p => .rows [p.1, p.2] := by
  show r.observerBiasStd.map Main.halfWidths = _
  unfold biasCi
  cases r.observerBiasStd <;> rfl

theorem entry_inconsistency (r : Result κ ℝ) :
    Main.entry ppf r "observer_inconsistency_ci95" = (inconsistencyCi ppf r).map fun p => .rows [p.1, p.2] := by
  show Main.inconsistencyBounds ppf r = _
  unfold Main.inconsistencyBounds inconsistencyCi
  cases r.rawScores <;> cases r.observerInconsistency <;> cases r.observerInconsistencyStd <;> rfl

/-- what the plot of the observers shows -/
theorem observersLoop_ok {rs : List (Result κ ℝ)} {k : ℕ} {b : List (ScorePlots.Series ℝ × Option (List κ))} {v : List (ScorePlots.Series ℝ)}
    (h : observersLoop ppf k rs = .ok (b, v)) :
    b.map (fun p => (p.1.ys, p.1.err.map fun e => Val.rows [e.1, e.2], p.2)) =
        rs.filterMap (fun r => r.observerBias.map fun l => (l, Main.entry ppf r "observer_bias_ci95", r.observers)) ∧
      v.map (fun s => (s.ys, s.err.map fun e => Val.rows [e.1, e.2])) =
        rs.filterMap (fun r => r.observerInconsistency.map fun l => (l, Main.entry ppf r "observer_inconsistency_ci95")) := by
  induction rs generalizing k b v with
  | nil => cases h; exact ⟨rfl, rfl⟩
  | cons r rs ih =>
    rw [observersLoop] at h
    split at h
    · cases h
    rename_i b0 hb
    split at h
    · cases h
    rename_i v0 hv
    split at h
    · cases h
    rename_i bs vs hrest
    cases h
    obtain ⟨h1, h2⟩ := ih hrest
    constructor
    · rw [List.map_append, h1]
      unfold ScorePlots.bias at hb
      split at hb
      · rename_i hn
        cases hb
        simp [hn]
      · rename_i l hl
        split at hb
        · cases hb
        rename_i s hs
        have he : s.err = biasCi r := series_err hs
        split at hb
        · rename_i hobs
          cases hb
          simp [hl, (ScorePlots.series_ok hs).1, he, entry_bias, hobs]
        · rename_i hobs
          split at hb
          · cases hb
            simp [hl, (ScorePlots.series_ok hs).1, he, entry_bias, hobs]
          · cases hb
    · rw [List.map_append, h2]
      unfold inconsistency at hv
      split at hv
      · rename_i hn
        cases hv
        simp [hn]
      · rename_i l hl
        split at hv
        · cases hv
        rename_i s hs
        have he : s.err = inconsistencyCi ppf r := series_err hs
        cases hv
        simp [hl, (ScorePlots.series_ok hs).1, he, entry_inconsistency]

/-- there is a plot of the observers for up to eight models -/
theorem observersLoop_runs {n S : ℕ} (hS : 0 < S) {rs : List (Result κ ℝ)} {k : ℕ} (hk : k + rs.length ≤ 8) (hf : ∀ r ∈ rs, Fits n S r) :
    ∃ o, observersLoop ppf k rs = .ok o := by
  induction rs generalizing k with
  | nil => exact ⟨_, rfl⟩
  | cons r rs ih =>
    have hr := hf r (by simp)
    rw [List.length_cons] at hk
    have hb : ∃ b, ScorePlots.bias .errorbar k (biasCi r) r = .ok b := by
      unfold ScorePlots.bias
      cases hbb : r.observerBias with
      | none => exact ⟨_, rfl⟩
      | some l =>
        have hl := hr.bias l hbb
        obtain ⟨s, hs⟩ := series_runs (k := k) (by omega) (show l ≠ [] by rintro rfl; simp at hl; omega) (biasCi r)
        dsimp only
        rw [hs]
        cases ho : r.observers with
        | none => exact ⟨_, rfl⟩
        | some o =>
          dsimp only
          rw [if_pos (by rw [hl, hr.named o ho])]
          exact ⟨_, rfl⟩
    have hv : ∃ v, inconsistency ppf k r = .ok v := by
      unfold inconsistency
      cases hvv : r.observerInconsistency with
      | none => exact ⟨_, rfl⟩
      | some l =>
        have hl := hr.inc l hvv
        obtain ⟨s, hs⟩ := series_runs (k := k) (by omega) (show l ≠ [] by rintro rfl; simp at hl; omega) (inconsistencyCi ppf r)
        dsimp only
        rw [hs]
        exact ⟨_, rfl⟩
    obtain ⟨b, hb⟩ := hb
    obtain ⟨v, hv⟩ := hv
    obtain ⟨⟨bs, vs⟩, ho⟩ := ih (k := nextShift k r) (by unfold nextShift; split <;> omega) fun r hr => hf r (by simp [hr])
    rw [observersLoop, hb]
    dsimp only
    rw [hv]
    dsimp only
    rw [ho]
    exact ⟨_, rfl⟩

/-- there is a mean vote -/
theorem some_mean {a : Arr3D (Fl ℝ)} (hE : 0 < a.E) (hr : EveryVideoRated a) (hc : ∀ e s r, NumOrNan (a.get e s r)) :
    ∃ i j, (Plots.meanMatrix a.get i j).isNan = false := by
  obtain ⟨i, r, h⟩ := hr ⟨0, hE⟩
  refine ⟨i, ⟨0, hE⟩, ?_⟩
  by_contra hn
  rw [Bool.not_eq_false] at hn
  have := (C104_meanMatrix a.get hc i ⟨0, hE⟩).1.mp hn r
  rw [this] at h
  obtain ⟨x, hx⟩ := h
  cases hx

theorem rawCounts_runs {a : Arr3D (Fl ℝ)} (h : ∃ i j, (Plots.meanMatrix a.get i j).isNan = false) :
    (∃ d, Plots.rawCounts a.get = .ok d) ∧ ∃ d, Plots.rawCountsPerSubject a.get = .ok d := by
  obtain ⟨i, j, hij⟩ := h
  constructor
  · rcases C104_rawCounts a.get with ⟨-, h1⟩ | ⟨d, h1, -⟩
    · rw [h1 i j] at hij; cases hij
    · exact ⟨d, h1⟩
  · rcases C104_rawCountsPerSubject a.get with ⟨-, h1⟩ | ⟨d, h1, -⟩
    · rw [h1 i j] at hij; cases hij
    · exact ⟨d, h1⟩

theorem mapPy_append {α β : Type} (f : α → Py β) (l l' : List α) : mapPy f (l ++ l') =
    match mapPy f l with
    | .error e => .error e
    | .ok x => match mapPy f l' with
      | .error e => .error e
      | .ok y => .ok (x ++ y) := by
  induction l with
  | nil =>
    rw [List.nil_append, mapPy]
    dsimp only
    cases mapPy f l' <;> rfl
  | cons a l ih =>
    rw [List.cons_append, mapPy, mapPy, ih]
    cases f a with
    | error e => rfl
    | ok b =>
      dsimp only
      cases mapPy f l with
      | error e => rfl
      | ok x =>
        dsimp only
        cases mapPy f l' <;> rfl

end

/-! ### The run -/

section
variable {κ : Type} [LinearOrder κ] (other : ModelClass → Reader κ ℝ → Py (Result κ ℝ))

theorem run_good {path : List Char} {readPy readJson : Py (Dataset κ ℝ)} {d : Dataset κ ℝ} {rd : Reader κ ℝ} {n S : ℕ} {cs : List ModelClass}
    (hl : Loads path readPy readJson d) (hrd : rawReader d = .ok rd) (hg : ∀ c ∈ cs, ∃ r, Good other rd n S c r) :
    ∃ reports, List.Forall₂ (fun c rep => Good other rd n S c rep.result ∧ rep.disVideoNames = rd.disVideos.map (·.path)) cs reports ∧
      run path readPy readJson rawReader (cs.map (runClass other)) = .ok reports := by
  obtain ⟨l1, l2⟩ := loads_read hl
  have key : ∃ rs reports, mapPy (fun m => m rd) (cs.map (runClass other)) = .ok rs ∧ mapPy (report rd) rs = .ok reports ∧
      List.Forall₂ (fun c rep => Good other rd n S c rep.result ∧ rep.disVideoNames = rd.disVideos.map (·.path)) cs reports := by
    clear l1 l2 hl
    induction cs with
    | nil => exact ⟨[], [], rfl, rfl, .nil⟩
    | cons c cs ih =>
      obtain ⟨rs, reports, h1, h2, h3⟩ := ih fun c hc => hg c (List.mem_cons_of_mem _ hc)
      obtain ⟨r, h4⟩ := hg c (by simp)
      obtain ⟨st, h5⟩ := h4.2.1
      refine ⟨r :: rs, ⟨r, rd.disVideos.map (·.path), st⟩ :: reports, ?_, ?_, .cons ⟨h4, rfl⟩ h3⟩
      · rw [List.map_cons, mapPy, h4.1, h1]
      · rw [mapPy, h5, h2]
  obtain ⟨rs, reports, h1, h2, h3⟩ := key
  refine ⟨reports, h3, ?_⟩
  unfold run
  dsimp only
  rw [l1]
  dsimp only
  rw [hrd]
  dsimp only
  rw [h1]
  dsimp only
  rw [h2]

end
end Sureal.MainPlots
