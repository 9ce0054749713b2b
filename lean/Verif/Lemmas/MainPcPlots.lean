import Verif.Model.MainPcPlots
import Verif.Spec.MainPcPlots
import Verif.Lemmas.MainPlots
import Verif.Props.MainPc
/-! # Lemmas: the program with models for paired comparisons and plots -/
set_option linter.unusedSectionVars false
namespace Sureal.MainPcPlots
open Sureal Spec Spec.BT Format PcReader Props MainPc MainPlots

variable {ppf : Fl ℝ → ℕ → Fl ℝ} {L : Lib ℝ} {path : List Char} {readPy : Py (Dataset (String × Int) ℝ)} {readJson : Py (Dataset String ℝ)}

theorem present_card (l : List (Fl ℝ)) : (Spec.present l).length = (l.map fun x => match x with | .fin _ => 1 | _ => 0).sum := by
  induction l with
  | nil => rfl
  | cons x l ih =>
    unfold Spec.present at ih ⊢
    rw [List.map_cons, List.sum_cons]
    cases x with
    | fin v => rw [List.filterMap_cons_some (f := Fl.val?) (a := Fl.fin v) (b := v) rfl, List.length_cons, ih, Nat.add_comm]
    | nan => rw [List.filterMap_cons_none rfl, ih]; exact (zero_add _).symm
    | pinf => rw [List.filterMap_cons_none rfl, ih]; exact (zero_add _).symm
    | ninf => rw [List.filterMap_cons_none rfl, ih]; exact (zero_add _).symm

theorem cell_fin {arr : Arr3D (Fl ℝ)} {i j s : ℕ} (hi : i < arr.E) (hj : j < arr.S) (hs : s < arr.R) :
    cell arr i j s = some (arr.get ⟨i, hi⟩ ⟨j, hj⟩ ⟨s, hs⟩) := dif_pos ⟨hi, hj, hs⟩

/-- the mean of the numbers in the cells of two videos -/
theorem share_eq {arr : Arr3D (Fl ℝ)} {i j : ℕ} (hi : i < arr.E) (hj : j < arr.S) (hc : ∀ s, NumOrNan (arr.get ⟨i, hi⟩ ⟨j, hj⟩ s)) :
    Np.nanmean (List.ofFn (arr.get ⟨i, hi⟩ ⟨j, hj⟩)) = shareIn arr i j := by
  have h1 : ((Spec.present (List.ofFn (arr.get ⟨i, hi⟩ ⟨j, hj⟩))).length : ℕ) = playedIn arr i j := by
    classical
    rw [present_card, List.map_ofFn, List.sum_ofFn]
    unfold playedIn
    rw [Finset.card_filter, Finset.sum_range]
    refine Finset.sum_congr rfl fun s _ => ?_
    rw [cell_fin hi hj s.isLt, Function.comp_apply]
    rcases hc s with e | ⟨v, e⟩
    · rw [e, if_neg (by rintro ⟨q, h⟩; cases h)]
    · rw [e, if_pos ⟨v, rfl⟩]
  have h2 : (Spec.present (List.ofFn (arr.get ⟨i, hi⟩ ⟨j, hj⟩))).sum = winsIn arr i j := by
    rw [present_sum, List.map_ofFn, List.sum_ofFn]
    unfold winsIn
    rw [Finset.sum_range]
    refine Finset.sum_congr rfl fun s _ => ?_
    rw [cell_fin hi hj s.isLt, Function.comp_apply]
    rcases hc s with e | ⟨v, e⟩ <;> rw [e] <;> rfl
  have hcl : Np.Clean (List.ofFn (arr.get ⟨i, hi⟩ ⟨j, hj⟩)) := Np.clean_ofFn.mpr hc
  rw [nanmean_spec hcl]
  unfold shareIn meanOrNan
  rw [← h1, ← h2]
  cases Spec.present (List.ofFn (arr.get ⟨i, hi⟩ ⟨j, hj⟩)) with
  | nil => rfl
  | cons x l =>
    rw [if_neg (by simp)]
    rfl

/-- the picture of the raw scores -/
theorem picture {rd : PcRd String ℝ} (h : read path readPy readJson = .ok rd) {arr : Arr3D (Fl ℝ)} (hs : rd.scores = .ok arr) :
    ∃ rows : List (List (Fl ℝ)), (∀ results : List (Result String ℝ), draw ppf rd.scores results .rawScores = .ok (.matrix rows)) ∧
      rows.length = rd.dataset.disVideos.length ∧ (∀ r ∈ rows, r.length = rd.dataset.disVideos.length) ∧
      ∀ i j, i < rd.dataset.disVideos.length → j < rd.dataset.disVideos.length → pixel rows j i = some (shareIn arr i j) := by
  obtain ⟨hdict, he, -⟩ := read_inv h
  have hs' := hs
  rw [he] at hs'
  obtain ⟨hl, ha⟩ := (pcScores_ok hdict arr).mp hs'
  have hE : arr.E = rd.dataset.disVideos.length := by rw [ha]
  have hS : arr.S = rd.dataset.disVideos.length := by rw [ha]
  have hc : ∀ i j s, NumOrNan (arr.get i j s) := by
    subst ha
    intro i j s
    rcases cells_legal hdict hl (i.val, j.val, s.val) with e | ⟨q, -, e⟩
    · exact Or.inl e
    · exact Or.inr ⟨q, e⟩
  refine ⟨List.ofFn fun i => List.ofFn fun j => Plots.meanMatrix arr.get i j, fun results => by unfold draw; rw [hs], ?_, ?_, ?_⟩
  · rw [List.length_ofFn, hS]
  · intro r hr
    obtain ⟨k, rfl⟩ := List.mem_ofFn.mp hr
    rw [List.length_ofFn, hE]
  · intro i j hi hj
    unfold pixel
    rw [List.getElem?_ofFn, dif_pos (by rw [hS]; exact hj), Option.bind_some, List.getElem?_ofFn, dif_pos (by rw [hE]; exact hi)]
    congr 1
    exact share_eq (by rw [hE]; exact hi) (by rw [hS]; exact hj) fun s => hc _ _ s

/-- with these models the program is `Program` -/
theorem main_iff {asked : Asked} {models : List String} (h : ∀ t ∈ models, t ∈ pairedModels) (hne : models ≠ [])
    {r : Py (Output String (Fl ℝ) × List (Figure String ℝ))} :
    Main ppf L path readPy readJson asked models r ↔ Program ppf L path readPy readJson asked (models.map classOf) r := by
  have hf : Main.known.findAll .SubjectiveModel models = .ok (models.map classOf) := by
    refine Main.findAll_types ((classes h).imp fun _ _ h => (paired_class h).1) fun c hc => ?_
    obtain ⟨t, ht, rfl⟩ := List.mem_map.mp hc
    exact (paired_class (classOf_mem (h t ht))).2.1
  have hc : chooseReader (Main.inMro .SubjectiveModel) (Main.inMro .PairedCompSubjectiveModel) (models.map classOf) = .ok .pairedComp := by
    refine ((C78_reader (Main.inMro .SubjectiveModel) (Main.inMro .PairedCompSubjectiveModel) _ (fun c _ => Main.inMro_subj c)).2.1).mpr
      ⟨by simpa using hne, fun c hc => ?_⟩
    obtain ⟨t, ht, rfl⟩ := List.mem_map.mp hc
    exact (paired_class (classOf_mem (h t ht))).2.2
  constructor
  · intro hm
    cases hm with
    | unknown h' => rw [hf] at h'; cases h'
    | refused h' hc' =>
      rw [hf] at h'
      have := Except.ok.inj h'
      subst this
      rw [hc] at hc'
      cases hc'
    | run h' hc' hr =>
      rw [hf] at h'
      have := Except.ok.inj h'
      subst this
      exact hr
  · exact fun hp => .run hf hc hp

/-- the scores of a model have an entry per video; models other than BT_NR have intervals -/
theorem runOn_sized {rd : PcRd String ℝ} (h : read path readPy readJson = .ok rd) {arr : Arr3D (Fl ℝ)} (hs : rd.scores = .ok arr) {c : ModelClass} {o : PcOut ℝ}
    (hr : RunOn L arr c (.ok o)) : o.scores.length = rd.dataset.disVideos.length := by
  obtain ⟨hw, -⟩ := winMatrix_wins h hs
  generalize hq : (Except.ok o : Py (PcOut ℝ)) = q at hr
  cases hr with
  | notSquare _ => cases hq
  | mle h1 _ => cases hq; rw [hw] at h1; cases h1; exact List.length_ofFn
  | mleFail _ _ => cases hq
  | nrEmpty _ _ => cases hq
  | nr h1 _ =>
    cases hq
    rw [hw] at h1
    have := congrArg Bt.Square.M (Except.ok.inj h1)
    rw [List.length_ofFn]
    exact this.symm
  | nrFail _ _ => cases hq
  | th h1 _ => cases hq; rw [hw] at h1; cases h1; exact List.length_ofFn
  | thFail _ _ => cases hq

/-- nothing on observers -/
theorem observers_empty (os : List (PcOut ℝ)) (k : ℕ) : observersLoop ppf k (os.map asResult) = .ok ([], []) := by
  induction os generalizing k with
  | nil => rfl
  | cons o os ih =>
    rw [List.map_cons, observersLoop]
    have h1 : ScorePlots.bias .errorbar k (biasCi (asResult o)) (asResult o) = .ok none := rfl
    have h2 : inconsistency ppf k (asResult o) = .ok none := rfl
    rw [h1]
    dsimp only
    rw [h2]
    dsimp only
    rw [ih]
    rfl

end Sureal.MainPcPlots
