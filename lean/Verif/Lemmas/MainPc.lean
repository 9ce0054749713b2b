import Verif.Spec.MainPc
import Verif.Model.MainPc
import Verif.Props.Main
import Verif.Props.PcReader
import Verif.Props.Bt
/-! # Lemmas on the program with models for paired comparisons -/
set_option linter.unusedSectionVars false
namespace Sureal.MainPc
open Sureal Spec Spec.BT Format PcReader Props

variable {L : Lib ℝ} {path : List Char} {readPy : Py (Dataset (String × Int) ℝ)} {readJson : Py (Dataset String ℝ)}

/-- the class of a model for paired comparisons -/
def classOf (t : String) : ModelClass :=
  if t = "THURSTONE_MLE" then .ThurstoneMlePairedCompSubjectiveModel
  else if t = "BT_MLE" then .BradleyTerryMlePairedCompSubjectiveModel
  else .BradleyTerryNewtonRaphsonPairedCompSubjectiveModel

theorem classOf_mem {t : String} (h : t ∈ pairedModels) : (t, classOf t) ∈ pairedNames := by
  simp only [pairedModels, List.mem_cons, List.not_mem_nil, or_false] at h
  rcases h with rfl | rfl | rfl <;> simp [pairedNames, classOf]

theorem classes {models : List String} (h : ∀ t ∈ models, t ∈ pairedModels) :
    List.Forall₂ (fun t c => (t, c) ∈ pairedNames) models (models.map classOf) := by
  induction models with
  | nil => exact .nil
  | cons t l ih => exact .cons (classOf_mem (h t List.mem_cons_self)) (ih fun t ht => h t (List.mem_cons_of_mem _ ht))

theorem types {models : List String} (h : ∀ t ∈ models, t ∈ pairedModels) :
    (models.map classOf).map (fun c => (ModelClass.hierarchy.type c).getD "") = models :=
  Main.types_eq ((classes h).imp fun _ _ h => (paired_class h).1)

/-- with these models the program is `Program` -/
theorem main_iff {models : List String} (h : ∀ t ∈ models, t ∈ pairedModels) (hne : models ≠ []) {r : Py (Output String (Fl ℝ))} :
    Main L path readPy readJson models r ↔ Program L path readPy readJson (models.map classOf) r := by
  have hf : Main.known.findAll .SubjectiveModel models = .ok (models.map classOf) := by
    refine Main.findAll_types ((classes h).imp fun _ _ h => (paired_class h).1) fun c hc => ?_
    obtain ⟨t, ht, rfl⟩ := List.mem_map.mp hc
    exact (paired_class (classOf_mem (h t ht))).2.1
  have hc : chooseReader (Main.inMro .SubjectiveModel) (Main.inMro .PairedCompSubjectiveModel) (models.map classOf) = .ok .pairedComp := by
    refine ((C78_reader (Main.inMro .SubjectiveModel) (Main.inMro .PairedCompSubjectiveModel) _ (fun c _ => Main.inMro_subj c)).2.1).mpr
      ⟨by simpa using hne, fun c hc => ?_⟩
    obtain ⟨t, ht, rfl⟩ := List.mem_map.mp hc
    exact (paired_class (classOf_mem (h t ht))).2.2
  constructor
  · intro hm
    cases hm with
    | unknown h' => rw [hf] at h'; cases h'
    | refused h' hc' =>
      rw [hf] at h'
      have := Except.ok.inj h'
      subst this
      rw [hc] at hc'
      cases hc'
    | run h' hc' hr =>
      rw [hf] at h'
      have := Except.ok.inj h'
      subst this
      exact hr
  · exact fun hp => .run hf hc hp

/-! ### the reader -/

/-- what is known of a reader: the videos are in dictionary style -/
theorem read_inv {rd : PcRd String ℝ} (h : read path readPy readJson = .ok rd) :
    (∀ dv ∈ rd.dataset.disVideos, ∃ l, dv.os = some (.dict l)) ∧ rd.scores = pcScores rd.dataset.disVideos ∧
    (((∃ l, path = l ++ ".py".toList) ∧ ∃ d, readPy = .ok d ∧ pcReader d = .ok rd) ∨
      (∃ l, path = l ++ ".json".toList) ∧ ∃ d, readJson = .ok d ∧ jsonReader d = .ok rd) := by
  unfold read at h
  split_ifs at h with h1 h2
  · split at h
    · cases h
    · rename_i _ d
      obtain ⟨ha, rfl⟩ := pcReader_ok.mp h
      obtain ⟨-, hdv⟩ := assertPc_ok.mp ha
      refine ⟨fun dv hm => (hdv dv hm).1, rfl, Or.inl ⟨?_, d, rfl, h⟩⟩
      obtain ⟨l, hl⟩ := List.isSuffixOf_iff_suffix.mp h1
      exact ⟨l, hl.symm⟩
  · split at h
    · cases h
    · rename_i _ d
      have hj := h
      unfold jsonReader at h
      split at h
      · cases h
      · split at h
        · cases h
        · rename_i vs hvs
          cases h
          refine ⟨fun dv hm => ?_, rfl, Or.inr ⟨?_, d, rfl, hj⟩⟩
          · dsimp only at hm
            rw [mapPy_eq_ok_iff] at hvs
            obtain ⟨k, hk, rfl⟩ := List.getElem_of_mem hm
            have hk' : k < d.disVideos.length := by rw [hvs.length_eq]; exact hk
            have := hvs.get hk' hk
            simp only [List.get_eq_getElem] at this
            unfold jsonVideo at this
            split at this
            · split_ifs at this
              rw [← Except.ok.inj this]
              exact ⟨_, rfl⟩
            · cases this
            · cases this
          · obtain ⟨l, hl⟩ := List.isSuffixOf_iff_suffix.mp h2
            exact ⟨l, hl.symm⟩

/-- every cell of the array is NaN or a legal outcome -/
theorem cells_legal {dvs : List (DisVideo (String × Int) ℝ)} (hdict : ∀ dv ∈ dvs, ∃ l, dv.os = some (.dict l)) (hl : RecordsLegal dvs)
    (c : ℕ × ℕ × ℕ) : cellAfter (allWrites dvs.length (obsOf dvs) 0 (dictsOf dvs)) c = .nan ∨
      ∃ q : ℝ, Outcome3 q ∧ cellAfter (allWrites dvs.length (obsOf dvs) 0 (dictsOf dvs)) c = .fin q := by
  rcases cellAfter_mem (ws := allWrites dvs.length (obsOf dvs) 0 (dictsOf dvs)) (c := c) with e | ⟨w, hw, -, e⟩
  · exact Or.inl e
  · right
    unfold allWrites at hw
    obtain ⟨⟨l, m⟩, hp, hw⟩ := List.mem_flatMap.mp hw
    obtain ⟨⟨⟨t, b⟩, v⟩, he, hw⟩ := List.mem_flatMap.mp hw
    obtain ⟨dv, hdv, hd⟩ := get_dictsOf hdict (List.mem_zipIdx_iff_getElem?.mp hp)
    obtain ⟨⟨q, hq, rfl⟩, -⟩ := hl dv (List.mem_of_getElem? hdv) l hd t b v he
    simp only [recP, List.mem_cons, List.not_mem_nil, or_false] at hw
    rcases hw with rfl | rfl
    · exact ⟨q, hq, by rw [e]; rfl⟩
    · exact ⟨1 - q, PcReader.Outcome3.compl hq, by rw [e]; rfl⟩

/-- the outcomes of a row of cells, those without an outcome counting 0 -/
noncomputable def points (x : Fl ℝ) : ℝ := x.val?.getD 0

theorem present_sum (l : List (Fl ℝ)) : (Spec.present l).sum = (l.map points).sum := by
  induction l with
  | nil => rfl
  | cons x l ih =>
    unfold Spec.present at ih ⊢
    rw [List.map_cons, List.sum_cons]
    cases x with
    | fin v => rw [List.filterMap_cons_some (f := Fl.val?) (a := Fl.fin v) (b := v) rfl, List.sum_cons, ih]; rfl
    | nan => rw [List.filterMap_cons_none rfl, ih]; exact (zero_add _).symm
    | pinf => rw [List.filterMap_cons_none rfl, ih]; exact (zero_add _).symm
    | ninf => rw [List.filterMap_cons_none rfl, ih]; exact (zero_add _).symm

/-- the table of wins is a matrix of nonnegative numbers -/
theorem winMatrix_real {rd : PcRd String ℝ} (h : read path readPy readJson = .ok rd) {arr : Arr3D (Fl ℝ)} (hs : rd.scores = .ok arr) :
    ∃ A : Fin rd.dataset.disVideos.length → Fin rd.dataset.disVideos.length → ℝ,
      Bt.winMatrix arr = .ok ⟨rd.dataset.disVideos.length, mat A⟩ ∧ (∀ i j, 0 ≤ A i j) ∧
      ∀ i j, A i j = (List.ofFn fun s : Fin (obsOf rd.dataset.disVideos).length =>
        points (cellAfter (allWrites rd.dataset.disVideos.length (obsOf rd.dataset.disVideos) 0 (dictsOf rd.dataset.disVideos)) (i.val, j.val, s.val))).sum := by
  obtain ⟨hdict, he, -⟩ := read_inv h
  rw [he] at hs
  obtain ⟨hl, rfl⟩ := (pcScores_ok hdict arr).mp hs
  refine ⟨fun i j => _, ?_, fun i j => ?_, fun i j => rfl⟩
  · unfold Bt.winMatrix
    rw [dif_pos rfl]
    congr 2
    funext i j
    show Np.nansum (List.ofFn _) = Fl.fin _
    rw [Np.nansum_eq, present_sum, List.map_ofFn]
    · rfl
    · intro x hx
      obtain ⟨s, rfl⟩ := List.mem_ofFn.mp hx
      dsimp only
      rcases cells_legal hdict hl (i.val, (Fin.cast rfl j).val, s.val) with e | ⟨q, -, e⟩
      · exact Or.inl e
      · exact Or.inr ⟨q, e⟩
  · refine List.sum_nonneg fun x hx => ?_
    obtain ⟨s, rfl⟩ := List.mem_ofFn.mp hx
    rcases cells_legal hdict hl (i.val, j.val, s.val) with e | ⟨q, hq, e⟩
    · rw [e]; exact le_refl _
    · rw [e]
      show 0 ≤ q
      rcases hq with rfl | rfl | rfl <;> norm_num

/-- the table of wins in the words of the specification -/
theorem winMatrix_wins {rd : PcRd String ℝ} (h : read path readPy readJson = .ok rd) {arr : Arr3D (Fl ℝ)} (hs : rd.scores = .ok arr) :
    Bt.winMatrix arr = .ok ⟨rd.dataset.disVideos.length, mat fun i j => winsIn arr i j⟩ ∧
      ∀ i j : Fin rd.dataset.disVideos.length, 0 ≤ winsIn arr i j := by
  obtain ⟨A, h1, h2, h3⟩ := winMatrix_real h hs
  obtain ⟨hdict, he, -⟩ := read_inv h
  rw [he] at hs
  obtain ⟨hl, ha⟩ := (pcScores_ok hdict arr).mp hs
  have hA : A = fun i j => winsIn arr i.val j.val := by
    subst ha
    funext i j
    rw [h3, List.sum_ofFn]
    unfold winsIn
    rw [Finset.sum_range]
    refine Finset.sum_congr rfl fun s _ => ?_
    unfold cell
    rw [dif_pos ⟨i.isLt, j.isLt, s.isLt⟩]
    dsimp only
    rcases cells_legal hdict hl (i.val, j.val, s.val) with e | ⟨q, -, e⟩
    · rw [e]; rfl
    · rw [e]; rfl
  subst hA
  exact ⟨h1, h2⟩

/-! ### the models -/

theorem runEach_ok {rd : PcRd String ℝ} {cs : List ModelClass} {os : List (PcOut ℝ)} (h : RunEach L rd cs (.ok os)) :
    List.Forall₂ (fun c o => ∃ a, rd.scores = .ok a ∧ RunOn L a c (.ok o)) cs os := by
  generalize hr : (Except.ok os : Py (List (PcOut ℝ))) = r at h
  induction h generalizing os with
  | nil => cases hr; exact .nil
  | unreadable _ => cases hr
  | fail _ _ => cases hr
  | later _ _ _ _ => cases hr
  | next h hr' _ ih => cases hr; exact .cons ⟨_, h, hr'⟩ (ih rfl)

theorem runEach_of {rd : PcRd String ℝ} {cs : List ModelClass} {os : List (PcOut ℝ)}
    (h : List.Forall₂ (fun c o => ∃ a, rd.scores = .ok a ∧ RunOn L a c (.ok o)) cs os) : RunEach L rd cs (.ok os) := by
  induction h with
  | nil => exact .nil
  | cons h _ ih =>
    obtain ⟨a, h1, h2⟩ := h
    exact .next h1 h2 ih

theorem nrLoop_det {n : ℕ} {pinv} {wm : Arr2 (Fl ℝ) (n + 1) (n + 1)} {x : Arr1 (Fl ℝ) (n + 1)} {r r'} (h : Bt.NrLoop pinv wm x r) (h' : Bt.NrLoop pinv wm x r') :
    r = r' := by
  induction h with
  | fail h1 =>
    cases h' with
    | fail h2 => rw [h1] at h2; cases h2; rfl
    | bad h2 _ => rw [h1] at h2; cases h2
    | stop h2 _ _ => rw [h1] at h2; cases h2
    | next h2 _ _ _ => rw [h1] at h2; cases h2
  | bad h1 k1 =>
    cases h' with
    | fail h2 => rw [h1] at h2; cases h2
    | bad h2 k2 => rw [h1] at h2; cases h2; rw [k1] at k2; cases k2; rfl
    | stop h2 k2 _ => rw [h1] at h2; cases h2; rw [k1] at k2; cases k2
    | next h2 k2 _ _ => rw [h1] at h2; cases h2; rw [k1] at k2; cases k2
  | stop h1 k1 d1 =>
    cases h' with
    | fail h2 => rw [h1] at h2; cases h2
    | bad h2 k2 => rw [h1] at h2; cases h2; rw [k1] at k2; cases k2
    | stop h2 k2 _ => rw [h1] at h2; cases h2; rfl
    | next h2 k2 d2 _ => rw [h1] at h2; cases h2; rw [k1] at k2; cases k2; rw [d1] at d2; cases d2
  | next h1 k1 d1 _ ih =>
    cases h' with
    | fail h2 => rw [h1] at h2; cases h2
    | bad h2 k2 => rw [h1] at h2; cases h2; rw [k1] at k2; cases k2
    | stop h2 k2 d2 => rw [h1] at h2; cases h2; rw [k1] at k2; cases k2; rw [d1] at d2; cases d2
    | next h2 k2 d2 hr => rw [h1] at h2; cases h2; exact ih hr

theorem nrRun_det {n : ℕ} {pinv} {z : Flag} {wm : Arr2 (Fl ℝ) (n + 1) (n + 1)} {r r'} (h : Bt.NrRun pinv z wm r) (h' : Bt.NrRun pinv z wm r') : r = r' := by
  cases h with
  | fail h1 =>
    cases h' with
    | fail h2 => cases nrLoop_det h1 h2; rfl
    | done h2 => cases nrLoop_det h1 h2
  | done h1 =>
    cases h' with
    | fail h2 => cases nrLoop_det h1 h2
    | done h2 => cases nrLoop_det h1 h2; rfl

theorem resolve_det {M : ℕ} {pinv} {f : Flag} {al : Arr2 (Fl ℝ) M M} {r r'} (h : Bt.Resolve pinv f al r) (h' : Bt.Resolve pinv f al r') : r = r' := by
  cases h with
  | badFlag h1 =>
    cases h' with
    | badFlag _ => rfl
    | empty h2 _ => exact absurd h1 h2
    | fail h2 _ _ => exact absurd h1 h2
    | done h2 _ _ => exact absurd h1 h2
  | empty h1 k1 =>
    cases h' with
    | badFlag h2 => exact absurd h2 h1
    | empty _ _ => rfl
    | fail _ k2 _ => exact absurd k1 k2
    | done _ k2 _ => exact absurd k1 k2
  | fail h1 k1 l1 =>
    cases h' with
    | badFlag h2 => exact absurd h2 h1
    | empty _ k2 => exact absurd k2 k1
    | fail _ _ l2 => cases Bt.loop_det l1 l2; rfl
    | done _ _ l2 => cases Bt.loop_det l1 l2
  | done h1 k1 l1 =>
    cases h' with
    | badFlag h2 => exact absurd h2 h1
    | empty _ k2 => exact absurd k2 k1
    | fail _ _ l2 => cases Bt.loop_det l1 l2
    | done _ _ l2 => cases Bt.loop_det l1 l2; rfl

theorem ok_inj {α : Type} {x : Py α} {a b : α} (h : x = .ok a) (h' : x = .ok b) : a = b := by
  rw [h] at h'
  exact Except.ok.inj h'

theorem ok_err {α : Type} {x : Py α} {a : α} {e : PyErr} (h : x = .ok a) (h' : x = .error e) : False := by
  rw [h] at h'
  cases h'

theorem err_inj {α : Type} {x : Py α} {e e' : PyErr} (h : x = .error e) (h' : x = .error e') : e = e' := by
  rw [h] at h'
  cases h'
  rfl

/-- how the table of wins enters -/
theorem runOn_det {a : Arr3D (Fl ℝ)} {c : ModelClass} {r r' : Py (PcOut ℝ)} (h : RunOn L a c r) (h' : RunOn L a c r') : r = r' := by
  cases h with
  | notSquare h1 =>
    cases h' with
    | notSquare h2 => rw [err_inj h1 h2]
    | mle h2 _ => exact (ok_err h2 h1).elim
    | mleFail h2 _ => exact (ok_err h2 h1).elim
    | nrEmpty h2 _ => exact (ok_err h2 h1).elim
    | nr h2 _ => exact (ok_err h2 h1).elim
    | nrFail h2 _ => exact (ok_err h2 h1).elim
    | th h2 _ => exact (ok_err h2 h1).elim
    | thFail h2 _ => exact (ok_err h2 h1).elim
  | mle h1 k1 =>
    cases h' with
    | notSquare h2 => exact (ok_err h1 h2).elim
    | mle h2 k2 => cases ok_inj h1 h2; cases resolve_det k1 k2; rfl
    | mleFail h2 k2 => cases ok_inj h1 h2; cases resolve_det k1 k2
  | mleFail h1 k1 =>
    cases h' with
    | notSquare h2 => exact (ok_err h1 h2).elim
    | mle h2 k2 => cases ok_inj h1 h2; cases resolve_det k1 k2
    | mleFail h2 k2 => cases ok_inj h1 h2; cases resolve_det k1 k2; rfl
  | nrEmpty h1 k1 =>
    cases h' with
    | notSquare h2 => exact (ok_err h1 h2).elim
    | nrEmpty h2 _ => rfl
    | nr h2 _ => cases ok_inj h1 h2; cases k1
    | nrFail h2 _ => cases ok_inj h1 h2; cases k1
  | nr h1 k1 =>
    cases h' with
    | notSquare h2 => exact (ok_err h1 h2).elim
    | nrEmpty h2 k2 => cases ok_inj h1 h2; cases k2
    | nr h2 k2 => cases ok_inj h1 h2; cases nrRun_det k1 k2; rfl
    | nrFail h2 k2 => cases ok_inj h1 h2; cases nrRun_det k1 k2
  | nrFail h1 k1 =>
    cases h' with
    | notSquare h2 => exact (ok_err h1 h2).elim
    | nrEmpty h2 k2 => cases ok_inj h1 h2; cases k2
    | nr h2 k2 => cases ok_inj h1 h2; cases nrRun_det k1 k2
    | nrFail h2 k2 => cases ok_inj h1 h2; cases nrRun_det k1 k2; rfl
  | th h1 k1 =>
    cases h' with
    | notSquare h2 => exact (ok_err h1 h2).elim
    | th h2 k2 => cases ok_inj h1 h2; cases ok_inj k1 k2; rfl
    | thFail h2 k2 => cases ok_inj h1 h2; exact (ok_err k1 k2).elim
  | thFail h1 k1 =>
    cases h' with
    | notSquare h2 => exact (ok_err h1 h2).elim
    | th h2 k2 => cases ok_inj h1 h2; exact (ok_err k2 k1).elim
    | thFail h2 k2 => cases ok_inj h1 h2; rw [err_inj k1 k2]

theorem runEach_det {rd : PcRd String ℝ} {cs : List ModelClass} {r r' : Py (List (PcOut ℝ))} (h : RunEach L rd cs r) (h' : RunEach L rd cs r') : r = r' := by
  induction h generalizing r' with
  | nil => cases h'; rfl
  | unreadable h1 =>
    cases h' with
    | unreadable h2 => rw [err_inj h1 h2]
    | fail h2 _ => exact (ok_err h2 h1).elim
    | later h2 _ _ => exact (ok_err h2 h1).elim
    | next h2 _ _ => exact (ok_err h2 h1).elim
  | fail h1 k1 =>
    cases h' with
    | unreadable h2 => exact (ok_err h1 h2).elim
    | fail h2 k2 => cases ok_inj h1 h2; cases runOn_det k1 k2; rfl
    | later h2 k2 _ => cases ok_inj h1 h2; cases runOn_det k1 k2
    | next h2 k2 _ => cases ok_inj h1 h2; cases runOn_det k1 k2
  | later h1 k1 _ ih =>
    cases h' with
    | unreadable h2 => exact (ok_err h1 h2).elim
    | fail h2 k2 => cases ok_inj h1 h2; cases runOn_det k1 k2
    | later h2 k2 s2 => exact ih s2
    | next h2 k2 s2 => cases ih s2
  | next h1 k1 _ ih =>
    cases h' with
    | unreadable h2 => exact (ok_err h1 h2).elim
    | fail h2 k2 => cases ok_inj h1 h2; cases runOn_det k1 k2
    | later h2 k2 s2 => cases ih s2
    | next h2 k2 s2 => cases ok_inj h1 h2; cases runOn_det k1 k2; cases ih s2; rfl

theorem program_det {cs : List ModelClass} {r r' : Py (Output String (Fl ℝ))} (h : Program L path readPy readJson cs r)
    (h' : Program L path readPy readJson cs r') : r = r' := by
  cases h with
  | unread h1 =>
    cases h' with
    | unread h2 => rw [err_inj h1 h2]
    | fail h2 _ => exact (ok_err h2 h1).elim
    | done h2 _ => exact (ok_err h2 h1).elim
  | fail h1 k1 =>
    cases h' with
    | unread h2 => exact (ok_err h1 h2).elim
    | fail h2 k2 => cases ok_inj h1 h2; cases runEach_det k1 k2; rfl
    | done h2 k2 => cases ok_inj h1 h2; cases runEach_det k1 k2
  | done h1 k1 =>
    cases h' with
    | unread h2 => exact (ok_err h1 h2).elim
    | fail h2 k2 => cases ok_inj h1 h2; cases runEach_det k1 k2
    | done h2 k2 => cases ok_inj h1 h2; cases runEach_det k1 k2; rfl

end Sureal.MainPc
