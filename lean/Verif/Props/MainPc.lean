import Verif.Lemmas.MainPc
import Verif.Props.PcCi
/-! # C139: the program with models for paired comparisons -/
set_option linter.unusedSectionVars false
namespace Sureal.Props
open Sureal Spec Spec.BT Format PcReader

section
variable {L : MainPc.Lib ℝ} {path : List Char} {readPy : Py (Dataset (String × Int) ℝ)} {readJson : Py (Dataset String ℝ)}

theorem findSome_same {α β : Type} {l : List (String × α)} {T : String} {F : α → Option β} {x : Option β} (hx : ∀ a, (T, a) ∈ l → F a = x)
    (hm : ∃ a, (T, a) ∈ l) : (l.findSome? fun p => if T = p.1 then F p.2 else none) = x := by
  induction l with
  | nil => obtain ⟨_, h⟩ := hm; cases h
  | cons p l ih =>
    rw [List.findSome?_cons]
    obtain ⟨t, a⟩ := p
    dsimp only
    by_cases ht : T = t
    · subst ht
      rw [if_pos rfl, hx a List.mem_cons_self]
      cases x with
      | some y => rfl
      | none =>
        dsimp only
        rw [List.findSome?_eq_none_iff]
        intro q hq
        split_ifs with hT
        · exact hx q.2 (List.mem_cons_of_mem _ (by rw [hT]; exact hq))
        · rfl
    · rw [if_neg ht]
      refine ih (fun b hb => hx b (List.mem_cons_of_mem _ hb)) ?_
      obtain ⟨b, hb⟩ := hm
      rcases List.mem_cons.mp hb with e | hb
      · cases e; exact absurd rfl ht
      · exact ⟨b, hb⟩

/-- a result of a model is formatted exactly if its standard deviations are a list -/
theorem resOf_sized (rd : PcRd String ℝ) (o : MainPc.PcOut ℝ) (refs : List (ℤ × Option String)) (h : WellSized refs (MainPc.resOf rd o)) : o.std ≠ .none := by
  intro hn
  obtain ⟨⟨q, names, -, -, -, hl, -⟩, -, -⟩ := h
  have hd : (MainPc.resOf rd o).data "quality_scores_std" = some o.std := rfl
  rcases hl "quality_scores_std" (by simp) _ hd with ⟨l, e, -⟩ | ⟨l, e, -⟩ <;> rw [hn] at e <;> cases e

theorem resOf_observers (rd : PcRd String ℝ) (o : MainPc.PcOut ℝ) : (MainPc.resOf rd o).data "observer_bias" = none := rfl

theorem resOf_contents (rd : PcRd String ℝ) (o : MainPc.PcOut ℝ) : (MainPc.resOf rd o).data "content_ambiguity" = none := rfl

/-- everything known of a run that ends with an output -/
theorem done_inv {models : List String} (hm : ∀ t ∈ models, t ∈ pairedModels) (hne : models ≠ []) {out : Output String (Fl ℝ)}
    (h : MainPc.Main L path readPy readJson models (.ok out)) :
    ∃ (rd : PcRd String ℝ) (arr : Arr3D (Fl ℝ)) (os : List (MainPc.PcOut ℝ)), MainPc.read path readPy readJson = .ok rd ∧ rd.scores = .ok arr ∧
      List.Forall₂ (fun t o => MainPc.RunOn L arr (MainPc.classOf t) (.ok o)) models os ∧
      format MainPc.observerName (MainPc.refsOf rd.dataset) models (os.map (MainPc.resOf rd)) = .ok out := by
  rw [MainPc.main_iff hm hne] at h
  generalize hr : (Except.ok out : Py (Output String (Fl ℝ))) = r at h
  cases h with
  | unread _ => cases hr
  | fail _ _ => cases hr
  | @done rd os h1 h2 =>
    rw [MainPc.types hm] at hr
    have h3 := MainPc.runEach_ok h2
    rw [List.forall₂_map_left_iff] at h3
    obtain ⟨arr, ha⟩ : ∃ arr, rd.scores = .ok arr := by
      cases models with
      | nil => exact absurd rfl hne
      | cons t l => cases h3 with | cons h _ => exact ⟨_, h.choose_spec.1⟩
    refine ⟨rd, arr, os, h1, ha, h3.imp fun t o ⟨a, h4, h5⟩ => ?_, by rw [MainPc.types hm]⟩
    rw [ha] at h4
    cases h4
    exact h5

/-- the numbers of a result as the output holds them -/
theorem reported_of {models : List String} {rd : PcRd String ℝ} {arr : Arr3D (Fl ℝ)} {os : List (MainPc.PcOut ℝ)} {out : Output String (Fl ℝ)}
    (hf : List.Forall₂ (fun t o => MainPc.RunOn L arr (MainPc.classOf t) (.ok o)) models os)
    (h : format MainPc.observerName (MainPc.refsOf rd.dataset) models (os.map (MainPc.resOf rd)) = .ok out) {T : String} (hT : T ∈ models)
    {n : ℕ} {v std : Fin n → Fl ℝ} (hr : MainPc.RunOn L arr (MainPc.classOf T) (.ok ⟨List.ofFn v, .seq (List.ofFn std), some (MainPc.ciOf std)⟩)) :
    Reported out T v std := by
  have hall : ∀ r, (T, r) ∈ (models.zip (os.map (MainPc.resOf rd))).reverse →
      r = MainPc.resOf rd ⟨List.ofFn v, .seq (List.ofFn std), some (MainPc.ciOf std)⟩ := by
    intro r hm
    rw [List.mem_reverse, List.zip_map_right, List.mem_map] at hm
    obtain ⟨⟨t, o⟩, hto, e⟩ := hm
    obtain ⟨e1, rfl⟩ := Prod.mk.inj e
    have e1 : t = T := e1
    rw [e1] at hto
    have : MainPc.RunOn L arr (MainPc.classOf T) (.ok o) := by
      rw [List.forall₂_iff_zip] at hf
      exact hf.2 hto
    have := MainPc.runOn_det this hr
    rw [Except.ok.inj this]
  have hex : ∃ r, (T, r) ∈ (models.zip (os.map (MainPc.resOf rd))).reverse := by
    obtain ⟨k, hk, rfl⟩ := List.getElem_of_mem hT
    have hk' : k < (os.map (MainPc.resOf rd)).length := by rw [List.length_map, ← hf.length_eq]; exact hk
    refine ⟨(os.map (MainPc.resOf rd))[k], ?_⟩
    rw [List.mem_reverse, List.mem_iff_getElem]
    exact ⟨k, by rw [List.length_zip]; omega, List.getElem_zip⟩
  intro i
  have key : ∀ k, numberIn out.disVideos i T k = videoNumber (MainPc.resOf rd ⟨List.ofFn v, .seq (List.ofFn std), some (MainPc.ciOf std)⟩) i k := by
    intro k
    rw [(C69_written _ _ _ _ out h i T k).1]
    exact findSome_same (F := fun r => videoNumber r i k) (fun r hr => by rw [hall r hr]) hex
  refine ⟨?_, ?_, ?_⟩
  · rw [key]
    show ((List.ofFn v)[i.val]?).map Cell.one = _
    rw [List.getElem?_ofFn, dif_pos i.isLt]; rfl
  · rw [key]
    show ((List.ofFn std)[i.val]?).map Cell.one = _
    rw [List.getElem?_ofFn, dif_pos i.isLt]; rfl
  · rw [key]
    show intervalAt (MainPc.ciOf std) i.val = _
    unfold intervalAt MainPc.ciOf
    dsimp only
    rw [List.getElem?_ofFn, dif_pos i.isLt]
    have : (ci95Factor : Fl ℝ) = .fin (195996 / 100000) := by
      unfold ci95Factor Fl.dec
      norm_num
    rw [← this]

/-- what is read from a JSON file has no record -/
theorem jsonReader_empty {d : Dataset String ℝ} {rd : PcRd String ℝ} (h : MainPc.jsonReader d = .ok rd) :
    (∀ dv ∈ d.disVideos, dv.os = some (.dict [])) ∧ rd.dataset.disVideos.map (·.path) = d.disVideos.map (·.path) := by
  unfold MainPc.jsonReader at h
  split at h
  · cases h
  · split at h
    · cases h
    · rename_i vs hvs
      cases h
      rw [mapPy_eq_ok_iff] at hvs
      dsimp only
      generalize d.disVideos.length = n at hvs
      generalize d.disVideos = ds at hvs ⊢
      clear * - hvs
      induction hvs with
      | nil => exact ⟨by simp, rfl⟩
      | @cons dv v l l' h _ ih =>
        have : dv.os = some (.dict []) ∧ v.path = dv.path := by
          unfold MainPc.jsonVideo at h
          split at h
          · rename_i he
            split_ifs at h
            rw [← Except.ok.inj h]
            exact ⟨he, rfl⟩
          · cases h
          · cases h
        refine ⟨fun w hw => ?_, by rw [List.map_cons, List.map_cons, this.2, ih.2]⟩
        rcases List.mem_cons.mp hw with rfl | hw
        · exact this.1
        · exact ih.1 w hw

/-- **C139, in part.** If the program ends with an output for models for paired comparisons, then the dataset was read, the output holds one entry per
video with its path and nothing else, and under every model named on the command line (as often as it may be named) the scores, standard deviations and
intervals the model computes from the table of points.  The dataset is then a Python file, or a JSON file without any record, and the Newton-Raphson model
is not among the models.

Missing: the full claim, that the program does so for every dataset and every model, is refuted by `C139_refuted_newton` and `C139_refuted_json`. -/
theorem C139_any_partial {models : List String} (hm : ∀ t ∈ models, t ∈ pairedModels) (hne : models ≠ []) {out : Output String (Fl ℝ)}
    (h : MainPc.Main L path readPy readJson models (.ok out)) :
    ∃ (rd : PcRd String ℝ) (arr : Arr3D (Fl ℝ)),
      (((∃ l, path = l ++ ".py".toList) ∧ ∃ d, readPy = .ok d ∧ pcReader d = .ok rd) ∨
        (∃ l, path = l ++ ".json".toList) ∧ ∃ d, readJson = .ok d ∧ (∀ dv ∈ d.disVideos, dv.os = some (.dict [])) ∧
          rd.dataset.disVideos.map (·.path) = d.disVideos.map (·.path)) ∧
      rd.scores = .ok arr ∧
      (out.disVideos.getD []).length = rd.dataset.disVideos.length ∧
      (∀ (i : ℕ) dv, rd.dataset.disVideos[i]? = some dv → nameIn out.disVideos i = some dv.path) ∧
      out.observers.getD [] = [] ∧ out.contents.getD [] = [] ∧ (∀ T k, statIn out T k = none) ∧
      "BT_NR" ∉ models ∧
      ("BT_MLE" ∈ models → ∃ r : Bt.MleResult ℝ rd.dataset.disVideos.length,
        Bt.Resolve L.npPinv none (mat fun i j => winsIn arr i j) (.ok r) ∧ Reported out "BT_MLE" r.v r.stdV) ∧
      ("THURSTONE_MLE" ∈ models → ∃ r : Bt.ThResult ℝ rd.dataset.disVideos.length,
        Bt.thResolve L.cdf L.pdf L.minimize L.npPinv none (mat fun i j => winsIn arr i j) = .ok r ∧ Reported out "THURSTONE_MLE" r.v r.std) := by
  obtain ⟨rd, arr, os, hrd, ha, hf, hfmt⟩ := done_inv hm hne h
  have hread := MainPc.read_inv hrd
  obtain ⟨hw, -⟩ := MainPc.winMatrix_wins hrd ha
  have hnames := C69_names MainPc.observerName (MainPc.refsOf rd.dataset) models _ out hfmt
  obtain ⟨hlen, hsz, -⟩ := (C69_errors _ _ _ _).mp ⟨out, hfmt⟩
  have hos : os ≠ [] := by
    intro e
    rw [e] at hf
    cases hf
    exact hne rfl
  obtain ⟨o0, ho0⟩ := List.exists_mem_of_ne_nil _ hos
  have hrun : ∀ T ∈ models, ∃ o ∈ os, MainPc.RunOn L arr (MainPc.classOf T) (.ok o) := by
    intro T hT
    obtain ⟨k, hk, rfl⟩ := List.getElem_of_mem hT
    have hk' : k < os.length := by rw [← hf.length_eq]; exact hk
    exact ⟨os[k], List.getElem_mem hk', hf.get hk hk'⟩
  refine ⟨rd, arr, ?_, ha, ?_, ?_, ?_, ?_, ?_, ?_, ?_, ?_⟩
  · rcases hread.2.2 with h1 | ⟨h1, d, h2, h3⟩
    · exact Or.inl h1
    · exact Or.inr ⟨h1, d, h2, jsonReader_empty h3⟩
  · apply le_antisymm
    · by_contra hlt
      push Not at hlt
      obtain ⟨r, hr, hlt⟩ := ((hnames rd.dataset.disVideos.length).2.2.2.1).mp hlt
      obtain ⟨o, -, rfl⟩ := List.mem_map.mp hr
      have : videoNames (MainPc.resOf rd o) = rd.dataset.disVideos.map (·.path) := rfl
      rw [this, List.length_map] at hlt
      exact lt_irrefl _ hlt
    · by_contra hlt
      push Not at hlt
      refine lt_irrefl _ (((hnames _).2.2.2.1).mpr ⟨MainPc.resOf rd o0, List.mem_map_of_mem ho0, ?_⟩)
      have : videoNames (MainPc.resOf rd o0) = rd.dataset.disVideos.map (·.path) := rfl
      rw [this, List.length_map]
      exact hlt
  · intro i dv hdv
    rw [(hnames i).1]
    refine ⟨MainPc.resOf rd o0, List.mem_map_of_mem ho0, ?_⟩
    have : videoNames (MainPc.resOf rd o0) = rd.dataset.disVideos.map (·.path) := rfl
    rw [this, List.getElem?_map, hdv]
    rfl
  · rw [← List.length_eq_zero_iff]
    by_contra h0
    obtain ⟨r, hr, hlt⟩ := ((hnames 0).2.2.2.2.1).mp (Nat.pos_of_ne_zero h0)
    obtain ⟨o, -, rfl⟩ := List.mem_map.mp hr
    unfold observerNames at hlt
    rw [resOf_observers] at hlt
    cases hlt
  · rw [← List.length_eq_zero_iff]
    by_contra h0
    obtain ⟨r, hr, hlt⟩ := ((hnames 0).2.2.2.2.2).mp (Nat.pos_of_ne_zero h0)
    obtain ⟨o, -, rfl⟩ := List.mem_map.mp hr
    unfold contentNames at hlt
    rw [resOf_contents] at hlt
    cases hlt
  · intro T k
    rw [(C69_written _ _ _ _ out hfmt 0 T k).2.2.2, List.findSome?_eq_none_iff]
    intro p hp
    split_ifs with hT
    · rw [List.mem_reverse] at hp
      obtain ⟨o, -, e⟩ := List.mem_map.mp (List.of_mem_zip hp).2
      rw [← e]
      unfold statNumber
      split_ifs with hk
      · rcases hk with rfl | rfl <;> rfl
      · rfl
    · rfl
  · intro hnr
    obtain ⟨o, ho, hr⟩ := hrun _ hnr
    have hcl : MainPc.classOf "BT_NR" = .BradleyTerryNewtonRaphsonPairedCompSubjectiveModel := by decide
    rw [hcl] at hr
    generalize hc : (Except.ok o : Py (MainPc.PcOut ℝ)) = c at hr
    cases hr with
    | notSquare _ => cases hc
    | nrEmpty _ _ => cases hc
    | nr _ _ =>
      cases hc
      exact resOf_sized rd _ _ (hsz _ (List.mem_map_of_mem ho)) rfl
    | nrFail _ _ => cases hc
  · intro hT
    obtain ⟨o, -, hr⟩ := hrun _ hT
    have hcl : MainPc.classOf "BT_MLE" = .BradleyTerryMlePairedCompSubjectiveModel := by decide
    have hr' := hr
    rw [hcl] at hr
    generalize hc : (Except.ok o : Py (MainPc.PcOut ℝ)) = c at hr
    cases hr with
    | notSquare _ => cases hc
    | mleFail _ _ => cases hc
    | mle hw' hres =>
      rw [hw] at hw'
      cases hw'
      cases hc
      exact ⟨_, hres, reported_of hf hfmt hT hr'⟩
  · intro hT
    obtain ⟨o, -, hr⟩ := hrun _ hT
    have hcl : MainPc.classOf "THURSTONE_MLE" = .ThurstoneMlePairedCompSubjectiveModel := by decide
    have hr' := hr
    rw [hcl] at hr
    generalize hc : (Except.ok o : Py (MainPc.PcOut ℝ)) = c at hr
    cases hr with
    | notSquare _ => cases hc
    | thFail _ _ => cases hc
    | th hw' hres =>
      rw [hw] at hw'
      cases hw'
      cases hc
      exact ⟨_, hres, reported_of hf hfmt hT hr'⟩

/-- **C139.** The program has at most one outcome. -/
theorem C139_deterministic {models : List String} (hm : ∀ t ∈ models, t ∈ pairedModels) (hne : models ≠ []) {r r' : Py (Output String (Fl ℝ))}
    (h : MainPc.Main L path readPy readJson models r) (h' : MainPc.Main L path readPy readJson models r') : r = r' :=
  MainPc.program_det ((MainPc.main_iff hm hne).mp h) ((MainPc.main_iff hm hne).mp h')

/-- the subjects of a dataset are the observers of the reader -/
theorem subjects_obs {d : Dataset (String × Int) ℝ} (hdict : ∀ dv ∈ d.disVideos, ∃ l, dv.os = some (.dict l)) :
    subjectsOf d = (obsOf d.disVideos).toFinset := by
  unfold subjectsOf obsOf dictsOf
  ext s
  rw [List.mem_toFinset, List.mem_toFinset, mem_uniqueSorted, List.mem_flatMap, List.mem_flatMap]
  constructor
  · rintro ⟨dv, hdv, hm⟩
    refine ⟨_, List.mem_map_of_mem hdv, ?_⟩
    obtain ⟨l, hl⟩ := hdict dv hdv
    rw [hl] at hm ⊢
    exact hm
  · rintro ⟨l, hl, hm⟩
    obtain ⟨dv, hdv, rfl⟩ := List.mem_map.mp hl
    refine ⟨dv, hdv, ?_⟩
    obtain ⟨l, hl⟩ := hdict dv hdv
    rw [hl] at hm ⊢
    exact hm

/-- **C139.** The table of points is what the records say: between two videos, every subject adds the points they gave the first against the second;
a video that has no record about itself has no points against itself. -/
theorem C139_wins {d : Dataset (String × Int) ℝ} {rd : PcRd String ℝ} (h : pcReader d = .ok rd) {arr : Arr3D (Fl ℝ)} (hs : rd.scores = .ok arr)
    (hstyle : ∀ dv ∈ d.disVideos, DictStyle dv) (hids : IdsArePositions d.disVideos) (href : RecordsRefer d.disVideos) {i j : ℕ}
    (hi : i < d.disVideos.length) (hj : j < d.disVideos.length) :
    (i ≠ j → winsIn arr i j = ∑ s ∈ subjectsOf d, pointsOf d i j s) ∧
    ((∀ s, recordOf d i s i = none) → winsIn arr i i = 0) := by
  obtain ⟨hdict, hl, hob, h1, h2, h3, hc⟩ := pc_inv h hs
  obtain ⟨obs, hobs, hR, -, -, hcell⟩ := C50_positions_partial d rd h arr hs hstyle hids href
  obtain ⟨-, -, hcomp⟩ := C49_complementary d rd h arr hs
  have hobs' : obs = obsOf d.disVideos := by
    rw [hob] at hobs
    exact (Except.ok.inj hobs).symm
  have hi' := List.getElem?_eq_getElem hi
  have hj' := List.getElem?_eq_getElem hj
  have hri : ∀ s b, recordOf d i s b = entryOf d.disVideos[i] (s, b) := fun s b => by unfold recordOf; rw [hi']; rfl
  have hrj : ∀ s b, recordOf d j s b = entryOf d.disVideos[j] (s, b) := fun s b => by unfold recordOf; rw [hj']; rfl
  have hai : d.disVideos[i].assetId = (i : ℤ) := hids i _ hi'
  have haj : d.disVideos[j].assetId = (j : ℤ) := hids j _ hj'
  have hsub : subjectsOf d = obs.toFinset := by rw [hobs', subjects_obs hdict]
  constructor
  · intro hij
    have hlegal : ∀ (k : ℕ) dv, d.disVideos[k]? = some dv → ∀ s b v, entryOf dv (s, b) = some v → ∃ q : ℝ, v = .one (.fin q) := by
      intro k dv hk s b v hv
      obtain ⟨l, hd, hn⟩ := hstyle dv (List.mem_of_getElem? hk)
      obtain ⟨⟨q, -, e⟩, -⟩ := hl dv (List.mem_of_getElem? hk) l hd s b v ((entryOf_iff hd hn).mp hv)
      exact ⟨q, e⟩
    have hpt : ∀ (k : ℕ) (s : String), obs[k]? = some s → (match cell arr i j k with | some (.fin q) => q | _ => 0) = pointsOf d i j s := by
      intro k s hk
      have hk' : k < arr.R := by rw [hR]; exact (List.getElem?_eq_some_iff.mp hk).1
      have c1 := hcell i j k _ _ s hij hi' hj' hk
      have c2 := hcell j i k _ _ s (Ne.symm hij) hj' hi' hk
      rw [hai, haj] at c1
      rw [hai, haj] at c2
      have hflip : ∀ q : ℝ, cell arr j i k = some (.fin q) → cell arr i j k = some (.fin (1 - q)) := by
        intro q hq
        rcases (hcomp i j k (by omega) (by omega) hk').1 hij with ⟨-, e⟩ | ⟨x, y, -, -, e, e1, e2⟩
        · rw [hq] at e; cases e
        · rw [hq] at e2
          cases e2
          rw [e1, show x = 1 - q by linarith]
      unfold pointsOf
      rw [hri, hrj]
      rcases Option.eq_none_or_eq_some (entryOf d.disVideos[i] (s, (j : ℤ))) with e1 | ⟨v, e1⟩
      · rcases Option.eq_none_or_eq_some (entryOf d.disVideos[j] (s, (i : ℤ))) with e2 | ⟨w, e2⟩
        · rw [c1.1 e1 e2, e1, e2]
        · obtain ⟨q, rfl⟩ := hlegal j _ hj' s _ w e2
          rw [hflip q (c2.2 q e2 (Or.inl e1)), e1, e2]
      · obtain ⟨q, rfl⟩ := hlegal i _ hi' s _ v e1
        rcases Option.eq_none_or_eq_some (entryOf d.disVideos[j] (s, (i : ℤ))) with e2 | ⟨w, e2⟩
        · rw [c1.2 q e1 (Or.inl e2), e1, e2]
        · obtain ⟨q', rfl⟩ := hlegal j _ hj' s _ w e2
          rw [e1, e2]
          dsimp only
          split_ifs with hlt
          · rw [c1.2 q e1 (Or.inr (Or.inr hlt))]
          · rw [hflip q' (c2.2 q' e2 (Or.inr (Or.inr (by omega))))]
    have hmap : obs.map (pointsOf d i j) = List.ofFn fun k : Fin obs.length => pointsOf d i j obs[k] := by
      refine List.ext_getElem (by simp) fun k h1 h2 => by simp
    rw [hsub, List.sum_toFinset (pointsOf d i j) (by rw [hobs']; exact obs_nodup _), hmap, List.sum_ofFn]
    unfold winsIn
    rw [hR, Finset.sum_range]
    exact Finset.sum_congr rfl fun k _ => hpt k.val _ (List.getElem?_eq_getElem k.isLt)
  · intro hno
    unfold winsIn
    refine Finset.sum_eq_zero fun k hk => ?_
    rw [Finset.mem_range] at hk
    have hk' : k < (obsOf d.disVideos).length := by rw [← h3]; exact hk
    rw [hc i i k (by omega) (by omega) hk, cellAfter_none]
    intro w hw hwc
    rcases write_source hstyle hids href (List.getElem?_eq_getElem hk') (l := []) rfl hw hwc with ⟨-, dv, v, hdv, hv, -⟩ | ⟨-, dv, v, hdv, hv, -⟩
    · rw [hi'] at hdv; cases hdv; rw [← hri, hno] at hv; cases hv
    · rw [hi'] at hdv; cases hdv; rw [← hri, hno] at hv; cases hv

theorem read_py {d : Dataset (String × Int) ℝ} (hpath : ∃ l, path = l ++ ".py".toList) (hd : readPy = .ok d) :
    MainPc.read path readPy readJson = pcReader d := by
  obtain ⟨l, rfl⟩ := hpath
  have h : ['.', 'p', 'y'].isSuffixOf (l ++ ".py".toList) = true := List.isSuffixOf_iff_suffix.mpr ⟨l, rfl⟩
  unfold MainPc.read
  rw [if_pos h, hd]

/-- a result whose lists have an entry per video is formatted -/
theorem resOf_wellSized (rd : PcRd String ℝ) (refs : List (ℤ × Option String)) {v std : Fin rd.dataset.disVideos.length → Fl ℝ} :
    WellSized refs (MainPc.resOf rd ⟨List.ofFn v, .seq (List.ofFn std), some (MainPc.ciOf std)⟩) := by
  refine ⟨⟨.seq (List.ofFn v), rd.dataset.disVideos.map (·.path), rfl, rfl, Or.inl ⟨_, rfl, by simp⟩, ?_, ?_⟩, ?_, ?_⟩
  · intro k hk x hx
    rw [List.mem_singleton] at hk
    subst hk
    cases hx
    exact Or.inl ⟨_, rfl, by simp⟩
  · intro k hk x hx
    rw [List.mem_singleton] at hk
    subst hk
    cases hx
    exact ⟨_, _, rfl, by simp⟩
  · intro b hb
    rw [resOf_observers] at hb
    cases hb
  · intro b hb
    rw [resOf_contents] at hb
    cases hb

/-- **C139.** The program ends with an output if the dataset is read, its records are legal and every model named (`BT_MLE`, `THURSTONE_MLE`) has a result
for the table of points. -/
theorem C139_succeeds {models : List String} (hm : ∀ t ∈ models, t = "BT_MLE" ∨ t = "THURSTONE_MLE") (hne : models ≠ [])
    {d : Dataset (String × Int) ℝ} {rd : PcRd String ℝ} {arr : Arr3D (Fl ℝ)} (hpath : ∃ l, path = l ++ ".py".toList) (hd : readPy = .ok d)
    (hrd : pcReader d = .ok rd) (ha : rd.scores = .ok arr)
    (h1 : "BT_MLE" ∈ models → ∃ r : Bt.MleResult ℝ rd.dataset.disVideos.length, Bt.Resolve L.npPinv none (mat fun i j => winsIn arr i j) (.ok r))
    (h2 : "THURSTONE_MLE" ∈ models → ∃ r : Bt.ThResult ℝ rd.dataset.disVideos.length,
      Bt.thResolve L.cdf L.pdf L.minimize L.npPinv none (mat fun i j => winsIn arr i j) = .ok r) :
    ∃ out, MainPc.Main L path readPy readJson models (.ok out) := by
  have hm' : ∀ t ∈ models, t ∈ pairedModels := by
    intro t ht
    rcases hm t ht with rfl | rfl <;> simp [pairedModels]
  have hread : MainPc.read path readPy readJson = .ok rd := by rw [read_py hpath hd, hrd]
  obtain ⟨hw, -⟩ := MainPc.winMatrix_wins hread ha
  have hex : ∀ t ∈ models, ∃ v std : Fin rd.dataset.disVideos.length → Fl ℝ,
      MainPc.RunOn L arr (MainPc.classOf t) (.ok ⟨List.ofFn v, .seq (List.ofFn std), some (MainPc.ciOf std)⟩) := by
    intro t ht
    rcases hm t ht with rfl | rfl
    · obtain ⟨r, hr⟩ := h1 ht
      exact ⟨r.v, r.stdV, .mle hw hr⟩
    · obtain ⟨r, hr⟩ := h2 ht
      exact ⟨r.v, r.std, .th hw hr⟩
  obtain ⟨os, hos, hform⟩ : ∃ os : List (MainPc.PcOut ℝ),
      List.Forall₂ (fun c o => ∃ a, rd.scores = .ok a ∧ MainPc.RunOn L a c (.ok o)) (models.map MainPc.classOf) os ∧
      ∀ o ∈ os, ∃ v std : Fin rd.dataset.disVideos.length → Fl ℝ, o = ⟨List.ofFn v, .seq (List.ofFn std), some (MainPc.ciOf std)⟩ := by
    clear hm hne hm' h1 h2
    induction models with
    | nil => exact ⟨[], .nil, by simp⟩
    | cons t l ih =>
      obtain ⟨os, h1, h2⟩ := ih fun t ht => hex t (List.mem_cons_of_mem _ ht)
      obtain ⟨v, std, hr⟩ := hex t List.mem_cons_self
      refine ⟨_ :: os, .cons ⟨arr, ha, hr⟩ h1, ?_⟩
      intro o ho
      rcases List.mem_cons.mp ho with rfl | ho
      · exact ⟨v, std, rfl⟩
      · exact h2 o ho
  obtain ⟨out, hout⟩ := (C69_errors MainPc.observerName (MainPc.refsOf rd.dataset) models (os.map (MainPc.resOf rd))).mpr (by
    refine ⟨?_, ?_, ?_, ?_, ?_⟩
    · rw [List.length_map, ← hos.length_eq, List.length_map]
    · intro r hr
      obtain ⟨o, ho, rfl⟩ := List.mem_map.mp hr
      obtain ⟨v, std, rfl⟩ := hform o ho
      exact resOf_wellSized rd _
    · intro l hl l' hl' i n n' hn hn'
      rw [List.map_map] at hl hl'
      obtain ⟨o, -, rfl⟩ := List.mem_map.mp hl
      obtain ⟨o', -, rfl⟩ := List.mem_map.mp hl'
      exact Option.some.inj (hn.symm.trans hn')
    · intro l hl l' hl' i n n' hn hn'
      rw [List.map_map] at hl
      obtain ⟨o, -, rfl⟩ := List.mem_map.mp hl
      have : observerNames MainPc.observerName (MainPc.resOf rd o) = [] := rfl
      rw [Function.comp_apply, this] at hn
      cases hn
    · intro l hl l' hl' i n n' hn hn'
      rw [List.map_map] at hl
      obtain ⟨o, -, rfl⟩ := List.mem_map.mp hl
      have : contentNames (MainPc.refsOf rd.dataset) (MainPc.resOf rd o) = [] := rfl
      rw [Function.comp_apply, this] at hn
      cases hn)
  refine ⟨out, (MainPc.main_iff hm' hne).mpr ?_⟩
  have := MainPc.Program.done (L := L) (path := path) (readPy := readPy) (readJson := readJson) hread (MainPc.runEach_of hos)
  rw [MainPc.types hm', hout] at this
  exact this

theorem pointsOf_nonneg {d : Dataset (String × Int) ℝ} (hstyle : ∀ dv ∈ d.disVideos, DictStyle dv) (hl : RecordsLegal d.disVideos) (i j : ℕ) (s : String) :
    0 ≤ pointsOf d i j s := by
  have hleg : ∀ (k : ℕ) b (q : ℝ), recordOf d k s b = some (.one (.fin q)) → 0 ≤ q ∧ q ≤ 1 := by
    intro k b q hq
    unfold recordOf at hq
    obtain ⟨dv, hdv, hq⟩ := Option.bind_eq_some_iff.mp hq
    obtain ⟨l, hd, hn⟩ := hstyle dv (List.mem_of_getElem? hdv)
    obtain ⟨⟨q', hq', e⟩, -⟩ := hl dv (List.mem_of_getElem? hdv) l hd s b _ ((entryOf_iff hd hn).mp hq)
    cases e
    rcases hq' with rfl | rfl | rfl <;> norm_num
  unfold pointsOf
  split
  · rename_i e1 e2
    split_ifs
    · exact (hleg _ _ _ e1).1
    · linarith [(hleg _ _ _ e2).2]
  · rename_i e1 _
    exact (hleg _ _ _ e1).1
  · rename_i e1 e2
    linarith [(hleg _ _ _ e2).2]
  · exact le_refl _

/-- **C139.** With the Bradley-Terry model the program ends with an output for every tidy dataset in which every video is given at least one point by
someone against another video. -/
theorem C139_bradley_terry (hp : ∀ k m, ∃ c, L.npPinv k m = .ok c) {d : Dataset (String × Int) ℝ} (hpath : ∃ l, path = l ++ ".py".toList) (hd : readPy = .ok d)
    (hraw : assertRaw d = .ok ()) (hstyle : ∀ dv ∈ d.disVideos, DictStyle dv) (hids : IdsArePositions d.disVideos) (href : RecordsRefer d.disVideos)
    (hleg : RecordsLegal d.disVideos) (h0 : d.disVideos ≠ [])
    (hpt : ∀ i < d.disVideos.length, ∃ j < d.disVideos.length, i ≠ j ∧ ∃ s ∈ subjectsOf d, 0 < pointsOf d i j s) :
    ∃ out, MainPc.Main L path readPy readJson ["BT_MLE"] (.ok out) := by
  have hdict : ∀ dv ∈ d.disVideos, ∃ l, dv.os = some (.dict l) := fun dv h => (hstyle dv h).imp fun _ h => h.1
  have hass : assertPc d = .ok () := by
    refine assertPc_ok.mpr ⟨hraw, fun dv hdv => ⟨hdict dv hdv, ?_⟩⟩
    obtain ⟨k, hk⟩ := List.mem_iff_getElem?.mp hdv
    rw [hids k dv hk]
    exact ⟨Int.natCast_nonneg k, by exact_mod_cast (List.getElem?_eq_some_iff.mp hk).1⟩
  have hrd := pcReader_ok.mpr ⟨hass, rfl⟩
  obtain ⟨arr, ha⟩ : ∃ arr, pcScores d.disVideos = .ok arr := ⟨_, (pcScores_ok hdict _).mpr ⟨hleg, rfl⟩⟩
  refine C139_succeeds (by simp) (by simp) hpath hd hrd ha (fun _ => ?_) (by simp)
  have hread : MainPc.read path readPy readJson = .ok ⟨d, pcScores d.disVideos, pcObservers d.disVideos⟩ := by
    rw [read_py hpath hd, hrd]
  obtain ⟨-, hnn⟩ := MainPc.winMatrix_wins hread ha
  refine C76_result ⟨hnn, fun i => ?_⟩ (by simpa using h0) (by simp) hp
  obtain ⟨j, hj, hij, s, hs, hpos⟩ := hpt i.val i.isLt
  refine Finset.sum_pos' (fun k _ => hnn i k) ⟨⟨j, hj⟩, Finset.mem_univ _, ?_⟩
  show 0 < winsIn arr i.val j
  rw [(C139_wins hrd ha hstyle hids href i.isLt hj).1 hij]
  exact Finset.sum_pos' (fun t _ => pointsOf_nonneg hstyle hleg _ _ _) ⟨s, hs, hpos⟩

/-! ### what fails -/

/-- **C139.** With the Newton-Raphson model among the models the program never ends with an output. -/
theorem C139_newton_fails {models : List String} (hm : ∀ t ∈ models, t ∈ pairedModels) (hnr : "BT_NR" ∈ models) {r : Py (Output String (Fl ℝ))}
    (h : MainPc.Main L path readPy readJson models r) : ∃ e, r = .error e := by
  cases r with
  | error e => exact ⟨e, rfl⟩
  | ok out =>
    obtain ⟨_, _, -, -, -, -, -, -, -, h, -⟩ := C139_any_partial hm (List.ne_nil_of_mem hnr) h
    exact absurd hnr h

/-- **C139.** Even if the model has scores, the program fails: its standard deviations are `None`, and their number is asked for. -/
theorem C139_newton_type {d : Dataset (String × Int) ℝ} {rd : PcRd String ℝ} {arr : Arr3D (Fl ℝ)} (hpath : ∃ l, path = l ++ ".py".toList)
    (hd : readPy = .ok d) (hrd : pcReader d = .ok rd) (ha : rd.scores = .ok arr) {n : ℕ} (hn : d.disVideos.length = n + 1)
    {g : Fin (n + 1) → Fl ℝ} (hg : Bt.NrRun L.scPinv none (mat fun i j : Fin (n + 1) => winsIn arr i j) (.ok g)) :
    MainPc.Main L path readPy readJson ["BT_NR"] (.error .type) := by
  have hread : MainPc.read path readPy readJson = .ok rd := by rw [read_py hpath hd, hrd]
  obtain ⟨hw, -⟩ := MainPc.winMatrix_wins hread ha
  obtain ⟨-, rfl⟩ := pcReader_ok.mp hrd
  dsimp only at hw
  have hw' : Bt.winMatrix arr = .ok ⟨n + 1, mat fun i j : Fin (n + 1) => winsIn arr i j⟩ := by
    rw [hw]
    clear hw hg
    generalize d.disVideos.length = m at hn
    subst hn
    rfl
  have hm : ∀ t ∈ ["BT_NR"], t ∈ pairedModels := by simp [pairedModels]
  refine (MainPc.main_iff hm (by simp)).mpr ?_
  have hcl : ["BT_NR"].map MainPc.classOf = [.BradleyTerryNewtonRaphsonPairedCompSubjectiveModel] := by decide
  rw [hcl]
  have hdone := MainPc.Program.done (L := L) (path := path) (readPy := readPy) (readJson := readJson) hread
    (MainPc.runEach_of (.cons ⟨arr, ha, .nr hw' hg⟩ .nil))
  have hlen : (List.ofFn g).length = (d.disVideos.map (·.path)).length := by rw [List.length_ofFn, List.length_map, hn]
  generalize List.ofFn g = l at hdone hlen
  have : format MainPc.observerName (MainPc.refsOf d) ([.BradleyTerryNewtonRaphsonPairedCompSubjectiveModel].map fun c => (ModelClass.hierarchy.type c).getD "")
      ([⟨l, .none, none⟩].map (MainPc.resOf ⟨d, pcScores d.disVideos, pcObservers d.disVideos⟩)) = .error .type := by
    have hv : validateVideos (MainPc.resOf ⟨d, pcScores d.disVideos, pcObservers d.disVideos⟩ ⟨l, .none, none⟩) = .error .type := by
      unfold validateVideos
      show (if (d.disVideos.map (·.path)).length = l.length then (Except.error PyErr.type : Py Unit) else _) = _
      rw [if_pos hlen.symm]
    unfold format
    rw [if_pos (by simp)]
    unfold List.map mapPy validate
    rw [hv]
  rw [this] at hdone
  exact hdone

/-- **C139.** A JSON file with at least one record always fails, whatever the models: its keys are strings. If the dataset is in order otherwise, the error
is AssertionError or IndexError. -/
theorem C139_json {models : List String} (hm : ∀ t ∈ models, t ∈ pairedModels) (hne : models ≠ []) {d : Dataset String ℝ}
    (hpath : ∃ l, path = l ++ ".json".toList) (hd : readJson = .ok d) {dv : DisVideo String ℝ} (hdv : dv ∈ d.disVideos) {p : String × Vote ℝ} {l : List (String × Vote ℝ)}
    (hp : dv.os = some (.dict (p :: l))) :
    ∃ e, MainPc.Main L path readPy readJson models (.error e) ∧ (∀ r, MainPc.Main L path readPy readJson models r → r = .error e) ∧
      (assertRaw d = .ok () → e = .assertion ∨ e = .index) := by
  have hread : MainPc.read path readPy readJson = MainPc.jsonReader d := by
    obtain ⟨l, rfl⟩ := hpath
    have h2 : ['.', 'j', 's', 'o', 'n'].isSuffixOf (l ++ ".json".toList) = true := List.isSuffixOf_iff_suffix.mpr ⟨l, rfl⟩
    unfold MainPc.read
    rw [if_neg, if_pos h2, hd]
    intro h
    obtain ⟨l', h⟩ := List.isSuffixOf_iff_suffix.mp h
    have := congrArg List.getLast? h
    rw [show ".json".toList = ['.', 'j', 's', 'o'] ++ ['n'] from rfl, show ['.', 'p', 'y'] = ['.', 'p'] ++ ['y'] from rfl, ← List.append_assoc, ← List.append_assoc,
      List.getLast?_concat, List.getLast?_concat] at this
    cases this
  have herr : ∃ e, MainPc.jsonReader d = .error e ∧ (assertRaw d = .ok () → e = .assertion ∨ e = .index) := by
    cases hj : MainPc.jsonReader d with
    | ok rd =>
      have := (jsonReader_empty hj).1 dv hdv
      rw [hp] at this
      cases this
    | error e =>
      refine ⟨e, rfl, fun hraw => ?_⟩
      unfold MainPc.jsonReader at hj
      rw [hraw] at hj
      dsimp only at hj
      split at hj
      · rename_i e' he
        cases hj
        have hv : ∀ n (v : DisVideo String ℝ) e, MainPc.jsonVideo n v = .error e → e = .assertion ∨ e = .index := by
          intro n v e h
          unfold MainPc.jsonVideo at h
          split at h
          · split_ifs at h
            cases h
            exact Or.inl rfl
          · cases h
            unfold MainPc.stringKey
            split_ifs <;> simp
          · cases h
            exact Or.inl rfl
        clear * - he hv
        generalize d.disVideos.length = n at he
        generalize d.disVideos = ds at he
        induction ds with
        | nil => cases he
        | cons v ds ih =>
          unfold mapPy at he
          cases h1 : MainPc.jsonVideo n v with
          | error e'' =>
            rw [h1] at he
            cases he
            exact hv _ _ _ h1
          | ok w =>
            rw [h1] at he
            dsimp only at he
            cases h2 : mapPy (MainPc.jsonVideo n) ds with
            | error e'' =>
              rw [h2] at he
              cases he
              exact ih h2
            | ok ws => rw [h2] at he; cases he
      · cases hj
  obtain ⟨e, he, hk⟩ := herr
  rw [← hread] at he
  have hmain := (MainPc.main_iff (L := L) hm hne).mpr (.unread he)
  exact ⟨e, hmain, fun r hr => C139_deterministic hm hne hr hmain, hk⟩

end

section json
variable {L : MainPc.Lib ℝ} {path : List Char} {readPy : Py (Dataset (String × Int) ℝ)} {readJson : Py (Dataset String ℝ)}

theorem read_json {d : Dataset String ℝ} (hpath : ∃ l, path = l ++ ".json".toList) (hd : readJson = .ok d) :
    MainPc.read path readPy readJson = MainPc.jsonReader d := by
  obtain ⟨l, rfl⟩ := hpath
  have h2 : ['.', 'j', 's', 'o', 'n'].isSuffixOf (l ++ ".json".toList) = true := List.isSuffixOf_iff_suffix.mpr ⟨l, rfl⟩
  unfold MainPc.read
  rw [if_neg, if_pos h2, hd]
  intro h
  obtain ⟨l', h⟩ := List.isSuffixOf_iff_suffix.mp h
  have := congrArg List.getLast? h
  rw [show ".json".toList = ['.', 'j', 's', 'o'] ++ ['n'] from rfl, show ['.', 'p', 'y'] = ['.', 'p'] ++ ['y'] from rfl, ← List.append_assoc, ← List.append_assoc,
    List.getLast?_concat, List.getLast?_concat] at this
  cases this

/-- **C139.** Which error it is, if the first video has a record: IndexError if the first key has fewer than two characters, else AssertionError. -/
theorem C139_json_error {models : List String} (hm : ∀ t ∈ models, t ∈ pairedModels) (hne : models ≠ []) {d : Dataset String ℝ}
    (hpath : ∃ l, path = l ++ ".json".toList) (hd : readJson = .ok d) (hraw : assertRaw d = .ok ()) {dv : DisVideo String ℝ} {dvs : List (DisVideo String ℝ)}
    (hdv : d.disVideos = dv :: dvs) {k : String} {v : Vote ℝ} {l : List (String × Vote ℝ)} (hp : dv.os = some (.dict ((k, v) :: l)))
    {r : Py (Output String (Fl ℝ))} (hr : MainPc.Main L path readPy readJson models r) :
    (k.length < 2 → r = .error .index) ∧ (2 ≤ k.length → r = .error .assertion) := by
  have he : MainPc.read path readPy readJson = .error (MainPc.stringKey k) := by
    rw [read_json hpath hd]
    unfold MainPc.jsonReader
    rw [hraw, hdv]
    unfold mapPy MainPc.jsonVideo
    rw [hp]
  have hmain := (MainPc.main_iff (L := L) hm hne).mpr (.unread he)
  have := C139_deterministic hm hne hr hmain
  unfold MainPc.stringKey at this
  rw [String.length_toList] at this
  constructor
  · intro h
    rwa [if_pos h] at this
  · intro h
    rwa [if_neg (by omega)] at this

/-- **C139.** A JSON file without any record is refused with AssertionError if the identifier of a video is not one of 0, 1, ... below their number. -/
theorem C139_json_ids {models : List String} (hm : ∀ t ∈ models, t ∈ pairedModels) (hne : models ≠ []) {d : Dataset String ℝ}
    (hpath : ∃ l, path = l ++ ".json".toList) (hd : readJson = .ok d) (hraw : assertRaw d = .ok ()) (hnone : ∀ dv ∈ d.disVideos, dv.os = some (.dict []))
    (hid : ∃ dv ∈ d.disVideos, dv.assetId < 0 ∨ d.disVideos.length ≤ dv.assetId)
    {r : Py (Output String (Fl ℝ))} (hr : MainPc.Main L path readPy readJson models r) : r = .error .assertion := by
  have he : MainPc.read path readPy readJson = .error .assertion := by
    rw [read_json hpath hd]
    unfold MainPc.jsonReader
    rw [hraw]
    dsimp only
    have : mapPy (MainPc.jsonVideo d.disVideos.length) d.disVideos = .error .assertion := by
      generalize d.disVideos.length = n at hid
      generalize d.disVideos = ds at hid hnone
      induction ds with
      | nil => obtain ⟨dv, h, -⟩ := hid; cases h
      | cons w ds ih =>
        unfold mapPy
        have hw : MainPc.jsonVideo n w = if 0 ≤ w.assetId ∧ w.assetId < n then
            .ok ⟨w.contentId, w.assetId, w.path, some (.dict []), w.groundtruth, w.groundtruthStd, w.extra⟩ else .error .assertion := by
          unfold MainPc.jsonVideo
          rw [hnone w List.mem_cons_self]
        rw [hw]
        by_cases hc : 0 ≤ w.assetId ∧ w.assetId < n
        · rw [if_pos hc]
          dsimp only
          rw [ih ?_ (fun dv h => hnone dv (List.mem_cons_of_mem _ h))]
          obtain ⟨dv, h, hb⟩ := hid
          rcases List.mem_cons.mp h with rfl | h
          · omega
          · exact ⟨dv, h, hb⟩
        · rw [if_neg hc]
    rw [this]
  exact C139_deterministic hm hne hr ((MainPc.main_iff (L := L) hm hne).mpr (.unread he))

end json

/-! ### Examples -/

def evenVideo (i : Int) (p : String) (l : List ((String × Int) × Vote ℝ)) : DisVideo (String × Int) ℝ := ⟨7, i, p, some (.dict l), none, none, []⟩

/-- two videos; Ann prefers the first, Bob the second -/
def evenSet : Dataset (String × Int) ℝ where
  refVideos := [⟨7, "ref", []⟩]
  disVideos := [evenVideo 0 "a" [(("Ann", 1), .one (.fin 1))], evenVideo 1 "b" [(("Bob", 0), .one (.fin 1))]]
  refScore := none
  datasetName := none
  attrs := []

theorem evenSet_mem {dv : DisVideo (String × Int) ℝ} (h : dv ∈ evenSet.disVideos) :
    dv = evenVideo 0 "a" [(("Ann", 1), .one (.fin 1))] ∨ dv = evenVideo 1 "b" [(("Bob", 0), .one (.fin 1))] := by
  simpa [evenSet] using h

theorem evenSet_raw : assertRaw evenSet = .ok () := rfl

theorem evenSet_style : ∀ dv ∈ evenSet.disVideos, DictStyle dv := by
  intro dv h
  rcases evenSet_mem h with rfl | rfl <;> exact ⟨_, rfl, by simp⟩

theorem evenSet_ids : IdsArePositions evenSet.disVideos := by
  intro i dv hi
  match i, hi with
  | 0, hi => cases hi; rfl
  | 1, hi => cases hi; rfl

theorem evenSet_refer : RecordsRefer evenSet.disVideos := by
  intro dv h l hl s b v hm
  rcases evenSet_mem h with rfl | rfl
  · cases hl
    simp only [List.mem_singleton, Prod.mk.injEq] at hm
    exact ⟨evenVideo 1 "b" [(("Bob", 0), .one (.fin 1))], by simp [evenSet], hm.1.2.symm⟩
  · cases hl
    simp only [List.mem_singleton, Prod.mk.injEq] at hm
    exact ⟨evenVideo 0 "a" [(("Ann", 1), .one (.fin 1))], by simp [evenSet], hm.1.2.symm⟩

theorem evenSet_legal : RecordsLegal evenSet.disVideos := by
  intro dv h l hl s b v hm
  rcases evenSet_mem h with rfl | rfl
  · cases hl
    simp only [List.mem_singleton, Prod.mk.injEq] at hm
    obtain ⟨⟨-, rfl⟩, rfl⟩ := hm
    exact ⟨⟨1, Or.inr (Or.inr rfl), rfl⟩, by simp [evenSet], by simp [evenSet]⟩
  · cases hl
    simp only [List.mem_singleton, Prod.mk.injEq] at hm
    obtain ⟨⟨-, rfl⟩, rfl⟩ := hm
    exact ⟨⟨1, Or.inr (Or.inr rfl), rfl⟩, by simp [evenSet], by simp [evenSet]⟩

theorem evenSet_subjects : subjectsOf evenSet = {"Ann", "Bob"} := rfl

theorem evenSet_points : pointsOf evenSet 0 1 "Ann" = 1 ∧ pointsOf evenSet 0 1 "Bob" = 0 ∧ pointsOf evenSet 1 0 "Ann" = 0 ∧ pointsOf evenSet 1 0 "Bob" = 1 := by
  have r1 : recordOf evenSet 0 "Ann" 1 = some (.one (.fin 1)) := rfl
  have r2 : recordOf evenSet 1 "Ann" 0 = none := rfl
  have r3 : recordOf evenSet 0 "Bob" 1 = none := rfl
  have r4 : recordOf evenSet 1 "Bob" 0 = some (.one (.fin 1)) := rfl
  unfold pointsOf
  simp only [Nat.cast_zero, Nat.cast_one, r1, r2, r3, r4]
  norm_num

/-- the hypotheses of `C139_bradley_terry` are met -/
example {L : MainPc.Lib ℝ} (hp : ∀ k m, ∃ c, L.npPinv k m = .ok c) {readJson} :
    ∃ out, MainPc.Main L "x.py".toList (.ok evenSet) readJson ["BT_MLE"] (.ok out) := by
  obtain ⟨p1, p2, p3, p4⟩ := evenSet_points
  refine C139_bradley_terry hp ⟨['x'], rfl⟩ rfl evenSet_raw evenSet_style evenSet_ids evenSet_refer evenSet_legal (by simp [evenSet]) ?_
  intro i hi
  have : i = 0 ∨ i = 1 := by
    have : i < 2 := hi
    omega
  rcases this with rfl | rfl
  · exact ⟨1, by simp [evenSet], by norm_num, "Ann", by rw [evenSet_subjects]; simp, by rw [p1]; norm_num⟩
  · exact ⟨0, by simp [evenSet], by norm_num, "Bob", by rw [evenSet_subjects]; simp, by rw [p4]; norm_num⟩

theorem evenSet_wins {rd : PcRd String ℝ} (h : pcReader evenSet = .ok rd) {arr : Arr3D (Fl ℝ)} (hs : rd.scores = .ok arr) :
    (fun i j : Fin 2 => winsIn arr i j) = ![![0, 1], ![1, 0]] := by
  obtain ⟨p1, p2, p3, p4⟩ := evenSet_points
  have w := fun i j hi hj => C139_wins h hs evenSet_style evenSet_ids evenSet_refer (i := i) (j := j) hi hj
  have e01 := (w 0 1 (by simp [evenSet]) (by simp [evenSet])).1 (by norm_num)
  have e10 := (w 1 0 (by simp [evenSet]) (by simp [evenSet])).1 (by norm_num)
  have e00 := (w 0 1 (by simp [evenSet]) (by simp [evenSet])).2 (fun s => by
    unfold recordOf entryOf
    simp only [evenSet, evenVideo, List.lookup_cons, List.getElem?_cons_zero, List.getElem?_cons_succ, Option.bind_some, List.lookup_nil]
    split
    · rename_i h
      exact absurd (Prod.mk.inj (eq_of_beq h)).2 (by norm_num)
    · rfl)
  have e11 := (w 1 0 (by simp [evenSet]) (by simp [evenSet])).2 (fun s => by
    unfold recordOf entryOf
    simp only [evenSet, evenVideo, List.lookup_cons, List.getElem?_cons_zero, List.getElem?_cons_succ, Option.bind_some, List.lookup_nil]
    split
    · rename_i h
      exact absurd (Prod.mk.inj (eq_of_beq h)).2 (by norm_num)
    · rfl)
  rw [evenSet_subjects, Finset.sum_pair (by decide), p1, p2] at e01
  rw [evenSet_subjects, Finset.sum_pair (by decide), p3, p4] at e10
  funext i j
  fin_cases i <;> fin_cases j
  · exact e00
  · exact e01.trans (by norm_num)
  · exact e10.trans (by norm_num)
  · exact e11

/-- the Newton-Raphson model finds scores for this dataset at once -/
theorem evenSet_newton {pinv} (hp : InverseWhereExists pinv) :
    ∃ g : Fin 2 → Fl ℝ, Bt.NrRun pinv none (mat (![![0, 1], ![1, 0]] : Fin 2 → Fin 2 → ℝ)) (.ok g) := by
  set A : Fin 2 → Fin 2 → ℝ := ![![0, 1], ![1, 0]] with hA
  have hnn : ∀ i j, 0 ≤ A i j := by intro i j; fin_cases i <;> fin_cases j <;> simp [hA]
  have hD : ∀ i, A i i = 0 := by intro i; fin_cases i <;> simp [hA]
  have hc : Connected A := by
    intro i j
    by_cases hij : i = j
    · rw [hij]
    · refine .single ?_
      unfold games
      fin_cases i <;> fin_cases j <;> simp [hA] at hij ⊢
  have hg : ∀ i : Fin 1, Bt.grad (mat A) (vec fun _ : Fin 2 => (0 : ℝ)) i = 0 := by
    intro i
    rw [Bt.grad_fl hnn]
    have : Sureal.BtMath.gradG A i.castSucc (fun _ => 0) = 0 := by
      fin_cases i
      unfold Sureal.BtMath.gradG
      simp [Fin.sum_univ_two, hA, wins, games]
    show Fl.fin _ = _
    rw [this]; rfl
  have hch := (C59_fixed_iff (γ := fun _ : Fin 2 => (0 : ℝ)) hp hnn hD hc).mpr hg
  refine ⟨_, .done (.stop hch (Bt.norm_vec (M := 2) fun _ => 0) ?_)⟩
  rw [Bt.thr_fl]
  simp only [ne_eq, OfNat.ofNat_ne_zero, not_false_eq_true, zero_pow, Finset.sum_const_zero, Real.sqrt_zero]
  exact decide_eq_false (by norm_num)

/-- **C139, refuted.** The program should report the scores of every model for paired comparisons.  For two videos, two subjects and opposite votes the
Newton-Raphson model finds scores at once, the other two models report theirs, and the program with the Newton-Raphson model fails with TypeError. -/
theorem C139_refuted_newton {L : MainPc.Lib ℝ} (hp : InverseWhereExists L.scPinv) {readJson} :
    MainPc.Main L "x.py".toList (.ok evenSet) readJson ["BT_NR"] (.error .type) ∧
    ∃ (rd : PcRd String ℝ) (arr : Arr3D (Fl ℝ)) (g : Fin 2 → Fl ℝ), pcReader evenSet = .ok rd ∧ rd.scores = .ok arr ∧
      Bt.NrRun L.scPinv none (mat fun i j : Fin 2 => winsIn arr i j) (.ok g) := by
  have hdict : ∀ dv ∈ evenSet.disVideos, ∃ l, dv.os = some (.dict l) := fun dv h => (evenSet_style dv h).imp fun _ h => h.1
  have hass : assertPc evenSet = .ok () := by
    refine assertPc_ok.mpr ⟨evenSet_raw, fun dv hdv => ⟨hdict dv hdv, ?_⟩⟩
    rcases evenSet_mem hdv with rfl | rfl <;> exact ⟨by simp [evenVideo], by simp [evenVideo, evenSet]⟩
  have hrd := pcReader_ok.mpr ⟨hass, rfl⟩
  obtain ⟨arr, ha⟩ : ∃ arr, pcScores evenSet.disVideos = .ok arr := ⟨_, (pcScores_ok hdict _).mpr ⟨evenSet_legal, rfl⟩⟩
  obtain ⟨g, hg⟩ := evenSet_newton hp
  rw [← evenSet_wins hrd ha] at hg
  exact ⟨C139_newton_type ⟨['x'], rfl⟩ rfl hrd ha rfl hg, _, arr, g, hrd, ha, hg⟩

/-- the same two videos in a JSON file, where a key is a string -/
def evenJson : Dataset String ℝ where
  refVideos := [⟨7, "ref", []⟩]
  disVideos := [⟨7, 0, "a", some (.dict [("Ann,1", .one (.fin 1))]), none, none, []⟩, ⟨7, 1, "b", some (.dict [("Bob,0", .one (.fin 1))]), none, none, []⟩]
  refScore := none
  datasetName := none
  attrs := []

/-- **C139, refuted.** A dataset of paired comparisons in a JSON file is not read. -/
theorem C139_refuted_json {L : MainPc.Lib ℝ} {readPy} {models : List String} (hm : ∀ t ∈ models, t ∈ pairedModels) (hne : models ≠ []) :
    MainPc.Main L "x.json".toList readPy (.ok evenJson) models (.error .assertion) ∧
    ∀ r, MainPc.Main L "x.json".toList readPy (.ok evenJson) models r → r = .error .assertion := by
  have hread : MainPc.read "x.json".toList readPy (.ok evenJson) = .error .assertion := rfl
  have := (MainPc.main_iff (L := L) hm hne).mpr (.unread hread)
  exact ⟨this, fun r hr => C139_deterministic hm hne hr this⟩

/-- the hypotheses of `C139_json` are met -/
example : ∃ dv ∈ evenJson.disVideos, ∃ p l, dv.os = some (.dict (p :: l)) := ⟨_, List.mem_cons_self, _, _, rfl⟩

/-- a video without records, and with an identifier that is its number plus one -/
def idJson : Dataset String ℝ := { evenJson with disVideos := [⟨7, 1, "a", some (.dict []), none, none, []⟩] }

/-- the hypotheses of `C139_json_error` and `C139_json_ids` are met -/
example {L : MainPc.Lib ℝ} {readPy} : MainPc.Main L "x.json".toList readPy (.ok evenJson) ["BT_MLE"] (.error .assertion) ∧
    MainPc.Main L "x.json".toList readPy (.ok idJson) ["BT_MLE"] (.error .assertion) ∧ assertRaw evenJson = .ok () ∧
    assertRaw idJson = .ok () ∧ (∀ dv ∈ idJson.disVideos, dv.os = some (.dict [])) ∧
    ∃ dv ∈ idJson.disVideos, dv.assetId < 0 ∨ idJson.disVideos.length ≤ dv.assetId := by
  have hm : ∀ t ∈ ["BT_MLE"], t ∈ pairedModels := by simp [pairedModels]
  refine ⟨(MainPc.main_iff hm (by simp)).mpr (.unread rfl), (MainPc.main_iff hm (by simp)).mpr (.unread rfl), rfl, rfl, ?_, _, List.mem_cons_self, Or.inr (by decide)⟩
  intro dv h
  rw [List.mem_singleton.mp h]

end Sureal.Props
