import Verif.Lemmas.Mock
import Verif.Props.Reader
import Verif.Props.Pc
import Verif.Lemmas.Convert
/-! # C51, C52, C54, C73-C75: mocked readers -/
set_option linter.unusedSectionVars false
namespace Sureal.Props
open Spec Mock
variable {κ K : Type} [LinearOrder κ]

/-! ## Selected subjects -/

/-- **C51.** A selection containing something that is not an observer index is refused. -/
theorem C51_bad_selection (d : Dataset κ K) (rd : Reader κ K) (hraw : rawReader d = .ok rd) (base : Arr3D (Fl K))
    (hbase : rd.scores = .ok base)
    (hstyle : (∀ dv ∈ d.disVideos, DictStyle dv) ∨ ∀ dv ∈ d.disVideos, SeqStyle dv)
    (sel : List Int) (x : Int) (hx : x ∈ sel) (hbad : x < 0 ∨ base.S ≤ x) :
    selectSubjectReader d (some sel) = .error .assertion := by
  have hn : numObservers d.disVideos = .ok base.S := by
    obtain ⟨hass, rfl⟩ := rawReader_inv hraw
    replace hbase : opinionScores d.disVideos = .ok base := hbase
    have w := (C01_accepts_iff_wellFormed d).mp hass
    rcases hstyle with hd | hs
    · obtain ⟨h1, h2⟩ := C04_dict_cells d hass hd
      have hs : ∀ dv ∈ d.disVideos, NdarraysSingle dv := by
        by_contra hc
        rw [h2 hc] at hbase
        cases hbase
      obtain ⟨obs, a, ho, ha, -, hS, -⟩ := h1 hs
      rw [hbase] at ha
      cases ha
      rw [numObservers_dict w.diss hd]
      rw [listObservers_dict hd] at ho
      cases ho
      rw [hS]
    · obtain ⟨h1, h2⟩ := C03_seq_cells d hass hs
      have hnd : ∀ dv ∈ d.disVideos, NdarraysSingle dv := by
        by_contra hc
        rw [h2 hc] at hbase
        cases hbase
      obtain ⟨a, ha, -, hS, -⟩ := h1 hnd
      rw [hbase] at ha
      cases ha
      cases hdv : d.disVideos with
      | nil => exact absurd hdv w.diss
      | cons d0 rest =>
        have hm : d0 ∈ d.disVideos := by simp [hdv]
        rw [numObservers_seq (hs d0 hm), hS d0 hm]
  unfold selectSubjectReader
  rw [hraw]
  dsimp only
  rw [hn]
  dsimp only
  rw [if_neg]
  rw [subjectsOk_iff]
  intro h
  have := h x hx
  omega

/-- **C51, dictionary style.** The array consists of the selected observers' columns of the base array, in the order
of the selection (repetitions allowed).

Missing: list style, where the claim is false (`C51_refuted`); see `C51_list_partial` for what holds there. -/
theorem C51_dict_partial (d : Dataset κ K) (rd : Reader κ K) (hraw : rawReader d = .ok rd) (base : Arr3D (Fl K))
    (hbase : rd.scores = .ok base) (hdict : ∀ dv ∈ d.disVideos, DictStyle dv)
    (sel : List Int) (hsel : ∀ x ∈ sel, 0 ≤ x ∧ x < base.S) :
    ∃ rd' arr, selectSubjectReader d (some sel) = .ok rd' ∧ rd'.dataset = d ∧ rd'.scores = .ok arr ∧
      arr.E = base.E ∧ arr.S = sel.length ∧ arr.R = base.R ∧
      ∀ e k r (x : Int), sel[k]? = some x → cell arr e k r = cell base e x.toNat r := by
  obtain ⟨hass, rfl⟩ := rawReader_inv hraw
  replace hbase : opinionScores d.disVideos = .ok base := hbase
  have w := (C01_accepts_iff_wellFormed d).mp hass
  obtain ⟨h1, h2⟩ := C04_dict_cells d hass hdict
  have hs : ∀ dv ∈ d.disVideos, NdarraysSingle dv := by
    by_contra hc
    rw [h2 hc] at hbase
    cases hbase
  obtain ⟨obs, a, ho, ha, -, hS, -⟩ := h1 hs
  rw [hbase] at ha
  cases ha
  rw [listObservers_dict hdict] at ho
  cases ho
  have hsel' : ∀ x ∈ sel.map Int.toNat, x < base.S := by
    intro x hx
    obtain ⟨y, hy, rfl⟩ := List.mem_map.mp hx
    have := hsel y hy
    omega
  obtain ⟨b, hb, e1, e2, e3, hc⟩ := pickCols_ok base hsel'
  refine ⟨⟨d, d.disVideos, selectedScores d.disVideos sel, listObservers d.disVideos⟩, b, ?_, rfl, ?_, e1,
    by simpa using e2, e3, ?_⟩
  · unfold selectSubjectReader
    rw [hraw]
    dsimp only
    rw [numObservers_dict w.diss hdict]
    dsimp only
    rw [if_pos]
    rw [subjectsOk_iff]
    intro x hx
    have := hsel x hx
    rw [hS] at this
    exact this
  · dsimp only
    unfold selectedScores
    rw [opinionScoresWith_dict w.diss hdict, hbase]
    exact hb
  · intro e k r x hk
    exact hc e k r x.toNat (by simp [hk])

/-- **C51, list style.** What the reader really returns: columns with an index below the number of selected subjects are
those of the base array (without repetitions nobody among them has); all others are empty.

Missing: the full claim, refuted by `C51_refuted`. -/
theorem C51_list_partial (d : Dataset κ K) (rd : Reader κ K) (hraw : rawReader d = .ok rd) (base : Arr3D (Fl K))
    (hbase : rd.scores = .ok base) (hseq : ∀ dv ∈ d.disVideos, SeqStyle dv)
    (sel : List Int) (hsel : ∀ x ∈ sel, 0 ≤ x ∧ x < base.S) :
    ∃ rd', selectSubjectReader d (some sel) = .ok rd' ∧ rd'.dataset = d ∧
      (base.S < sel.length → rd'.scores = .error .index) ∧
      (sel.length ≤ base.S → ∃ arr, rd'.scores = .ok arr ∧ arr.E = base.E ∧ arr.S = sel.length ∧ arr.R ≤ base.R ∧
        ∀ (e k : ℕ) (x : Int), sel[k]? = some x → e < base.E →
          (x < sel.length → (∀ r, r < arr.R → cell arr e k r = cell base e x.toNat r) ∧
            ∀ r, arr.R ≤ r → r < base.R → cell base e x.toNat r = some .nan) ∧
          (sel.length ≤ x → ∀ r, r < arr.R → cell arr e k r = some .nan)) := by
  obtain ⟨hass, rfl⟩ := rawReader_inv hraw
  replace hbase : opinionScores d.disVideos = .ok base := hbase
  have w := (C01_accepts_iff_wellFormed d).mp hass
  cases hd : d.disVideos with
  | nil => exact absurd hd w.diss
  | cons d0 rest =>
    rw [hd] at hseq
    rw [hd] at hbase
    have hl : ∀ dv ∈ d0 :: rest, (entries dv).length = (entries d0).length := by
      have := w.sameLen d0 (by simp [hd]) (hseq d0 (by simp))
      rwa [hd] at this
    have hs : ∀ dv ∈ d0 :: rest, NdarraysSingle dv := by
      by_contra hc
      rw [opinionScores_seq_err hseq hl hc] at hbase
      cases hbase
    rw [opinionScores_seq hseq hl hs] at hbase
    have hbase := (Except.ok.inj hbase).symm
    have hSb : base.S = (entries d0).length := by rw [hbase]; rfl
    have hEb : base.E = (d0 :: rest).length := by rw [hbase]; rfl
    have hRb : base.R = maxReps (d0 :: rest) := by rw [hbase]; rfl
    refine ⟨⟨d, d0 :: rest, selectedScores (d0 :: rest) sel, listObservers (d0 :: rest)⟩, ?_, rfl, ?_, ?_⟩
    · unfold selectSubjectReader
      rw [hraw]
      dsimp only
      rw [hd, numObservers_seq (hseq d0 (by simp))]
      dsimp only
      rw [if_pos]
      rw [subjectsOk_iff]
      intro x hx
      have := hsel x hx
      rw [hSb] at this
      exact this
    · intro hlt
      dsimp only
      unfold selectedScores
      rw [opinionScoresWith_seq_too_many (hseq d0 (by simp)) (by omega)]
    · intro hle
      dsimp only
      unfold selectedScores
      rw [opinionScoresWith_seq hseq hl hs (by omega)]
      dsimp only
      have hsel' : ∀ x ∈ sel.map Int.toNat, x < (tableArr (d0 :: rest).length (entries d0).length
          (repsOfFirst sel.length (d0 :: rest))
          ((d0 :: rest).map fun dv => ((entries dv).take sel.length).map some)).S := by
        intro x hx
        obtain ⟨y, hy, rfl⟩ := List.mem_map.mp hx
        have := hsel y hy
        show _ < (entries d0).length
        omega
      obtain ⟨b, hb, e1, e2, e3, hc⟩ := pickCols_ok _ hsel'
      have e3' : b.R = repsOfFirst sel.length (d0 :: rest) := e3
      refine ⟨b, hb, by rw [e1, hEb]; rfl, by simpa using e2, by rw [hRb, e3']; exact repsOfFirst_le _ _, ?_⟩
      intro e k x hk he
      have hx := hsel x (List.mem_of_getElem? hk)
      have hcx := fun r => hc e k r x.toNat (by simp [hk])
      have hel : e < (d0 :: rest).length := by omega
      obtain ⟨dv, hdv⟩ : ∃ dv, (d0 :: rest)[e]? = some dv := ⟨_, List.getElem?_eq_getElem hel⟩
      have hmem := List.mem_of_getElem? hdv
      have hxl : x.toNat < (entries d0).length := by omega
      obtain ⟨v, hv⟩ : ∃ v, (entries dv)[x.toNat]? = some v :=
        ⟨_, List.getElem?_eq_getElem (by rw [hl dv hmem]; exact hxl)⟩
      have hbc : ∀ r, r < base.R → cell base e x.toNat r = some (((votesOf v)[r]?).getD .nan) := by
        intro r hr
        rw [hRb] at hr
        rw [hbase, cell_table _ _ _ _ hel hxl hr]
        rw [List.getElem?_map, hdv, Option.map_some, Option.bind_some, List.getElem?_map, hv]
        rfl
      have hRle : b.R ≤ base.R := by rw [hRb, e3']; exact repsOfFirst_le _ _
      constructor
      · intro hlt
        constructor
        · intro r hr
          rw [hcx r, hbc r (by omega), cell_table _ _ _ _ hel hxl (by omega)]
          rw [List.getElem?_map, hdv, Option.map_some, Option.bind_some, List.getElem?_map,
            List.getElem?_take, if_pos (by omega), hv]
          rfl
        · intro r hr hr'
          rw [hbc r hr']
          have := le_repsOfFirst hmem hv (n := sel.length) (by omega)
          rw [List.getElem?_eq_none (by omega)]
          rfl
      · intro hge r hr
        rw [hcx r, cell_table _ _ _ _ hel hxl (by omega)]
        rw [List.getElem?_map, hdv, Option.map_some, Option.bind_some, List.getElem?_map,
          List.getElem?_take, if_neg (by omega)]
        rfl

/-- two videos, two observers, list style -/
def twoByTwo : Dataset String ℚ :=
  { refVideos := [⟨0, "r", []⟩]
    disVideos := [⟨0, 0, "a", some (.seq false [.one (.fin 1), .one (.fin 2)]), none, none, []⟩,
                  ⟨0, 1, "b", some (.seq false [.one (.fin 3), .one (.fin 4)]), none, none, []⟩]
    refScore := some (some (.fin 5)), datasetName := none, attrs := [] }

/-- **C51, refuted.** Selecting the second of two observers of a list-style dataset gives a column of NaNs instead of
the votes 2 and 4. -/
theorem C51_refuted : ∃ rd base rd' arr, rawReader twoByTwo = .ok rd ∧ rd.scores = .ok base ∧
    cell base 0 1 0 = some (.fin 2) ∧ cell base 1 1 0 = some (.fin 4) ∧
    selectSubjectReader twoByTwo (some [1]) = .ok rd' ∧ rd'.scores = .ok arr ∧
    (arr.E, arr.S, arr.R) = (2, 1, 1) ∧ cell arr 0 0 0 = some .nan ∧ cell arr 1 0 0 = some .nan := by
  obtain ⟨base, h1, hP1⟩ := okWith_elim (x := opinionScores twoByTwo.disVideos)
    (P := fun a => decide (cell a 0 1 0 = some (.fin 2) ∧ cell a 1 1 0 = some (.fin 4))) (by decide +kernel)
  obtain ⟨arr, h2, hP2⟩ := okWith_elim (x := selectedScores twoByTwo.disVideos [1])
    (P := fun a => decide ((a.E, a.S, a.R) = (2, 1, 1) ∧ cell a 0 0 0 = some .nan ∧ cell a 1 0 0 = some .nan))
    (by decide +kernel)
  obtain ⟨p1, p2⟩ := of_decide_eq_true hP1
  obtain ⟨q1, q2, q3⟩ := of_decide_eq_true hP2
  exact ⟨_, base, _, arr, rfl, h1, p1, p2, rfl, h2, q1, q2, q3⟩

/-! ## Selected videos -/

theorem rawReader_isOk {d : Dataset κ K} (h : assertRaw d = .ok ()) :
    rawReader d = .ok ⟨d, d.disVideos, opinionScores d.disVideos, listObservers d.disVideos⟩ := by
  unfold rawReader
  rw [h]


/-- `dv` is the last video of the list with asset id `a`. -/
def LastOfId (dvs : List (DisVideo κ K)) (a : Int) (dv : DisVideo κ K) : Prop :=
  ∃ i : Nat, dvs[i]? = some dv ∧ dv.assetId = a ∧ ∀ (j : Nat) (v : DisVideo κ K), i < j → dvs[j]? = some v → v.assetId ≠ a

theorem byAssetId_ok {dvs : List (DisVideo κ K)} {a : Int} {dv} :
    byAssetId dvs a = .ok dv ↔ LastOfId dvs a dv := by
  unfold byAssetId LastOfId
  induction dvs using List.reverseRecOn with
  | nil => simp
  | append_singleton l x ih =>
    by_cases hx : x.assetId = a
    · simp only [List.filter_append, List.filter_cons, hx, decide_true, if_true, List.filter_nil,
        List.getLast?_append, List.getLast?_singleton, Option.some_or]
      constructor
      · intro h
        cases h
        refine ⟨l.length, by simp, hx, ?_⟩
        intro j v hj hv
        rw [List.getElem?_append_right (by omega), List.getElem?_eq_none (by simp; omega)] at hv
        cases hv
      · rintro ⟨i, hi, ha, hl⟩
        by_cases hil : i < l.length
        · exact absurd hx (hl l.length x hil (by simp))
        · rw [List.getElem?_append_right (by omega)] at hi
          have : i - l.length = 0 := by
            by_contra hc
            rw [List.getElem?_eq_none (by simp; omega)] at hi
            cases hi
          rw [this] at hi
          cases hi
          rfl
    · simp only [List.filter_append, List.filter_cons, hx, decide_false, List.filter_nil, Bool.false_eq_true, if_false,
        List.append_nil]
      rw [ih]
      constructor
      · rintro ⟨i, hi, ha, hl⟩
        have hil := (List.getElem?_eq_some_iff.mp hi).1
        refine ⟨i, by rw [List.getElem?_append_left hil, hi], ha, ?_⟩
        intro j v hj hv
        by_cases hjl : j < l.length
        · rw [List.getElem?_append_left hjl] at hv
          exact hl j v hj hv
        · have hv' := List.mem_of_getElem? hv
          rw [List.getElem?_append_right (by omega)] at hv
          have := List.mem_of_getElem? hv
          simp only [List.mem_singleton] at this
          rw [this]
          exact hx
      · rintro ⟨i, hi, ha, hl⟩
        by_cases hil : i < l.length
        · rw [List.getElem?_append_left hil] at hi
          refine ⟨i, hi, ha, ?_⟩
          intro j v hj hv
          have hjl := (List.getElem?_eq_some_iff.mp hv).1
          exact hl j v hj (by rw [List.getElem?_append_left hjl, hv])
        · rw [List.getElem?_append_right (by omega)] at hi
          have := List.mem_of_getElem? hi
          simp only [List.mem_singleton] at this
          rw [this] at ha
          exact absurd ha hx

/-- **C73.** The selected-video reader keeps, in the order of the selection, the (last) video with each selected asset
id, and its array is that of a dataset made of these videos.  It is accepted exactly when every selected asset id exists
and is below the number of videos, and those videos form an acceptable dataset. -/
theorem C73_selected_videos (d : Dataset κ K) (sel : List Int) (rd : Reader κ K) :
    selectDisVideoReader d (some sel) = .ok rd ↔
      ∃ dvs rd0, List.Forall₂ (LastOfId d.disVideos) sel dvs ∧ rawReader { d with disVideos := dvs } = .ok rd0 ∧
        (∀ a ∈ sel, 0 ≤ a ∧ a < d.disVideos.length) ∧
        rd.dataset = d ∧ rd.disVideos = dvs ∧ rd.scores = rd0.scores ∧ rd.observers = rd0.observers := by
  have hf : ∀ dvs, mapPy (byAssetId d.disVideos) sel = .ok dvs ↔ List.Forall₂ (LastOfId d.disVideos) sel dvs := by
    intro dvs
    rw [mapPy_eq_ok_iff]
    simp only [byAssetId_ok]
  have hall : (sel.all fun x => decide (0 ≤ x) && decide (x < d.disVideos.length)) = true ↔
      ∀ a ∈ sel, 0 ≤ a ∧ a < d.disVideos.length := by
    simp [List.all_eq_true]
  unfold selectDisVideoReader
  dsimp only
  constructor
  · intro h
    split at h
    · cases h
    · rename_i dvs hm
      split at h
      · cases h
      · rename_i hass
        split at h
        · rename_i hs
          cases h
          exact ⟨dvs, _, (hf dvs).mp hm, rawReader_isOk hass, hall.mp hs, rfl, rfl, rfl, rfl⟩
        · cases h
  · rintro ⟨dvs, rd0, h1, h2, h3, h4, h5, h6, h7⟩
    obtain ⟨hass, rfl⟩ := rawReader_inv h2
    rw [(hf dvs).mpr h1]
    dsimp only
    rw [hass]
    dsimp only
    rw [if_pos (hall.mpr h3)]
    obtain ⟨a, b, c, e⟩ := rd
    dsimp only at h4 h5 h6 h7
    rw [h4, h5, h6, h7]

/-- **C73.** A selected asset id that does not exist raises KeyError, even if it is a valid position. -/
theorem C73_unknown_id (d : Dataset κ K) (sel : List Int) (a : Int) (ha : a ∈ sel)
    (hno : ∀ dv ∈ d.disVideos, dv.assetId ≠ a) : selectDisVideoReader d (some sel) = .error .key := by
  have : mapPy (byAssetId d.disVideos) sel = .error .key := by
    have herr : ∀ x e, byAssetId d.disVideos x = .error e → e = .key := by
      intro x e h
      unfold byAssetId at h
      split at h <;> cases h
      rfl
    induction sel with
    | nil => simp at ha
    | cons x l ih =>
      unfold mapPy
      cases hx : byAssetId d.disVideos x with
      | error e => rw [herr x e hx]
      | ok dv =>
        dsimp only
        have hxa : x ≠ a := by
          rintro rfl
          obtain ⟨i, hi, hid, -⟩ := byAssetId_ok.mp hx
          exact hno dv (List.mem_of_getElem? hi) hid
        rw [ih (by
          rcases List.mem_cons.mp ha with h | h
          · exact absurd h.symm hxa
          · exact h)]
  unfold selectDisVideoReader
  dsimp only
  rw [this]

/-- the selected-video reader accepts a real selection: both videos, exchanged -/
example : ∃ rd arr, selectDisVideoReader twoByTwo (some [1, 0]) = .ok rd ∧ rd.scores = .ok arr ∧
    cell arr 0 1 0 = some (.fin 4) ∧ cell arr 1 0 0 = some (.fin 1) := by
  obtain ⟨arr, h1, hP1⟩ := okWith_elim (x := opinionScores [twoByTwo.disVideos[1], twoByTwo.disVideos[0]])
    (P := fun a => decide (cell a 0 1 0 = some (.fin 4) ∧ cell a 1 0 0 = some (.fin 1))) (by decide +kernel)
  exact ⟨_, arr, rfl, h1, (of_decide_eq_true hP1).1, (of_decide_eq_true hP1).2⟩

/-! ## Export of a mocked dataset -/

/-- **C75.** A reader (mocked or not) with one repetition can be exported and read again: the exported dataset is accepted
and has the same array; everything but the scores of the videos is kept.  With more than one repetition the exported
dataset is accepted too, but its array cannot be built (ValueError). -/
theorem C75_export (rd : Reader κ K) (arr : Arr3D (Fl K)) (hs : rd.scores = .ok arr)
    (hE : arr.E = rd.disVideos.length) (hS : 0 < arr.S)
    (hwf : WellFormed { rd.dataset with disVideos := rd.disVideos }) :
    ∃ new rd', toDataset rd = .ok new ∧ rawReader new = .ok rd' ∧
      new.refVideos = rd.dataset.refVideos ∧ new.attrs = rd.dataset.attrs ∧ new.refScore = rd.dataset.refScore ∧
      new.datasetName = rd.dataset.datasetName ∧ new.disVideos.length = rd.disVideos.length ∧
      (∀ (i : Nat) (v v' : DisVideo κ K), rd.disVideos[i]? = some v → new.disVideos[i]? = some v' → { v' with os := v.os } = v) ∧
      (arr.R = 1 → ∃ arr', rd'.scores = .ok arr' ∧ arr'.E = arr.E ∧ arr'.S = arr.S ∧ arr'.R = 1 ∧
        ∀ e s r, cell arr' e s r = cell arr e s r) ∧
      (arr.R ≠ 1 → rd'.scores = .error .value) := by
  set vids := ((List.finRange arr.E).zip rd.disVideos).map fun p =>
    ({ p.2 with os := some (.seq false (List.ofFn fun s => .many .ndarray (List.ofFn fun r => arr.get p.1 s r))) } :
      DisVideo κ K) with hvids
  have hto : toDataset rd = .ok { rd.dataset with disVideos := vids } := by
    unfold toDataset
    rw [hs]
    dsimp only
    rw [if_pos hE]
  have hget : ∀ i (h : i < arr.E) v, rd.disVideos[i]? = some v → vids[i]? = some ({ v with os := some (.seq false
      (List.ofFn fun s => .many .ndarray (List.ofFn fun r => arr.get ⟨i, h⟩ s r))) } : DisVideo κ K) := by
    intro i h v hv
    rw [hvids, List.getElem?_map]
    have : ((List.finRange arr.E).zip rd.disVideos)[i]? = some (⟨i, h⟩, v) := by
      rw [List.getElem?_zip_eq_some]
      exact ⟨by simp [h], hv⟩
    rw [this]
    rfl
  have hlen : vids.length = rd.disVideos.length := by
    rw [hvids, List.length_map, List.length_zip, List.length_finRange, hE, min_self]
  have hinv : ∀ i v', vids[i]? = some v' → ∃ (h : i < arr.E) (v : _), rd.disVideos[i]? = some v ∧
      v' = { v with os := some (.seq false
        (List.ofFn fun s => .many .ndarray (List.ofFn fun r => arr.get ⟨i, h⟩ s r))) } := by
    intro i v' hv'
    have hi := (List.getElem?_eq_some_iff.mp hv').1
    have hiE : i < arr.E := by omega
    obtain ⟨v, hv⟩ : ∃ v, rd.disVideos[i]? = some v := ⟨_, List.getElem?_eq_getElem (by omega)⟩
    refine ⟨hiE, v, hv, ?_⟩
    rw [hget i hiE v hv] at hv'
    exact (Option.some.inj hv').symm
  have hseq : ∀ dv ∈ vids, SeqStyle dv := by
    intro dv hdv
    obtain ⟨i, hi⟩ := List.mem_iff_getElem?.mp hdv
    obtain ⟨h, v, -, rfl⟩ := hinv i dv hi
    exact ⟨_, _, rfl⟩
  have hentl : ∀ dv ∈ vids, (entries dv).length = arr.S := by
    intro dv hdv
    obtain ⟨i, hi⟩ := List.mem_iff_getElem?.mp hdv
    obtain ⟨h, v, -, rfl⟩ := hinv i dv hi
    simp [entries]
  have hne : vids ≠ [] := by
    intro h0
    rw [h0] at hlen
    exact hwf.diss (List.length_eq_zero_iff.mp hlen.symm)
  have hwf' : WellFormed { rd.dataset with disVideos := vids } := by
    refine ⟨hwf.refs, hne, hwf.nonneg, ?_, ?_, ?_⟩
    · intro dv hdv
      obtain ⟨i, hi⟩ := List.mem_iff_getElem?.mp hdv
      obtain ⟨h, v, hv, rfl⟩ := hinv i dv hi
      exact hwf.hasRef v (List.mem_of_getElem? hv)
    · intro dv hdv
      obtain ⟨t, l, hl⟩ := hseq dv hdv
      exact ⟨_, hl, by simp⟩
    · intro d0 h0 _ dv hdv
      rw [hentl dv hdv, hentl d0 (List.mem_of_head? h0)]
  have hass := (C01_accepts_iff_wellFormed _).mpr hwf'
  refine ⟨_, _, hto, rawReader_isOk hass, rfl, rfl, rfl, rfl, hlen, ?_, ?_, ?_⟩
  · intro i v v' hv hv'
    obtain ⟨h, v0, hv0, rfl⟩ := hinv i v' hv'
    rw [hv] at hv0
    cases hv0
    rfl
  · intro hR
    have hnd : ∀ dv ∈ vids, NdarraysSingle dv := by
      intro dv hdv xs hx
      obtain ⟨i, hi⟩ := List.mem_iff_getElem?.mp hdv
      obtain ⟨h, v, -, rfl⟩ := hinv i dv hi
      simp only [entries, List.mem_ofFn] at hx
      obtain ⟨s, hs⟩ := hx
      cases hs
      simp [hR]
    obtain ⟨a, ha, aE, aS, aR, hc⟩ := (C03_seq_cells _ hass hseq).1 hnd
    have hmr : maxReps vids = 1 := by
      have hone : ∀ x ∈ (vids.flatMap entries).map fun v => (votesOf v).length, x = 1 := by
        intro x hx
        obtain ⟨w, hw, rfl⟩ := List.mem_map.mp hx
        obtain ⟨dv, hdv, hw⟩ := List.mem_flatMap.mp hw
        obtain ⟨i, hi⟩ := List.mem_iff_getElem?.mp hdv
        obtain ⟨h, v, -, rfl⟩ := hinv i dv hi
        simp only [entries, List.mem_ofFn] at hw
        obtain ⟨s, rfl⟩ := hw
        simp [votesOf, hR]
      unfold maxReps
      generalize (vids.flatMap entries).map (fun v => (votesOf v).length) = l at hone
      induction l with
      | nil => rfl
      | cons x l ih =>
        rw [List.foldr_cons, ih fun x hx => hone x (by simp [hx]), hone x (by simp)]
        rfl
    obtain ⟨dv0, hdv0⟩ := List.exists_mem_of_ne_nil _ hne
    have aS' : a.S = arr.S := by rw [aS dv0 hdv0, hentl dv0 hdv0]
    have aE' : a.E = arr.E := by rw [aE, hE]; exact hlen
    have aR' : a.R = 1 := by rw [aR]; exact hmr
    refine ⟨a, ha, aE', aS', aR', ?_⟩
    intro e s r
    by_cases hin : e < arr.E ∧ s < arr.S ∧ r < arr.R
    · rw [cell_of_lt a (by omega) (by omega) (by omega), cell_of_lt arr hin.1 hin.2.1 hin.2.2]
      obtain ⟨v, hv⟩ : ∃ v, rd.disVideos[e]? = some v := ⟨_, List.getElem?_eq_getElem (by omega)⟩
      rw [hc _ _ _ _ (hget e hin.1 v hv)]
      congr 1
      have hr0 : r = 0 := by omega
      subst hr0
      simp only [seqVote?, entries]
      rw [List.getElem?_ofFn]
      simp only [hin.2.1, dif_pos, votesOf]
      rw [List.getElem?_ofFn]
      simp [hin.2.2]
    · rw [cell_none a (by omega), cell_none arr hin]
  · intro hR
    apply (C03_seq_cells _ hass hseq).2
    intro hnd
    obtain ⟨dv0, hdv0⟩ := List.exists_mem_of_ne_nil _ hne
    obtain ⟨i, hi⟩ := List.mem_iff_getElem?.mp hdv0
    obtain ⟨h, v, -, rfl⟩ := hinv i dv0 hi
    have := hnd _ hdv0 (List.ofFn fun r => arr.get ⟨i, h⟩ ⟨0, hS⟩ r) (by
      simp only [entries, List.mem_ofFn]
      exact ⟨⟨0, hS⟩, rfl⟩)
    simp at this
    exact hR this

/-- the hypotheses of `C75_export` are met by the selection of both subjects of `twoByTwo` -/
example : ∃ rd arr, selectSubjectReader twoByTwo (some [1, 0]) = .ok rd ∧ rd.scores = .ok arr ∧
    arr.E = rd.disVideos.length ∧ 0 < arr.S ∧ arr.R = 1 ∧ WellFormed { rd.dataset with disVideos := rd.disVideos } := by
  obtain ⟨arr, h2, hP2⟩ := okWith_elim (x := selectedScores twoByTwo.disVideos [1, 0])
    (P := fun a => decide (a.E = 2 ∧ 0 < a.S ∧ a.R = 1)) (by decide +kernel)
  obtain ⟨p1, p2, p3⟩ := of_decide_eq_true hP2
  refine ⟨_, arr, rfl, h2, p1, p2, p3, ?_⟩
  rw [← C01_accepts_iff_wellFormed]
  rfl

end Sureal.Props
