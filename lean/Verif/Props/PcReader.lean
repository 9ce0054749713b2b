import Verif.Lemmas.PcReader
import Verif.Props.Pc
import Verif.Props.Options
/-! # C49, C50: the paired-comparison array -/
set_option linter.unusedSectionVars false
namespace Sureal.Props
open Spec PcReader Pc
variable {κ K : Type} [LinearOrder κ] [Field K] [LinearOrder K] [IsStrictOrderedRing K]

theorem cellAfter_mem {ws : List ((ℕ × ℕ × ℕ) × Fl K)} {c} :
    cellAfter ws c = .nan ∨ ∃ w ∈ ws, w.1 = c ∧ cellAfter ws c = w.2 := by
  unfold cellAfter
  cases h : (ws.filter fun w => decide (w.1 = c)).getLast? with
  | none => exact .inl rfl
  | some w =>
    right
    have hm := List.mem_of_getLast? h
    rw [List.mem_filter] at hm
    exact ⟨w, hm.1, of_decide_eq_true hm.2, rfl⟩

/-- what is known of an accepted reader whose array exists -/
theorem pc_inv {d : Dataset (κ × Int) K} {rd : PcRd κ K} (h : pcReader d = .ok rd) {arr} (hs : rd.scores = .ok arr) :
    (∀ dv ∈ d.disVideos, ∃ l, dv.os = some (.dict l)) ∧ RecordsLegal d.disVideos ∧
    rd.observers = .ok (obsOf d.disVideos) ∧ arr.E = d.disVideos.length ∧ arr.S = d.disVideos.length ∧
    arr.R = (obsOf d.disVideos).length ∧ ∀ i j s, i < arr.E → j < arr.S → s < arr.R → cell arr i j s =
      some (cellAfter (allWrites d.disVideos.length (obsOf d.disVideos) 0 (dictsOf d.disVideos)) (i, j, s)) := by
  obtain ⟨ha, rfl⟩ := pcReader_ok.mp h
  obtain ⟨-, hd⟩ := assertPc_ok.mp ha
  have hdict := fun dv hdv => (hd dv hdv).1
  obtain ⟨hl, rfl⟩ := (pcScores_ok hdict arr).mp hs
  refine ⟨hdict, hl, pcObservers_ok hdict, rfl, rfl, rfl, ?_⟩
  intro i j s hi hj hs
  unfold cell
  rw [dif_pos ⟨hi, hj, hs⟩]

/-- **C49.** In the array of a paired-comparison dataset, for two different videos and any observer: either both
cells are NaN, or both are present, legal and sum to 1.  Cells comparing a video with itself are NaN or legal. -/
theorem C49_complementary (d : Dataset (κ × Int) K) (rd : PcRd κ K) (h : pcReader d = .ok rd) (arr : Arr3D (Fl K))
    (hs : rd.scores = .ok arr) : arr.E = d.disVideos.length ∧ arr.S = d.disVideos.length ∧
    ∀ i j s, i < arr.E → j < arr.E → s < arr.R →
      (i ≠ j → (cell arr i j s = some .nan ∧ cell arr j i s = some .nan) ∨
        ∃ q q' : K, Outcome3 q ∧ Outcome3 q' ∧ q + q' = 1 ∧
          cell arr i j s = some (.fin q) ∧ cell arr j i s = some (.fin q')) ∧
      (cell arr i i s = some .nan ∨ ∃ q : K, Outcome3 q ∧ cell arr i i s = some (.fin q)) := by
  obtain ⟨hdict, hl, -, h1, h2, h3, hc⟩ := pc_inv h hs
  refine ⟨h1, h2, ?_⟩
  intro i j s hi hj hk
  rw [hc i j s hi (by omega) hk, hc j i s hj (by omega) hk, hc i i s hi (by omega) hk]
  have hrec : ∀ w ∈ (dictsOf d.disVideos).zipIdx.flatMap (fun p => p.1.map fun e =>
      recP d.disVideos.length (obsOf d.disVideos) p.2 e),
      ∃ i j s q, Outcome3 q ∧ w = [((i, j, s), .fin q), ((j, i, s), .fin (1 - q))] := by
    intro w hw
    obtain ⟨⟨l, m⟩, hp, hw⟩ := List.mem_flatMap.mp hw
    obtain ⟨⟨⟨t, b⟩, v⟩, he, rfl⟩ := List.mem_map.mp hw
    obtain ⟨dv, hdv, hd⟩ := get_dictsOf hdict (List.mem_zipIdx_iff_getElem?.mp hp)
    obtain ⟨⟨q, hq, rfl⟩, -⟩ := hl dv (List.mem_of_getElem? hdv) l hd t b v he
    exact ⟨m, pidx d.disVideos.length b, (obsOf d.disVideos).idxOf t, q, hq, rfl⟩
  have hfl : allWrites d.disVideos.length (obsOf d.disVideos) 0 (dictsOf d.disVideos) =
      ((dictsOf d.disVideos).zipIdx.flatMap (fun p => p.1.map fun e =>
        recP d.disVideos.length (obsOf d.disVideos) p.2 e)).flatten := by
    unfold allWrites
    rw [← List.flatMap_id, List.flatMap_assoc]
    congr 1
    funext p
    rw [List.flatMap_map]
    rfl
  rw [hfl]
  constructor
  · intro hij
    rcases complement hrec i j s hij with ⟨e1, e2⟩ | ⟨q, hq, e1, e2⟩
    · left; rw [e1, e2]; exact ⟨rfl, rfl⟩
    · right; exact ⟨q, 1 - q, hq, PcReader.Outcome3.compl hq, by ring, by rw [e1], by rw [e2]⟩
  · rcases cellAfter_mem (ws := ((dictsOf d.disVideos).zipIdx.flatMap (fun p => p.1.map fun e =>
        recP d.disVideos.length (obsOf d.disVideos) p.2 e)).flatten) (c := (i, i, s)) with e | ⟨w, hw, -, e⟩
    · left; rw [e]
    · right
      obtain ⟨l, hl, hw⟩ := List.mem_flatten.mp hw
      obtain ⟨_, _, _, q, hq, rfl⟩ := hrec l hl
      simp only [List.mem_cons, List.not_mem_nil, or_false] at hw
      rcases hw with rfl | rfl
      · exact ⟨q, hq, by rw [e]⟩
      · exact ⟨1 - q, PcReader.Outcome3.compl hq, by rw [e]⟩

/-- **C49.** The array of an accepted dataset exists exactly when every recorded value is one of the three legal
numbers (and refers to an existing row); a wrong value raises an assertion error. -/
theorem C49_illegal_raises (d : Dataset (κ × Int) K) (rd : PcRd κ K) (h : pcReader d = .ok rd) :
    ((∃ arr, rd.scores = .ok arr) ↔ RecordsLegal d.disVideos) ∧
    ((∀ dv ∈ d.disVideos, ∀ l, dv.os = some (.dict l) → ∀ s b v, ((s, b), v) ∈ l →
        (∀ xs, v ≠ .many .ndarray xs) ∧ -(d.disVideos.length : Int) ≤ b ∧ b < d.disVideos.length) →
      ¬ RecordsLegal d.disVideos → rd.scores = .error .assertion) := by
  obtain ⟨ha, rfl⟩ := pcReader_ok.mp h
  obtain ⟨-, hd⟩ := assertPc_ok.mp ha
  have hdict := fun dv hdv => (hd dv hdv).1
  have hiff : (∃ arr, pcScores d.disVideos = .ok arr) ↔ RecordsLegal d.disVideos := by
    constructor
    · rintro ⟨arr, hs⟩
      exact ((pcScores_ok hdict arr).mp hs).1
    · intro hl
      exact ⟨_, (pcScores_ok hdict _).mpr ⟨hl, rfl⟩⟩
  refine ⟨hiff, ?_⟩
  intro hb hn
  dsimp only
  cases hs : pcScores d.disVideos with
  | ok arr => exact absurd (hiff.mp ⟨arr, hs⟩) hn
  | error e =>
    unfold pcScores at hs
    rw [pcObservers_ok hdict, mapPy_pcDict hdict] at hs
    dsimp only at hs
    split at hs
    · rename_i e' he
      cases hs
      obtain ⟨⟨m, ⟨⟨s, b⟩, v⟩⟩, hx, he⟩ := mapPy_errors he
      obtain ⟨⟨l, m'⟩, hp, hx⟩ := List.mem_flatMap.mp hx
      obtain ⟨⟨⟨s', b'⟩, v'⟩, hm, hx⟩ := List.mem_map.mp hx
      cases hx
      obtain ⟨dv, hdv, hdd⟩ := get_dictsOf hdict (List.mem_zipIdx_iff_getElem?.mp hp)
      obtain ⟨h1, h2, h3⟩ := hb dv (List.mem_of_getElem? hdv) l hdd s b v hm
      unfold record at he
      dsimp only at he
      cases v with
      | many k xs =>
        cases k with
        | list => cases he; rfl
        | tuple => cases he; rfl
        | ndarray => exact absurd rfl (h1 xs)
      | one x =>
        dsimp only at he
        split at he
        · rw [pyIdx_ok.mpr ⟨⟨h2, h3⟩, rfl⟩] at he
          cases he
        · cases he; rfl
    · cases hs

theorem entryOf_iff {α : Type} [DecidableEq α] {dv : DisVideo α K} {l} (hd : dv.os = some (.dict l))
    (hn : (l.map Prod.fst).Nodup) {k v} : entryOf dv k = some v ↔ (k, v) ∈ l := by
  unfold entryOf
  rw [hd]
  exact lookup_eq_some_iff hn

/-- every assignment to a cell off the diagonal comes from one of the two videos -/
theorem write_source {d : Dataset (κ × Int) K} (hstyle : ∀ dv ∈ d.disVideos, DictStyle dv)
    (hids : IdsArePositions d.disVideos) (href : RecordsRefer d.disVideos) {i j k : ℕ} {s : κ}
    (hobs : (obsOf d.disVideos)[k]? = some s) {l r : List (List ((κ × Int) × Vote K))}
    (hlr : dictsOf d.disVideos = l ++ r) {w}
    (hw : w ∈ allWrites d.disVideos.length (obsOf d.disVideos) l.length r) (hc : w.1 = (i, j, k)) :
    (l.length ≤ i ∧ ∃ dv v, d.disVideos[i]? = some dv ∧ entryOf dv (s, (j : Int)) = some v ∧ w.2 = val v) ∨
    (l.length ≤ j ∧ ∃ dv v, d.disVideos[j]? = some dv ∧ entryOf dv (s, (i : Int)) = some v ∧ w.2 = 1 - val v) := by
  have hdict : ∀ dv ∈ d.disVideos, ∃ l, dv.os = some (.dict l) := fun dv hdv => (hstyle dv hdv).imp fun _ h => h.1
  obtain ⟨m, l', ⟨⟨t, b⟩, v⟩, hl', he, hw⟩ := mem_allWrites.mp hw
  have hget : (dictsOf d.disVideos)[l.length + m]? = some l' := by
    rw [hlr, List.getElem?_append_right (by omega)]
    simpa using hl'
  obtain ⟨dv, hdv, hd⟩ := get_dictsOf hdict hget
  obtain ⟨l'', hd', hn⟩ := hstyle dv (List.mem_of_getElem? hdv)
  rw [hd] at hd'
  cases hd'
  obtain ⟨dv', hdv', hb⟩ := href dv (List.mem_of_getElem? hdv) l' hd t b v he
  obtain ⟨b', hb'⟩ := List.mem_iff_getElem?.mp hdv'
  have hbb := hids b' dv' hb'
  rw [hb] at hbb
  subst hbb
  have hp : pidx d.disVideos.length (b' : Int) = b' := by simp [pidx]
  have ht : (obsOf d.disVideos).idxOf t = k → t = s := by
    intro hk
    have hlt : k < (obsOf d.disVideos).length := (List.getElem?_eq_some_iff.mp hobs).1
    have := List.getElem_idxOf (xs := obsOf d.disVideos) (x := t) (by omega)
    rw [List.getElem?_eq_some_iff] at hobs
    obtain ⟨h1, h2⟩ := hobs
    subst hk
    rw [← this]
    exact h2
  simp only [recP, hp, List.mem_cons, List.not_mem_nil, or_false] at hw
  rcases hw with rfl | rfl
  · simp only [Prod.mk.injEq] at hc
    obtain ⟨rfl, rfl, hk⟩ := hc
    have := ht hk
    subst this
    exact .inl ⟨by omega, dv, v, hdv, (entryOf_iff hd hn).mpr he, rfl⟩
  · simp only [Prod.mk.injEq] at hc
    obtain ⟨rfl, rfl, hk⟩ := hc
    have := ht hk
    subst this
    exact .inr ⟨by omega, dv, v, hdv, (entryOf_iff hd hn).mpr he, rfl⟩

theorem obs_nodup (dvs : List (DisVideo (κ × Int) K)) : (obsOf dvs).Nodup :=
  (uniqueSorted_sorted _).imp fun h => ne_of_lt h

theorem val_legal {dvs : List (DisVideo (κ × Int) K)} (hl : RecordsLegal dvs) {dv} (hdv : dv ∈ dvs)
    (hst : DictStyle dv) {k v} (h : entryOf dv k = some v) : ∃ q : K, v = .one (.fin q) ∧ Outcome3 q := by
  obtain ⟨l, hd, hn⟩ := hst
  obtain ⟨⟨q, hq, rfl⟩, -⟩ := hl dv hdv l hd k.1 k.2 v ((entryOf_iff hd hn).mp h)
  exact ⟨q, rfl, hq⟩

/-- **C50, the part that holds.** If asset ids are the positions of the videos and records refer to asset ids of the
dataset, then cell (i, j, observer) holds what video `i` records about video `j` for that observer, unless a later
video `j` records something else about `i` (then the later record wins, by `C49_complementary`); it is NaN if neither
records anything.  Observers are sorted by name and are exactly the subjects of the records.

Missing: the full claim, without the assumption on asset ids, is refuted by `C50_refuted`. -/
theorem C50_positions_partial (d : Dataset (κ × Int) K) (rd : PcRd κ K) (h : pcReader d = .ok rd) (arr : Arr3D (Fl K))
    (hs : rd.scores = .ok arr) (hstyle : ∀ dv ∈ d.disVideos, DictStyle dv)
    (hids : IdsArePositions d.disVideos) (href : RecordsRefer d.disVideos) :
    ∃ obs, rd.observers = .ok obs ∧ arr.R = obs.length ∧ obs.Pairwise (· < ·) ∧
      (∀ s, s ∈ obs ↔ ∃ dv ∈ d.disVideos, ∃ b, entryOf dv (s, b) ≠ none) ∧
      ∀ (i j k : ℕ) vi vj s, i ≠ j → d.disVideos[i]? = some vi → d.disVideos[j]? = some vj → obs[k]? = some s →
        (entryOf vi (s, vj.assetId) = none → entryOf vj (s, vi.assetId) = none → cell arr i j k = some .nan) ∧
        (∀ q : K, entryOf vi (s, vj.assetId) = some (.one (.fin q)) →
          (entryOf vj (s, vi.assetId) = none ∨ entryOf vj (s, vi.assetId) = some (.one (.fin (1 - q))) ∨ j < i) →
          cell arr i j k = some (.fin q)) := by
  obtain ⟨hdict, hl, hob, h1, h2, h3, hc⟩ := pc_inv h hs
  refine ⟨_, hob, h3, uniqueSorted_sorted _, ?_, ?_⟩
  · intro s
    unfold obsOf
    rw [mem_uniqueSorted]
    constructor
    · intro hm
      obtain ⟨l, hlm, hm⟩ := List.mem_flatMap.mp hm
      obtain ⟨⟨⟨t, b⟩, v⟩, he, rfl⟩ := List.mem_map.mp hm
      obtain ⟨i, hi⟩ := List.mem_iff_getElem?.mp hlm
      obtain ⟨dv, hdv, hd⟩ := get_dictsOf hdict hi
      have hmem := List.mem_of_getElem? hdv
      obtain ⟨l', hd', hn⟩ := hstyle dv hmem
      rw [hd] at hd'
      cases hd'
      exact ⟨dv, hmem, b, by rw [(entryOf_iff hd hn).mpr he]; simp⟩
    · rintro ⟨dv, hdv, b, hb⟩
      obtain ⟨v, hv⟩ := Option.ne_none_iff_exists'.mp hb
      obtain ⟨l, hd, hn⟩ := hstyle dv hdv
      obtain ⟨i, hi⟩ := List.mem_iff_getElem?.mp hdv
      exact List.mem_flatMap.mpr ⟨l, List.mem_of_getElem? (dictsOf_get hi hd),
        List.mem_map.mpr ⟨_, (entryOf_iff hd hn).mp hv, rfl⟩⟩
  · intro i j k vi vj s hij hi hj hk
    have ei := hids i vi hi
    have ej := hids j vj hj
    rw [ei, ej]
    have hil : i < d.disVideos.length := (List.getElem?_eq_some_iff.mp hi).1
    have hjl : j < d.disVideos.length := (List.getElem?_eq_some_iff.mp hj).1
    have hkl : k < (obsOf d.disVideos).length := (List.getElem?_eq_some_iff.mp hk).1
    rw [hc i j k (by omega) (by omega) (by omega)]
    constructor
    · intro n1 n2
      rw [cellAfter_none]
      intro w hw hwc
      rcases write_source hstyle hids href hk (l := []) rfl hw hwc with ⟨-, dv, v, hdv, hv, -⟩ | ⟨-, dv, v, hdv, hv, -⟩
      · rw [hi] at hdv; cases hdv; rw [n1] at hv; cases hv
      · rw [hj] at hdv; cases hdv; rw [n2] at hv; cases hv
    · intro q hq hother
      congr 1
      obtain ⟨li, hdi, hni⟩ := hstyle vi (List.mem_of_getElem? hi)
      have hmem := (entryOf_iff hdi hni).mp hq
      have hidx : (obsOf d.disVideos).idxOf s = k := by
        obtain ⟨h1, h2⟩ := List.getElem?_eq_some_iff.mp hk
        rw [← h2]
        exact (obs_nodup _).idxOf_getElem k h1
      have hex : ∀ m r, r[i - m]? = some li → m ≤ i →
          ∃ w ∈ allWrites d.disVideos.length (obsOf d.disVideos) m r, w.1 = (i, j, k) := by
        intro m r hr hm
        refine ⟨((i, j, k), .fin q), mem_allWrites.mpr ⟨i - m, li, _, hr, hmem, ?_⟩, rfl⟩
        rw [show m + (i - m) = i by omega]
        simp [recP, pidx, hidx, val]
      have hdi' := dictsOf_get hi hdi
      by_cases hji : j < i
      · -- split at video i: nothing later touches the cell
        have hlen : (dictsOf d.disVideos).length = d.disVideos.length := by simp [dictsOf]
        have hsplit := (List.take_append_drop (i + 1) (dictsOf d.disVideos)).symm
        have hsplit2 := (List.take_append_drop i (dictsOf d.disVideos)).symm
        have hl1 : ((dictsOf d.disVideos).take (i + 1)).length = i + 1 := by
          rw [List.length_take]; omega
        have hl2 : ((dictsOf d.disVideos).take i).length = i := by
          rw [List.length_take]; omega
        rw [hsplit2, allWrites_append]
        rw [hl2, Nat.zero_add]
        apply cellAfter_append_some
        · exact hex i _ (by simpa using hdi') le_rfl
        · intro w hw hwc
          have hw' : w ∈ allWrites d.disVideos.length (obsOf d.disVideos) ((dictsOf d.disVideos).take i).length
              ((dictsOf d.disVideos).drop i) := by rw [hl2]; exact hw
          rcases write_source hstyle hids href hk hsplit2 hw' hwc with
            ⟨-, dv, v, hdv, hv, e⟩ | ⟨hle, -⟩
          · rw [hi] at hdv
            cases hdv
            rw [hq] at hv
            cases hv
            rw [e]; rfl
          · rw [hl2] at hle
            omega
      · apply cellAfter_all
        · exact hex 0 _ (by simpa using hdi') (by omega)
        · intro w hw hwc
          rcases write_source hstyle hids href hk (l := []) rfl hw hwc with ⟨-, dv, v, hdv, hv, e⟩ | ⟨-, dv, v, hdv, hv, e⟩
          · rw [hi] at hdv
            cases hdv
            rw [hq] at hv
            cases hv
            rw [e]; rfl
          · rw [hj] at hdv
            cases hdv
            rcases hother with h | h | h
            · rw [h] at hv; cases hv
            · rw [h] at hv
              cases hv
              rw [e, val, Fl.one_def, Fl.fin_sub]
              congr 1
              ring
            · exact absurd h hji

/-! ## From scores to the array -/

theorem ratingOf_pos {dvs : List (DisVideo String K)} (hids : IdsArePositions dvs) {i : ℕ} {vi} (hi : dvs[i]? = some vi)
    (s : String) : ratingOf dvs s vi.assetId = (entryOf vi s).map fun x => (x, vi.contentId) := by
  have hil := (List.getElem?_eq_some_iff.mp hi).1
  have hsplit : dvs = dvs.take i ++ vi :: dvs.drop (i + 1) := by
    obtain ⟨h1, rfl⟩ := List.getElem?_eq_some_iff.mp hi
    simp
  have hne : ∀ k v, dvs[k]? = some v → k ≠ i → v.assetId ≠ vi.assetId := by
    intro k v hk hki
    rw [hids k v hk, hids i vi hi]
    exact_mod_cast hki
  have h1 : (dvs.take i).findSome? (fun v => if v.assetId = vi.assetId then
      (entryOf v s).map fun x => (x, v.contentId) else none) = none := by
    rw [List.findSome?_eq_none_iff]
    intro v hv
    obtain ⟨k, hk⟩ := List.mem_iff_getElem?.mp hv
    rw [List.getElem?_take] at hk
    split at hk
    · rw [if_neg (hne k v hk (by omega))]
    · cases hk
  have h2 : (dvs.drop (i + 1)).findSome? (fun v => if v.assetId = vi.assetId then
      (entryOf v s).map fun x => (x, v.contentId) else none) = none := by
    rw [List.findSome?_eq_none_iff]
    intro v hv
    obtain ⟨k, hk⟩ := List.mem_iff_getElem?.mp hv
    rw [List.getElem?_drop] at hk
    rw [if_neg (hne _ v hk (by omega))]
  unfold ratingOf
  rw [hsplit, List.findSome?_append, h1, List.findSome?_cons, if_pos rfl, h2]
  cases entryOf vi s <;> rfl

theorem ratingOf_some {dvs : List (DisVideo String K)} {s : String} {a : Int} {p} (h : ratingOf dvs s a = some p) :
    ∃ dv ∈ dvs, dv.assetId = a ∧ entryOf dv s = some p.1 := by
  obtain ⟨dv, hdv, h⟩ := List.exists_of_findSome?_eq_some h
  split at h
  · rename_i ha
    obtain ⟨x, hx, rfl⟩ := Option.map_eq_some_iff.mp h
    exact ⟨dv, hdv, ha, hx⟩
  · cases h

theorem noRepeat_pos {dvs : List (DisVideo String K)} (hids : IdsArePositions dvs) : NoRepeat dvs := by
  intro s
  have hn : (dvs.map (·.assetId)).Nodup := by
    have : dvs.map (·.assetId) = (List.range dvs.length).map fun i : ℕ => (i : Int) := by
      apply List.ext_getElem?
      intro i
      rw [List.getElem?_map, List.getElem?_map]
      cases hi : dvs[i]? with
      | none =>
        have := List.getElem?_eq_none_iff.mp hi
        rw [List.getElem?_eq_none (by simpa using this)]
        rfl
      | some v =>
        have := (List.getElem?_eq_some_iff.mp hi).1
        rw [List.getElem?_range this]
        simp [hids i v hi]
    rw [this]
    exact List.nodup_range.map fun a b h => by exact_mod_cast h
  exact (List.filter_sublist.map _).nodup hn

theorem share_legal {x y : K} {v : Vote K} (h : (share x y).map Vote.one = some v) :
    ∃ q : K, Outcome3 q ∧ v = .one (.fin q) := by
  unfold share at h
  split_ifs at h <;> cases h
  · exact ⟨1, .inr (.inr rfl), rfl⟩
  · exact ⟨1 / 2, .inr (.inl rfl), rfl⟩

/-- **C45 and C50 together.** Converting an accepted dictionary-style dataset whose asset ids are positions, and
reading the result: the reader accepts it, and the array holds for video `i` against video `j` and each observer
the result of comparing that observer's two scores: 1, 0 or 0.5; NaN for pairs the observer did not rate (or, by
default, of different contents). -/
theorem C50_end_to_end (d : Dataset String K) (rd : Reader String K) (hacc : rawReader d = .ok rd)
    (hdict : ∀ dv ∈ d.disVideos, DictStyle dv)
    (hone : ∀ dv ∈ d.disVideos, ∀ v ∈ entries dv, ∃ x : K, v = .one (.fin x)) (hids : IdsArePositions d.disVideos)
    (pk : Conv.PrepareKw) (pt : Option String)
    (hpt : pt = none ∨ pt = some "within_subject_within_content" ∨ pt = some "within_subject")
    (dr : Draws K) (fuel : ℕ) :
    let kw : PcKw K := { toPrepareKw := pk, pcType := pt }
    ∃ new rd' arr obs, toPc rd kw dr (fuel + 1) = .ok (d, new) ∧ pcReader new = .ok rd' ∧ rd'.scores = .ok arr ∧
      rd'.observers = .ok obs ∧
      ∀ (i j k : ℕ) vi vj s, i ≠ j → d.disVideos[i]? = some vi → d.disVideos[j]? = some vj → obs[k]? = some s →
        (∀ x y : K, entryOf vi s = some (.one (.fin x)) → entryOf vj s = some (.one (.fin y)) →
          (withinContent kw = true → vi.contentId = vj.contentId) → cell arr i j k = some (.fin (result x y))) ∧
        (entryOf vi s = none ∨ entryOf vj s = none ∨ (withinContent kw = true ∧ vi.contentId ≠ vj.contentId) →
          cell arr i j k = some .nan) := by
  intro kw
  obtain ⟨new, h, hrefs, -, hlen, hv⟩ := C45_outcomes d rd hacc hdict hone (noRepeat_pos hids) pk pt hpt dr fuel
  have hlast : ∀ i, i < d.disVideos.length → LastWithId d.disVideos i := by
    intro i hi
    refine ⟨d.disVideos[i], List.getElem?_eq_getElem hi, ?_⟩
    intro j v' hij hj
    rw [hids j v' hj, hids i _ (List.getElem?_eq_getElem hi)]
    exact_mod_cast (by omega : j ≠ i)
  -- a video of the new dataset
  have hnew : ∀ (i : ℕ) v', new.disVideos[i]? = some v' → ∃ dv, d.disVideos[i]? = some dv ∧ SameVideo dv v' ∧
      DictStyle v' ∧ ∀ s b, (∀ x cx y cy, dv.assetId ≠ b → ratingOf d.disVideos s dv.assetId = some (.one (.fin x), cx) →
            ratingOf d.disVideos s b = some (.one (.fin y), cy) → (withinContent kw = true → cx = cy) →
            entryOf v' (s, b) = (share x y).map .one) ∧
          (¬ Comparable (withinContent kw) d.disVideos s dv.assetId b → entryOf v' (s, b) = none) := by
    intro i v' hv'
    have hi : i < d.disVideos.length := by
      rw [← hlen]; exact (List.getElem?_eq_some_iff.mp hv').1
    obtain ⟨h1, h2, -, h4⟩ := hv i d.disVideos[i] v' (List.getElem?_eq_getElem hi) hv'
    exact ⟨_, List.getElem?_eq_getElem hi, h1, h2, h4 (hlast i hi)⟩
  have hstyle' : ∀ v' ∈ new.disVideos, DictStyle v' := by
    intro v' hv'
    obtain ⟨i, hi⟩ := List.mem_iff_getElem?.mp hv'
    obtain ⟨dv, -, -, h, -⟩ := hnew i v' hi
    exact h
  have hids' : IdsArePositions new.disVideos := by
    intro i v' hv'
    obtain ⟨dv, hd, h, -⟩ := hnew i v' hv'
    rw [h.asset, hids i dv hd]
  have hsingle : ∀ {s a x c}, ratingOf d.disVideos s a = some (x, c) → ∃ q : K, x = .one (.fin q) := by
    intro s a x c hr
    obtain ⟨dv, hdv, -, he⟩ := ratingOf_some hr
    refine hone dv hdv x ?_
    obtain ⟨l, hd, hn⟩ := hdict dv hdv
    simp only [entries, hd]
    exact List.mem_map.mpr ⟨_, (entryOf_iff hd hn).mp he, rfl⟩
  have hentry : ∀ (i : ℕ) v' s b v, new.disVideos[i]? = some v' → entryOf v' (s, b) = some v →
      (∃ q : K, Outcome3 q ∧ v = .one (.fin q)) ∧ ∃ dv ∈ new.disVideos, dv.assetId = b := by
    intro i v' s b v hv' he
    obtain ⟨dv, hd, hsame, hst, hch⟩ := hnew i v' hv'
    have hcomp : Comparable (withinContent kw) d.disVideos s dv.assetId b := by
      by_contra hc
      rw [(hch s b).2 hc] at he
      cases he
    obtain ⟨hne, x, cx, y, cy, hx, hy, hcc⟩ := hcomp
    obtain ⟨x, rfl⟩ := hsingle hx
    obtain ⟨y, rfl⟩ := hsingle hy
    have hsh := (hch s b).1 x cx y cy hne hx hy hcc
    rw [he] at hsh
    refine ⟨share_legal hsh.symm, ?_⟩
    obtain ⟨dv', hdv', ha, -⟩ := ratingOf_some hy
    obtain ⟨k, hk⟩ := List.mem_iff_getElem?.mp hdv'
    have hkl : k < new.disVideos.length := by rw [hlen]; exact (List.getElem?_eq_some_iff.mp hk).1
    refine ⟨new.disVideos[k], List.getElem_mem hkl, ?_⟩
    rw [hids' k _ (List.getElem?_eq_getElem hkl), ← ha, hids k dv' hk]
  have href' : RecordsRefer new.disVideos := by
    intro v' hv' l hl s b v hm
    obtain ⟨l', hl', hn⟩ := hstyle' v' hv'
    rw [hl] at hl'
    cases hl'
    obtain ⟨i, hi⟩ := List.mem_iff_getElem?.mp hv'
    exact (hentry i v' s b v hi ((entryOf_iff hl hn).mpr hm)).2
  have hrange : ∀ v' ∈ new.disVideos, 0 ≤ v'.assetId ∧ v'.assetId < new.disVideos.length := by
    intro v' hv'
    obtain ⟨i, hi⟩ := List.mem_iff_getElem?.mp hv'
    have := (List.getElem?_eq_some_iff.mp hi).1
    rw [hids' i v' hi]
    omega
  have hleg' : RecordsLegal new.disVideos := by
    intro v' hv' l hl s b v hm
    obtain ⟨l', hl', hn⟩ := hstyle' v' hv'
    rw [hl] at hl'
    cases hl'
    obtain ⟨i, hi⟩ := List.mem_iff_getElem?.mp hv'
    obtain ⟨h1, dv, hdv, hb⟩ := hentry i v' s b v hi ((entryOf_iff hl hn).mpr hm)
    have := hrange dv hdv
    exact ⟨h1, by omega, by omega⟩
  have hwf : WellFormed d := by
    rw [← C01_accepts_iff_wellFormed]
    unfold rawReader at hacc
    split at hacc
    · cases hacc
    · assumption
  have hwf' : assertRaw new = .ok () := by
    rw [C01_accepts_iff_wellFormed]
    refine ⟨by rw [hrefs]; exact hwf.refs, ?_, by rw [hrefs]; exact hwf.nonneg, ?_, ?_, ?_⟩
    · intro hn
      rw [hn] at hlen
      exact hwf.diss (List.length_eq_zero_iff.mp hlen.symm)
    · intro v' hv'
      obtain ⟨i, hi⟩ := List.mem_iff_getElem?.mp hv'
      obtain ⟨dv, hd, hsame, -⟩ := hnew i v' hi
      rw [hrefs, hsame.content]
      exact hwf.hasRef dv (List.mem_of_getElem? hd)
    · intro v' hv'
      obtain ⟨l, hl, -⟩ := hstyle' v' hv'
      exact ⟨_, hl, by simp⟩
    · intro d0 h0 hs
      obtain ⟨l, hl, -⟩ := hstyle' d0 (List.mem_of_head? h0)
      obtain ⟨t, e, he⟩ := hs
      rw [hl] at he
      cases he
  have hass : assertPc new = .ok () := assertPc_ok.mpr ⟨hwf', fun v' hv' =>
    ⟨(hstyle' v' hv').imp fun _ h => h.1, hrange v' hv'⟩⟩
  have hrd' := pcReader_ok.mpr ⟨hass, rfl⟩
  obtain ⟨arr, harr⟩ := (C49_illegal_raises new _ hrd').1.mpr hleg'
  obtain ⟨obs, hobs, -, -, -, hcell⟩ := C50_positions_partial new _ hrd' arr harr hstyle' hids' href'
  refine ⟨new, _, arr, obs, h, hrd', harr, hobs, ?_⟩
  intro i j k vi vj s hij hi hj hk
  have hil := (List.getElem?_eq_some_iff.mp hi).1
  have hjl := (List.getElem?_eq_some_iff.mp hj).1
  have hi' := List.getElem?_eq_getElem (l := new.disVideos) (i := i) (by omega)
  have hj' := List.getElem?_eq_getElem (l := new.disVideos) (i := j) (by omega)
  obtain ⟨_, e, sami, -, chi⟩ := hnew i _ hi'
  rw [hi] at e
  cases e
  obtain ⟨_, e, samj, -, chj⟩ := hnew j _ hj'
  rw [hj] at e
  cases e
  have hne : vi.assetId ≠ vj.assetId := by
    rw [hids i vi hi, hids j vj hj]
    exact_mod_cast hij
  obtain ⟨hcn, hcs⟩ := hcell i j k _ _ s hij hi' hj' hk
  obtain ⟨-, hcs'⟩ := hcell j i k _ _ s (Ne.symm hij) hj' hi' hk
  rw [sami.asset, samj.asset] at hcn hcs
  rw [sami.asset, samj.asset] at hcs'
  have hri := ratingOf_pos hids hi s
  have hrj := ratingOf_pos hids hj s
  constructor
  · intro x y hx hy hcc
    rw [hx] at hri
    rw [hy] at hrj
    have e1 := (chi s vj.assetId).1 x _ y _ hne hri hrj hcc
    have e2 := (chj s vi.assetId).1 y _ x _ hne.symm hrj hri fun h => (hcc h).symm
    unfold result
    rcases lt_trichotomy y x with hlt | rfl | hlt
    · rw [if_pos hlt]
      refine hcs 1 (by rw [e1, share, if_pos hlt]; rfl) (.inl ?_)
      rw [e2, share, if_neg (not_lt.mpr hlt.le), if_pos hlt]; rfl
    · rw [if_neg (lt_irrefl y), if_neg (lt_irrefl y)]
      refine hcs (1 / 2) (by rw [e1, share, if_neg (lt_irrefl y), if_neg (lt_irrefl y)]; rfl) (.inr (.inl ?_))
      rw [e2, share, if_neg (lt_irrefl y), if_neg (lt_irrefl y), show (1 : K) - 1 / 2 = 1 / 2 by ring]; rfl
    · rw [if_neg (not_lt.mpr hlt.le), if_pos hlt]
      have hji := hcs' 1 (by rw [e2, share, if_pos hlt]; rfl) (.inl (by
        rw [e1, share, if_neg (not_lt.mpr hlt.le), if_pos hlt]; rfl))
      obtain ⟨hE, hS, hcomp⟩ := C49_complementary new _ hrd' arr harr
      obtain ⟨-, -, hob2, -, -, hR, -⟩ := pc_inv hrd' harr
      rw [hobs] at hob2
      have hob2 := Except.ok.inj hob2
      have hkl : k < arr.R := by rw [hR, ← hob2]; exact (List.getElem?_eq_some_iff.mp hk).1
      rcases (hcomp i j k (by omega) (by omega) hkl).1 hij with ⟨-, e⟩ | ⟨q, q', -, -, hsum, e1, e2⟩
      · rw [hji] at e; cases e
      · rw [hji] at e2
        have : (1 : K) = q' := by injection e2 with h; injection h
        rw [e1]
        congr 2
        linarith
  · intro hno
    have hnc : ∀ a b : Int, (a = vi.assetId ∧ b = vj.assetId ∨ a = vj.assetId ∧ b = vi.assetId) →
        ¬ Comparable (withinContent kw) d.disVideos s a b := by
      rintro a b hab ⟨-, x, cx, y, cy, hx, hy, hcc⟩
      rcases hab with ⟨rfl, rfl⟩ | ⟨rfl, rfl⟩
      · rw [hri] at hx
        rw [hrj] at hy
        obtain ⟨x', hx', e⟩ := Option.map_eq_some_iff.mp hx
        obtain ⟨y', hy', e'⟩ := Option.map_eq_some_iff.mp hy
        cases e
        cases e'
        rcases hno with h | h | ⟨h1, h2⟩
        · rw [h] at hx'; cases hx'
        · rw [h] at hy'; cases hy'
        · exact h2 (hcc h1)
      · rw [hrj] at hx
        rw [hri] at hy
        obtain ⟨x', hx', e⟩ := Option.map_eq_some_iff.mp hx
        obtain ⟨y', hy', e'⟩ := Option.map_eq_some_iff.mp hy
        cases e
        cases e'
        rcases hno with h | h | ⟨h1, h2⟩
        · rw [h] at hy'; cases hy'
        · rw [h] at hx'; cases hx'
        · exact h2 (hcc h1).symm
    exact hcn ((chi s _).2 (hnc _ _ (.inl ⟨rfl, rfl⟩))) ((chj s _).2 (hnc _ _ (.inr ⟨rfl, rfl⟩)))

/-! ## Witnesses -/

/-- a paired-comparison video of content 7 -/
def pcVid (i : Int) (d : List ((String × Int) × Vote ℚ)) : DisVideo (String × Int) ℚ where
  contentId := 7
  assetId := i
  path := "p"
  os := some (.dict d)
  groundtruth := none
  groundtruthStd := none
  extra := []

/-- a paired-comparison dataset with one reference -/
def pcSet (vs : List (DisVideo (String × Int) ℚ)) : Dataset (String × Int) ℚ where
  refVideos := [⟨7, "ref", []⟩]
  disVideos := vs
  refScore := none
  datasetName := none
  attrs := []

/-- Video 0 has asset id 0, video 1 asset id 2, video 2 asset id 1; Ann prefers asset 0 to asset 1, i.e. video 0 to
video 2. -/
def pcSwapped : Dataset (String × Int) ℚ :=
  pcSet [pcVid 0 [(("Ann", 1), .one (.fin 1))], pcVid 2 [], pcVid 1 []]

/-- **C50, refuted.** The dataset is accepted and video 0 records a win over the asset that is video 2; but the
array holds nothing for videos 0 and 2 and reports a win over video 1. -/
theorem C50_refuted : ∃ rd arr, pcReader pcSwapped = .ok rd ∧ rd.scores = .ok arr ∧ rd.observers = .ok ["Ann"] ∧
    pcSwapped.disVideos.map (fun v => entryOf v ("Ann", 1)) = [some (.one (.fin 1)), none, none] ∧
    pcSwapped.disVideos.map (·.assetId) = [0, 2, 1] ∧
    cell arr 0 2 0 = some .nan ∧ cell arr 0 1 0 = some (.fin 1) := by
  obtain ⟨rd, hrd⟩ : ∃ rd, pcReader pcSwapped = .ok rd := ⟨_, rfl⟩
  have hrd' := hrd
  rw [pcReader_ok] at hrd'
  obtain ⟨-, rfl⟩ := hrd'
  obtain ⟨arr, h, hP⟩ := okWith_elim (x := pcScores (K := ℚ) pcSwapped.disVideos)
    (P := fun a => decide (cell a 0 2 0 = some .nan ∧ cell a 0 1 0 = some (.fin 1))) (by decide +kernel)
  obtain ⟨h1, h2⟩ := of_decide_eq_true hP
  exact ⟨_, arr, hrd, h, by decide +kernel, by decide +kernel, by decide +kernel, h1, h2⟩

/-- A record comparing a video with itself is accepted: the cell then holds the complement of what was recorded
(which is why C49 speaks of different videos). -/
example : ∃ rd arr, pcReader (pcSet [pcVid 0 [(("Ann", 0), .one (.fin 1))]]) = .ok rd ∧ rd.scores = .ok arr ∧
    cell arr 0 0 0 = some (.fin 0) := by
  obtain ⟨rd, hrd⟩ : ∃ rd, pcReader (pcSet [pcVid 0 [(("Ann", 0), .one (.fin 1))]]) = .ok rd := ⟨_, rfl⟩
  have hrd' := hrd
  rw [pcReader_ok] at hrd'
  obtain ⟨-, rfl⟩ := hrd'
  obtain ⟨arr, h, hP⟩ := okWith_elim (x := pcScores (K := ℚ) (pcSet [pcVid 0 [(("Ann", 0), .one (.fin 1))]]).disVideos)
    (P := fun a => decide (cell a 0 0 0 = some (.fin 0))) (by decide +kernel)
  exact ⟨_, arr, hrd, h, of_decide_eq_true hP⟩

/-- the hypotheses of `C50_end_to_end` are met by three videos and two subjects -/
example (dr : Draws ℚ) : ∃ rd new rd' arr obs, rawReader pcData = .ok rd ∧ toPc rd {} dr 1 = .ok (pcData, new) ∧
    pcReader new = .ok rd' ∧ rd'.scores = .ok arr ∧ rd'.observers = .ok obs ∧
    ∀ k : ℕ, obs[k]? = some "Bob" → cell arr 1 2 k = some (.fin 1) ∧ cell arr 0 1 k = some .nan := by
  obtain ⟨rd, hrd⟩ : ∃ rd, rawReader pcData = .ok rd := ⟨_, rfl⟩
  have hids : IdsArePositions pcData.disVideos := by
    intro i dv hi
    match i, hi with
    | 0, hi => cases hi; rfl
    | 1, hi => cases hi; rfl
    | 2, hi => cases hi; rfl
  obtain ⟨new, rd', arr, obs, h1, h2, h3, h4, h5⟩ :=
    C50_end_to_end pcData rd hrd pcData_dict pcData_one hids {} none (.inl rfl) dr 0
  refine ⟨rd, new, rd', arr, obs, hrd, h1, h2, h3, h4, ?_⟩
  intro k hk
  refine ⟨?_, ?_⟩
  · rw [(h5 1 2 k _ _ "Bob" (by decide) rfl rfl hk).1 4 2 (by decide +kernel) (by decide +kernel) (fun _ => rfl)]
    norm_num [result]
  · exact (h5 0 1 k _ _ "Bob" (by decide) rfl rfl hk).2 (.inl (by decide +kernel))

/-- an illegal value: the array raises -/
example : ∃ rd, pcReader (pcSet [pcVid 0 [(("Ann", 0), .one (.fin 2))]]) = .ok rd ∧ rd.scores = .error .assertion := by
  obtain ⟨rd, hrd⟩ : ∃ rd, pcReader (pcSet [pcVid 0 [(("Ann", 0), .one (.fin 2))]]) = .ok rd := ⟨_, rfl⟩
  refine ⟨rd, hrd, (C49_illegal_raises _ rd hrd).2 ?_ ?_⟩
  · intro dv hdv l hl s b v hm
    simp only [pcSet, List.mem_cons, List.not_mem_nil, or_false] at hdv
    subst hdv
    cases hl
    simp only [List.mem_cons, List.not_mem_nil, or_false, Prod.mk.injEq] at hm
    obtain ⟨⟨-, rfl⟩, rfl⟩ := hm
    exact ⟨by simp, by decide, by decide⟩
  · intro hl
    obtain ⟨⟨q, hq, h⟩, -⟩ := hl (pcVid 0 [(("Ann", 0), .one (.fin 2))]) (by simp [pcSet]) _ rfl "Ann" 0
      (.one (.fin 2)) (by simp)
    cases h
    rcases hq with h | h | h <;> norm_num at h

end Sureal.Props
