import Verif.Lemmas.MosTable
import Verif.Props.Mos
/-!
# C93: a table of votes becomes the dataset it describes
-/
set_option linter.unusedSectionVars false
namespace Sureal.Props
open Sureal Spec MosTable

variable {int : List Char → Option Int} {iter : List (List Char) → List (List Char)} {a : Args} {t : Table}

/-- **C93.** When the conversion succeeds, the dataset has one distorted video for each video named in the table, with the ratings of its
first row, and one reference video for each source. -/
theorem C93_videos (hw : TableWf t) (ho : SetOrder iter) {d : Dataset String ℚ} (h : convert int iter a t = .ok d) :
    (∃ ps : List Pvs, ps.Nodup ∧ (∀ p, p ∈ ps ↔ ∃ row ∈ t.rows, RowOf t row p) ∧
      List.Forall₂ (VideoOf int t a.disDir a.ext) ps d.disVideos) ∧
    (∃ srcs : List (List Char), srcs.Nodup ∧ (∀ s, s ∈ srcs ↔ ∃ row ∈ t.rows, ∃ p, RowOf t row p ∧ p.src = s) ∧
      List.Forall₂ (SourceOf a.refDir a.ext) srcs d.refVideos) ∧
    d.refScore = some (some a.refScore) ∧ d.datasetName = some a.name := by
  obtain ⟨-, ids, refs, diss, h1, h2, h3, rfl⟩ := convert_iff.mp h
  obtain ⟨ps, hps, rfl⟩ := ids_iff hw h1
  have hmem : ∀ p, p ∈ ps ↔ ∃ row ∈ t.rows, RowOf t row p := by
    intro p
    constructor
    · intro hp
      obtain ⟨i, hi, rfl⟩ := List.getElem_of_mem hp
      have hl := hps.length_eq
      exact ⟨t.rows[i]'(by omega), List.getElem_mem _, (List.forall₂_iff_get.mp hps).2 i (by omega) hi⟩
    · rintro ⟨row, hrow, hp⟩
      obtain ⟨i, hi, rfl⟩ := List.getElem_of_mem hrow
      have hl := hps.length_eq
      have := (List.forall₂_iff_get.mp hps).2 i hi (by omega)
      rw [rowOf_inj hw hp this]
      exact List.getElem_mem _
  have hrows : ∀ row ∈ t.rows, ∃ q, RowOf t row q := by
    intro row hrow
    obtain ⟨i, hi, rfl⟩ := List.getElem_of_mem hrow
    exact ⟨_, (List.forall₂_iff_get.mp hps).2 i hi (by rw [← hps.length_eq]; exact hi)⟩
  have hok : ∀ p ∈ ps, p.Ok := fun p hp => by
    obtain ⟨row, _, h⟩ := (hmem p).mp hp
    exact rowOf_ok h
  rw [List.map_map] at h2 h3
  obtain ⟨n1, m1⟩ := ho (ps.map Pvs.src)
  obtain ⟨n2, m2⟩ := ho (ps.map Pvs.text)
  refine ⟨?_, ?_, rfl, rfl⟩
  · have key : ∀ l : List (List Char), l.Nodup → (∀ x ∈ l, x ∈ ps.map Pvs.text) → ∀ diss, mapPy (disVideo int a t) l = .ok diss →
        ∃ qs : List Pvs, qs.map Pvs.text = l ∧ (∀ q ∈ qs, q ∈ ps) ∧ List.Forall₂ (VideoOf int t a.disDir a.ext) qs diss := by
      intro l
      induction l with
      | nil => intro _ _ diss h; cases h; exact ⟨[], rfl, by simp, .nil⟩
      | cons x l ih =>
        intro hn hx diss h
        rw [mapPy_eq_ok_iff] at h
        cases h with
        | @cons _ dv _ diss hb hr =>
          obtain ⟨qs, e1, e2, e3⟩ := ih (List.nodup_cons.mp hn).2 (fun y hy => hx y (by simp [hy])) diss (mapPy_eq_ok_iff.mpr hr)
          obtain ⟨p, hp, rfl⟩ := List.mem_map.mp (hx x (by simp))
          obtain ⟨row, l', n, m, f1, f2, f3, f4, f5, rfl⟩ := (disVideo_iff hw p hrows ((hmem p).mp hp) dv).mp hb
          refine ⟨p :: qs, by rw [List.map_cons, e1], ?_, .cons ⟨⟨n, f4, rfl⟩, ⟨m, f5, rfl⟩, ?_, row, l', f1, f2, f3, rfl⟩ e3⟩
          · intro q hq
            rcases List.mem_cons.mp hq with rfl | hq
            · exact hp
            · exact e2 q hq
          · rw [String.toList_ofList]
            exact (join_iff _ _ _).mp rfl
    obtain ⟨qs, e1, e2, e3⟩ := key _ n2 (fun x hx => (m2 x).mp hx) diss h3
    refine ⟨qs, List.Nodup.of_map Pvs.text (by rw [e1]; exact n2), ?_, e3⟩
    intro p
    rw [← hmem]
    constructor
    · exact e2 p
    · intro hp
      have : p.text ∈ qs.map Pvs.text := by
        rw [e1]
        exact (m2 _).mpr (List.mem_map_of_mem hp)
      obtain ⟨q, hq, hqp⟩ := List.mem_map.mp this
      rw [← text_inj (hok q (e2 q hq)) (hok p hp) hqp]
      exact hq
  · refine ⟨_, n1, ?_, ?_⟩
    · intro s
      show s ∈ iter (ps.map Pvs.src) ↔ _
      rw [m1, List.mem_map]
      constructor
      · rintro ⟨p, hp, rfl⟩
        obtain ⟨row, hrow, h⟩ := (hmem p).mp hp
        exact ⟨row, hrow, p, h, rfl⟩
      · rintro ⟨row, hrow, p, h, rfl⟩
        exact ⟨p, (hmem p).mpr ⟨row, hrow, h⟩, rfl⟩
    · refine List.Forall₂.imp ?_ (mapPy_eq_ok_iff.mp h2)
      intro src r hr
      obtain ⟨n, hn, rfl⟩ := (refVideo_iff a src r).mp hr
      refine ⟨⟨n, hn, rfl⟩, rfl, ?_⟩
      rw [String.toList_ofList]
      exact (join_iff _ _ _).mp rfl

/-- **C93.** The conversion succeeds exactly on the tables whose identifiers have three parts with a number in the second and in the third,
and in which the first row of every video has a rating in every column of ratings. -/
theorem C93_converts (hw : TableWf t) (ho : SetOrder iter) : (∃ d, convert int iter a t = .ok d) ↔ Usable int t := by
  constructor
  · rintro ⟨d, h⟩
    obtain ⟨hc, ids, refs, diss, h1, h2, h3, -⟩ := convert_iff.mp h
    obtain ⟨⟨ps, -, hps, hv⟩, -⟩ := C93_videos hw ho h
    obtain ⟨ps', hps', rfl⟩ := ids_iff hw h1
    have hrow : ∀ row ∈ t.rows, ∃ q, RowOf t row q := by
      intro row hrow
      obtain ⟨i, hi, rfl⟩ := List.getElem_of_mem hrow
      exact ⟨_, (List.forall₂_iff_get.mp hps').2 i hi (by rw [← hps'.length_eq]; exact hi)⟩
    have hvid : ∀ p ∈ ps, ∃ dv, disVideo int a t p.text = .ok dv := by
      intro p hp
      obtain ⟨row, hr, hp'⟩ := (hps p).mp hp
      have hm : p.text ∈ iter ((ps'.map fun p => (p.text, p.src, p.hrc)).map (·.1)) := by
        refine ((ho _).2 _).mpr ?_
        rw [List.map_map]
        obtain ⟨i, hi, rfl⟩ := List.getElem_of_mem hr
        have := (List.forall₂_iff_get.mp hps').2 i hi (by rw [← hps'.length_eq]; exact hi)
        rw [rowOf_inj hw hp' this]
        exact List.mem_map_of_mem (f := Pvs.text) (List.getElem_mem _)
      obtain ⟨i, hi, he⟩ := List.getElem_of_mem hm
      have hf := mapPy_eq_ok_iff.mp h3
      have := (List.forall₂_iff_get.mp hf).2 i hi (by rw [← hf.length_eq]; exact hi)
      simp only [List.get_eq_getElem] at this
      rw [he] at this
      exact ⟨_, this⟩
    refine ⟨by rw [← pvsColumn_eq]; exact hc, ?_, ?_⟩
    · intro row hr
      obtain ⟨p, hp⟩ := hrow row hr
      obtain ⟨dv, hdv⟩ := hvid p ((hps p).mpr ⟨row, hr, hp⟩)
      obtain ⟨row', l, n, m, -, -, -, f4, f5, -⟩ := (disVideo_iff hw p hrow ⟨row, hr, hp⟩ dv).mp hdv
      exact ⟨p, n, m, hp, f4, f5⟩
    · intro row p hf
      have hf' := hf
      obtain ⟨pre, post, e, hp, -⟩ := hf
      have hr : row ∈ t.rows := by rw [e]; simp
      obtain ⟨dv, hdv⟩ := hvid p ((hps p).mpr ⟨row, hr, hp⟩)
      obtain ⟨row', l, n, m, f1, f2, f3, -⟩ := (disVideo_iff hw p hrow ⟨row, hr, hp⟩ dv).mp hdv
      rw [firstRow_inj hf' f1]
      exact ⟨l, f2, f3⟩
  · intro hu
    have hrow : ∀ row ∈ t.rows, ∃ q, RowOf t row q := fun row hr => by
      obtain ⟨p, -, -, h, -⟩ := hu.ids row hr
      exact ⟨p, h⟩
    have hall : ∀ {α β : Type} {f : α → Py β} {l : List α}, (∀ x ∈ l, ∃ y, f x = .ok y) → ∃ ys, mapPy f l = .ok ys := by
      intro α β f l hl
      induction l with
      | nil => exact ⟨[], rfl⟩
      | cons x l ih =>
        obtain ⟨y, hy⟩ := hl x (by simp)
        obtain ⟨ys, hys⟩ := ih fun z hz => hl z (by simp [hz])
        exact ⟨y :: ys, by rw [mapPy, hy]; dsimp only; rw [hys]⟩
    obtain ⟨ids, hids⟩ := hall (f := rowIds t) (l := t.rows) fun row hr => by
      obtain ⟨p, hp⟩ := hrow row hr
      exact ⟨_, (rowIds_iff hw row _ _ _).mpr ⟨p, hp, rfl, rfl, rfl⟩⟩
    obtain ⟨ps, hps, rfl⟩ := ids_iff hw hids
    have hmem : ∀ p ∈ ps, ∃ row ∈ t.rows, RowOf t row p := by
      intro p hp
      obtain ⟨i, hi, rfl⟩ := List.getElem_of_mem hp
      have hl := hps.length_eq
      exact ⟨t.rows[i]'(by omega), List.getElem_mem _, (List.forall₂_iff_get.mp hps).2 i (by omega) hi⟩
    have hnum : ∀ p ∈ ps, ∃ n m, NumberIn p.src n ∧ NumberIn p.hrc m := by
      intro p hp
      obtain ⟨row, hr, hp'⟩ := hmem p hp
      obtain ⟨q, n, m, hq, h1, h2⟩ := hu.ids row hr
      rw [rowOf_inj hw hp' hq]
      exact ⟨n, m, h1, h2⟩
    obtain ⟨refs, hrefs⟩ := hall (f := refVideo a) (l := iter ((ps.map fun p => (p.text, p.src, p.hrc)).map (·.2.1))) fun src hs => by
      rw [(ho _).2, List.map_map, List.mem_map] at hs
      obtain ⟨p, hp, rfl⟩ := hs
      obtain ⟨n, m, h1, -⟩ := hnum p hp
      exact ⟨_, (refVideo_iff a p.src _).mpr ⟨n, h1, rfl⟩⟩
    obtain ⟨diss, hdiss⟩ := hall (f := disVideo int a t) (l := iter ((ps.map fun p => (p.text, p.src, p.hrc)).map (·.1))) fun id hs => by
      rw [(ho _).2, List.map_map, List.mem_map] at hs
      obtain ⟨p, hp, rfl⟩ := hs
      obtain ⟨n, m, h1, h2⟩ := hnum p hp
      obtain ⟨row, hf⟩ := firstRow_exists hw hrow (hmem p hp)
      obtain ⟨l, hne, hl⟩ := hu.ratings row p hf
      exact ⟨_, (disVideo_iff hw p hrow (hmem p hp) _).mpr ⟨row, l, n, m, hf, hne, hl, h1, h2, rfl⟩⟩
    exact ⟨_, convert_iff.mpr ⟨by rw [pvsColumn_eq]; exact hu.column, _, refs, diss, hids, hrefs, hdiss, rfl⟩⟩

/-- the ratings of a video in the dataset -/
theorem videoOf_votes {p : Pvs} {dir ext : List Char} {dv : DisVideo String ℚ} (h : VideoOf int t dir ext p dv) :
    ∃ row l, FirstRow t row p ∧ l ≠ [] ∧ RowRatings int t row l ∧ videoVotes dv = l.map fun kv => .fin (kv.2 : ℚ) := by
  obtain ⟨row, l, h1, h2, h3, h4⟩ := h.votes
  refine ⟨row, l, h1, h2, h3, ?_⟩
  unfold videoVotes entries
  rw [h4]
  dsimp only
  rw [List.map_map, List.flatMap_map]
  clear h4 h3 h2
  induction l with
  | nil => rfl
  | cons x l ih => rw [List.flatMap_cons, ih]; rfl

/-- the names of the ratings of a row are distinct -/
theorem ratings_nodup (hw : TableWf t) {row : List Cell} {l : List (List Char × Int)} (h : RowRatings int t row l) :
    (l.map fun kv => String.ofList kv.1).Nodup := by
  have e : l.map Prod.fst = ((t.columns.zip row).filter fun cv => ratingColumn cv.1).map Prod.fst := by
    unfold RowRatings at h
    generalize (t.columns.zip row).filter (fun cv => ratingColumn cv.1) = z at h
    induction h with
    | nil => rfl
    | cons h _ ih => rw [List.map_cons, List.map_cons, ih, h.1]
  have hz : ((t.columns.zip row).map Prod.fst).Nodup := by
    refine hw.names.sublist ?_
    clear e h
    generalize t.columns = cols
    induction cols generalizing row with
    | nil => simp
    | cons x cols ih =>
      cases row with
      | nil => simp
      | cons y row => exact (ih (row := row)).cons_cons x
  have hn : (l.map Prod.fst).Nodup := by
    rw [e]
    exact hz.sublist (List.filter_sublist.map _)
  have : (l.map fun kv => String.ofList kv.1) = (l.map Prod.fst).map String.ofList := by rw [List.map_map]; rfl
  rw [this]
  refine hn.map ?_
  intro x y hxy
  simpa using congrArg String.toList hxy

/-- **C93.** `sureal` accepts the dataset made from a table with at least one row, and the MOS it reports for a video is the mean of the
ratings in the first row about that video. -/
theorem C93_mos [MathFn ℚ] (hw : TableWf t) (ho : SetOrder iter) (hne : t.rows ≠ []) {d : Dataset String ℚ} (h : convert int iter a t = .ok d) :
    ∃ rd res, rawReader d = .ok rd ∧ runMOS rd {} = .ok res ∧
      ∃ ps : List Pvs, ps.Nodup ∧ (∀ p, p ∈ ps ↔ ∃ row ∈ t.rows, RowOf t row p) ∧
        List.Forall₂ (VideoOf int t a.disDir a.ext) ps d.disVideos ∧
        List.Forall₂ (fun p q => ∃ row l, FirstRow t row p ∧ l ≠ [] ∧ RowRatings int t row l ∧
          q = .fin ((l.map fun kv => (kv.2 : ℚ)).sum / l.length)) ps res.qualityScores := by
  obtain ⟨⟨ps, hnd, hps, hv⟩, ⟨srcs, hsn, hsm, hsv⟩, -, -⟩ := C93_videos hw ho h
  have hu := (C93_converts hw ho).mp ⟨d, h⟩
  obtain ⟨row0, hrow0⟩ := List.exists_mem_of_ne_nil _ hne
  obtain ⟨p0, -, -, hp0, -⟩ := hu.ids row0 hrow0
  have hvid : ∀ dv ∈ d.disVideos, ∃ p ∈ ps, VideoOf int t a.disDir a.ext p dv := by
    intro dv hdv
    obtain ⟨i, hi, rfl⟩ := List.getElem_of_mem hdv
    have hl := hv.length_eq
    exact ⟨ps[i]'(by omega), List.getElem_mem _, (List.forall₂_iff_get.mp hv).2 i (by omega) hi⟩
  have hsrc : ∀ s ∈ srcs, ∃ r ∈ d.refVideos, SourceOf a.refDir a.ext s r := by
    intro s hs
    obtain ⟨i, hi, rfl⟩ := List.getElem_of_mem hs
    have hl := hsv.length_eq
    exact ⟨d.refVideos[i]'(by omega), List.getElem_mem _, (List.forall₂_iff_get.mp hsv).2 i hi (by omega)⟩
  have hwf : WellFormed d := by
    refine ⟨?_, ?_, ?_, ?_, ?_, ?_⟩
    · obtain ⟨r, hr, -⟩ := hsrc p0.src ((hsm _).mpr ⟨row0, hrow0, p0, hp0, rfl⟩)
      exact List.ne_nil_of_mem hr
    · have h0 := (hps p0).mpr ⟨row0, hrow0, hp0⟩
      intro hd
      rw [hd] at hv
      cases hv
      cases h0
    · intro r hr
      obtain ⟨i, hi, rfl⟩ := List.getElem_of_mem hr
      have hl := hsv.length_eq
      have := (List.forall₂_iff_get.mp hsv).2 i (by omega) hi
      obtain ⟨n, -, hn⟩ := this.content
      simp only [List.get_eq_getElem] at hn
      rw [hn]
      exact Int.natCast_nonneg n
    · intro dv hdv
      obtain ⟨p, hp, hpv⟩ := hvid dv hdv
      obtain ⟨row, hr, hrp⟩ := (hps p).mp hp
      obtain ⟨r, hr', hs⟩ := hsrc p.src ((hsm _).mpr ⟨row, hr, p, hrp, rfl⟩)
      obtain ⟨n, hn, hn'⟩ := hpv.content
      obtain ⟨m, hm, hm'⟩ := hs.content
      refine ⟨r, hr', ?_⟩
      rw [hn', hm', numberIn_inj hn hm]
    · intro dv hdv
      obtain ⟨p, hp, hpv⟩ := hvid dv hdv
      obtain ⟨row, l, -, -, -, h4⟩ := hpv.votes
      exact ⟨_, h4, by simp⟩
    · intro d0 hd0 hs
      obtain ⟨p, hp, hpv⟩ := hvid d0 (List.mem_of_mem_head? hd0)
      obtain ⟨row, l, -, -, -, h4⟩ := hpv.votes
      obtain ⟨b, l', hb⟩ := hs
      rw [h4] at hb
      cases hb
  have hacc : rawReader d = .ok ⟨d, d.disVideos, opinionScores d.disVideos, listObservers d.disVideos⟩ := by
    unfold rawReader
    rw [(C01_accepts_iff_wellFormed d).mpr hwf]
  obtain ⟨res, hres, hq⟩ := C08_mos_end_to_end d _ hacc
    (Or.inr fun dv hdv => by
      obtain ⟨p, hp, hpv⟩ := hvid dv hdv
      obtain ⟨row, l, -, -, h3, h4⟩ := hpv.votes
      refine ⟨_, h4, ?_⟩
      rw [List.map_map]
      exact ratings_nodup hw h3)
    (fun dv hdv => by
      obtain ⟨p, hp, hpv⟩ := hvid dv hdv
      obtain ⟨row, l, -, -, h3, h4⟩ := hpv.votes
      intro xs hxs
      unfold entries at hxs
      rw [h4] at hxs
      simp at hxs)
    (fun dv hdv x hx => by
      obtain ⟨p, hp, hpv⟩ := hvid dv hdv
      obtain ⟨row, l, -, -, h3, h4⟩ := videoOf_votes hpv
      rw [h4] at hx
      obtain ⟨kv, -, rfl⟩ := List.mem_map.mp hx
      exact Or.inr ⟨_, rfl⟩)
  refine ⟨_, res, hacc, hres, ps, hnd, hps, hv, ?_⟩
  rw [hq, List.forall₂_map_right_iff]
  refine hv.imp ?_
  intro p dv hpv
  obtain ⟨row, l, h1, h2, h3, h4⟩ := videoOf_votes hpv
  refine ⟨row, l, h1, h2, h3, ?_⟩
  have hpres : present (l.map fun kv : List Char × Int => Fl.fin (kv.2 : ℚ)) = l.map fun kv => (kv.2 : ℚ) := by
    clear h4 h3 h2
    induction l with
    | nil => rfl
    | cons x l ih => rw [List.map_cons, List.map_cons, ← ih]; rfl
  rw [h4]
  unfold meanOrNan
  rw [hpres]
  cases l with
  | nil => exact absurd rfl h2
  | cons x l => simp [mean]

/-- a table with a missing MOS, spaces, capitals, a fraction, a repeated row and two sources -/
def exTable : Table :=
  { columns := ["PVS_ID".toList, "S1".toList, "user2".toList, "MOS".toList]
    rows := [[.text "D_SRC1_HRC1".toList, .num 4, .num (9/2), .num (17/4)],
             [.text " D_SRC2_HRC1 ".toList, .num 3, .num 2, .nan],
             [.text "D_SRC1_HRC1".toList, .num 1, .num 1, .num 1]] }

theorem exTable_wf : TableWf exTable := ⟨by decide +kernel, by decide +kernel⟩

theorem dedup_order : SetOrder (List.dedup (α := List Char)) := fun l => ⟨List.nodup_dedup l, fun _ => List.mem_dedup⟩

/-- the default options, for a file `t.csv` -/
def exArgs : Args := { name := "t" }

/-- the conversion of the example, as a total function -/
def exDataset : Dataset String ℚ :=
  match convert (fun _ => none) List.dedup exArgs exTable with
  | .ok d => d
  | .error _ => ⟨[], [], none, none, []⟩

theorem exTable_ok : convert (fun _ => none) List.dedup exArgs exTable = .ok exDataset := by
  have h : (convert (fun _ => none) List.dedup exArgs exTable).isOk = true := by decide +kernel
  unfold exDataset
  cases hc : convert (fun _ => none) List.dedup exArgs exTable with
  | ok d => rfl
  | error e => rw [hc] at h; cases h

/-- the example meets the hypotheses of the theorems -/
example : Usable (fun _ => none) exTable := (C93_converts (a := exArgs) exTable_wf dedup_order).mp ⟨_, exTable_ok⟩

/-- two videos, their ids, the number of reference videos and the first vote of every observer -/
example : exDataset.disVideos.map (fun dv => (dv.contentId, dv.assetId, (videoVotes dv))) =
      [(2, 1, [.fin 3, .fin 2]), (1, 1, [.fin 4, .fin 4])] ∨
    exDataset.disVideos.map (fun dv => (dv.contentId, dv.assetId, (videoVotes dv))) =
      [(1, 1, [.fin 4, .fin 4]), (2, 1, [.fin 3, .fin 2])] := by decide +kernel

/-- **C93 refuted: asset ids.** The videos of the dataset need not have distinct asset ids: the asset id is the number of the
processing, which different sources share. -/
theorem C93_refuted_asset_ids :
    ¬ ∀ (t : Table) (d : Dataset String ℚ), TableWf t → convert (fun _ => none) List.dedup exArgs t = .ok d →
      (d.disVideos.map (·.assetId)).Nodup := by
  intro h
  have := h exTable exDataset exTable_wf exTable_ok
  revert this
  decide +kernel

/-- **C93 refuted: rows.** A second row about the same video is dropped, so votes of the table are missing in the dataset. -/
theorem C93_refuted_rows :
    ¬ ∀ (t : Table) (d : Dataset String ℚ), TableWf t → convert (fun _ => none) List.dedup exArgs t = .ok d →
      ∀ row ∈ t.rows, ∀ kv ∈ t.columns.zip row, ratingColumn kv.1 = true → ∀ x : ℤ, kv.2 = .num x →
        ∃ dv ∈ d.disVideos, .fin (x : ℚ) ∈ videoVotes dv := by
  intro h
  have h1 := h exTable exDataset exTable_wf exTable_ok [.text "D_SRC1_HRC1".toList, .num 1, .num 1, .num 1]
    (by simp [exTable]) ("S1".toList, .num 1) (by decide +kernel) (by decide +kernel) 1 rfl
  revert h1
  decide +kernel

/-- **C93 refuted: fractions.** A rating of 9/2 becomes a vote of 4. -/
theorem C93_refuted_fraction :
    ¬ ∀ (t : Table) (d : Dataset String ℚ), TableWf t → convert (fun _ => none) List.dedup exArgs t = .ok d →
      ∀ row p, FirstRow t row p → ∀ kv ∈ t.columns.zip row, ratingColumn kv.1 = true → ∀ x, kv.2 = .num x →
        ∃ dv ∈ d.disVideos, .fin x ∈ videoVotes dv := by
  intro h
  have hf : FirstRow exTable [.text "D_SRC1_HRC1".toList, .num 4, .num (9/2), .num (17/4)] ⟨['D'], "SRC1".toList, "HRC1".toList⟩ := by
    refine ⟨[], _, rfl, ⟨0, _, rfl, rfl, ?_⟩, by simp⟩
    obtain ⟨p, hp, h1, h2, h3⟩ := (getIds_iff (.text "D_SRC1_HRC1".toList) "D_SRC1_HRC1".toList "SRC1".toList "HRC1".toList).mp (by decide +kernel)
    have : p = ⟨['D'], "SRC1".toList, "HRC1".toList⟩ := by
      obtain ⟨db, src, hrc⟩ := p
      dsimp only at h2 h3
      subst h2 h3
      have : db = ['D'] := by
        unfold Pvs.text at h1
        have h0 : "D_SRC1_HRC1".toList = ['D'] ++ '_' :: ("SRC1".toList ++ '_' :: "HRC1".toList) := by decide +kernel
        rw [h0] at h1
        exact (List.append_cancel_right h1).symm
      rw [this]
    rw [← this]
    exact hp
  have h1 := h exTable exDataset exTable_wf exTable_ok _ _ hf ("user2".toList, .num (9/2)) (by decide +kernel) (by decide +kernel) (9/2) rfl
  revert h1
  decide +kernel

/-- the MOS of the example -/
example [MathFn ℚ] : ∃ rd res, rawReader exDataset = .ok rd ∧ runMOS rd {} = .ok res ∧ res.qualityScores.length = 2 := by
  obtain ⟨rd, res, h1, h2, ps, -, -, hv, hq⟩ := C93_mos (a := exArgs) exTable_wf dedup_order (by simp [exTable]) exTable_ok
  refine ⟨rd, res, h1, h2, ?_⟩
  rw [← hq.length_eq, hv.length_eq]
  decide +kernel

/-- **C93.** A missing rating in the first row about a video stops the conversion. -/
theorem C93_missing (hw : TableWf t) (ho : SetOrder iter) {row : List Cell} {p : Pvs} (hf : FirstRow t row p)
    {name : List Char} (hn : ratingColumn name = true) (hm : (name, Cell.nan) ∈ t.columns.zip row) :
    ∃ e, convert int iter a t = .error e := by
  cases hc : convert int iter a t with
  | error e => exact ⟨e, rfl⟩
  | ok d =>
    obtain ⟨l, -, hl⟩ := ((C93_converts hw ho).mp ⟨d, hc⟩).ratings row p hf
    have hmem : (name, Cell.nan) ∈ (t.columns.zip row).filter fun cv => ratingColumn cv.1 := List.mem_filter.mpr ⟨hm, hn⟩
    unfold RowRatings at hl
    obtain ⟨i, hi, he⟩ := List.getElem_of_mem hmem
    have h2 := (List.forall₂_iff_get.mp hl).2 i hi (by rw [← hl.length_eq]; exact hi)
    simp only [List.get_eq_getElem, he] at h2
    cases h2.2

end Sureal.Props
