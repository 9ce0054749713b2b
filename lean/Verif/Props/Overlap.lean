import Verif.Lemmas.Overlap
import Verif.Props.Convert
/-!
# Properties of dataset conversions: C42 (dictionary style), C43 and C44 (combining overlapping datasets)
-/
set_option linter.unusedSectionVars false
namespace Sureal.Props
open Sureal Spec Conv
variable {K : Type}

/-- **C42.** A dictionary-style dataset is returned as it is. -/
theorem C42_dict_as_is (rd : Reader String K) (kw : PrepareKw) (hne : rd.disVideos ≠ [])
    (h : ∀ dv ∈ rd.disVideos, DictStyle dv) : toDictStyle rd kw = .ok (rd.dataset, rd.dataset) := by
  unfold toDictStyle
  cases hd : rd.disVideos with
  | nil => exact absurd hd hne
  | cons d0 rest =>
    obtain ⟨d, h0, -⟩ := h d0 (by simp [hd])
    dsimp only
    rw [h0]
    dsimp only
    rw [if_pos]
    rw [List.all_eq_true]
    intro dv hdv
    obtain ⟨d, h1, -⟩ := h dv (by rw [hd]; exact hdv)
    simp [isDict, h1]

/-- **C42.** A list-style dataset with a name: the source is unchanged; attributes and references are kept;
every video keeps all its fields and its entries in order, the i-th one under the i-th of a list of distinct
subject names (the same names for all videos); the new dataset is accepted by the reader. -/
theorem C42_list_style (d : Dataset String K) (rd : Reader String K) (hacc : rawReader d = .ok rd) (kw : PrepareKw)
    (hseq : ∀ dv ∈ d.disVideos, SeqStyle dv) (n : String) (hname : d.datasetName = some n) :
    ∃ (new : Dataset String K) (name : ℕ → String), toDictStyle rd kw = .ok (d, new) ∧
      MetaKept d new kw ∧ new.refVideos = d.refVideos ∧ Function.Injective name ∧
      new.disVideos = (d.disVideos.map fun dv =>
        { dv with os := some (.dict ((entries dv).mapIdx fun i v => (name i, v))) }) ∧
      (∀ dv ∈ new.disVideos, DictStyle dv) ∧ assertRaw new = .ok () := by
  obtain ⟨hass, rfl⟩ : assertRaw d = .ok () ∧
      rd = ⟨d, d.disVideos, opinionScores d.disVideos, listObservers d.disVideos⟩ := by
    unfold rawReader at hacc
    split at hacc
    · cases hacc
    · cases hacc; exact ⟨by assumption, rfl⟩
  have w := (C01_accepts_iff_wellFormed d).mp hass
  have hm := mapPy_ok (f := dictVideo d.datasetName) (g := fun dv =>
      { dv with os := some (.dict ((entries dv).mapIdx fun i v => (subjName n i, v))) }) (l := d.disVideos) (by
    intro dv hdv
    obtain ⟨t, l, hos⟩ := hseq dv hdv
    rw [hname, dictVideo_seq hos]
    simp [entries, hos])
  have hds : ∀ dv ∈ (d.disVideos.map fun dv =>
      { dv with os := some (.dict ((entries dv).mapIdx fun i v => (subjName n i, v))) }), DictStyle dv := by
    intro dv hdv
    obtain ⟨dv0, _, rfl⟩ := List.mem_map.mp hdv
    exact ⟨_, rfl, named_nodup n _⟩
  have hex : ∃ new : Dataset String K, toDictStyle
      (⟨d, d.disVideos, opinionScores d.disVideos, listObservers d.disVideos⟩ : Reader String K) kw = .ok (d, new) ∧
      MetaKept d new kw ∧ new.refVideos = d.refVideos ∧
      new.disVideos = d.disVideos.map fun dv =>
        { dv with os := some (.dict ((entries dv).mapIdx fun i v => (subjName n i, v))) } := by
    unfold toDictStyle
    dsimp only
    cases hd : d.disVideos with
    | nil => exact absurd hd w.diss
    | cons d0 rest =>
      obtain ⟨t, l, h0⟩ := hseq d0 (by simp [hd])
      dsimp only
      rw [h0]
      dsimp only
      rw [← hd, hm]
      exact ⟨_, rfl, ⟨(prepare_meta d kw).1, (prepare_meta d kw).2, (prepare_meta d kw).3⟩, rfl, rfl⟩
  obtain ⟨new, h1, h2, h3, h4⟩ := hex
  refine ⟨new, subjName n, h1, h2, h3, fun i j h => subjName_inj n h, h4, by rw [h4]; exact hds, ?_⟩
  rw [C01_accepts_iff_wellFormed]
  refine ⟨by rw [h3]; exact w.refs, ?_, by rw [h3]; exact w.nonneg, ?_, ?_, ?_⟩
  · rw [h4]; simpa using w.diss
  · intro dv hdv
    rw [h4] at hdv
    obtain ⟨dv0, h0, rfl⟩ := List.mem_map.mp hdv
    rw [h3]
    exact w.hasRef dv0 h0
  · intro dv hdv
    rw [h4] at hdv
    obtain ⟨_, hos, _⟩ := hds dv hdv
    exact ⟨_, hos, by simp⟩
  · intro d0 hd0 hs0
    have : d0 ∈ new.disVideos := by
      cases hl : new.disVideos with
      | nil => rw [hl] at hd0; cases hd0
      | cons a l => rw [hl] at hd0; cases hd0; simp
    rw [h4] at this
    obtain ⟨_, hos, _⟩ := hds d0 this
    obtain ⟨t, l, hos'⟩ := hs0
    rw [hos] at hos'
    cases hos'

/-- **C42.** Without a `dataset_name` the conversion of a list-style dataset with votes raises. -/
theorem C42_needs_name (d : Dataset String K) (rd : Reader String K) (hacc : rawReader d = .ok rd) (kw : PrepareKw)
    (hseq : ∀ dv ∈ d.disVideos, SeqStyle dv) (hname : d.datasetName = none)
    (hvotes : ∃ dv ∈ d.disVideos, entries dv ≠ []) : toDictStyle rd kw = .error .attribute := by
  obtain ⟨hass, rfl⟩ : assertRaw d = .ok () ∧
      rd = ⟨d, d.disVideos, opinionScores d.disVideos, listObservers d.disVideos⟩ := by
    unfold rawReader at hacc
    split at hacc
    · cases hacc
    · cases hacc; exact ⟨by assumption, rfl⟩
  have w := (C01_accepts_iff_wellFormed d).mp hass
  cases hd : d.disVideos with
  | nil => exact absurd hd w.diss
  | cons d0 rest =>
    have hs0 := hseq d0 (by simp [hd])
    obtain ⟨t, l, h0⟩ := hs0
    obtain ⟨dv, hdv, hne⟩ := hvotes
    have hlen := w.sameLen d0 (by simp [hd]) ⟨t, l, h0⟩ dv hdv
    have he0 : entries d0 = l := by simp [entries, h0]
    rw [he0] at hlen
    have hl : l ≠ [] := by
      rintro rfl
      exact hne (List.length_eq_zero_iff.mp hlen)
    obtain ⟨v, l', rfl⟩ := List.exists_cons_of_ne_nil hl
    unfold toDictStyle
    dsimp only
    simp only [hd, mapPy, h0, dictVideo, hname]

section mos
variable [Field K] [LinearOrder K] [IsStrictOrderedRing K] [MathFn K]

/-- **C42, end to end.** The converted dataset has the same MOS. -/
theorem C42_same_mos (d : Dataset String K) (rd : Reader String K) (hacc : rawReader d = .ok rd) (kw : PrepareKw)
    (hseq : ∀ dv ∈ d.disVideos, SeqStyle dv) (n : String) (hname : d.datasetName = some n)
    (hs : ∀ dv ∈ d.disVideos, NdarraysSingle dv)
    (hnum : ∀ dv ∈ d.disVideos, ∀ x ∈ videoVotes dv, NumOrNan x) :
    ∃ new rd' res res', toDictStyle rd kw = .ok (d, new) ∧ rawReader new = .ok rd' ∧
      runMOS rd {} = .ok res ∧ runMOS rd' {} = .ok res' ∧ res'.qualityScores = res.qualityScores := by
  obtain ⟨new, name, h1, -, -, -, h4, h5, h6⟩ := C42_list_style d rd hacc kw hseq n hname
  obtain ⟨res, hr, hq⟩ := C08_mos_end_to_end d rd hacc (Or.inl hseq) hs hnum
  have hent : ∀ dv ∈ new.disVideos, ∃ dv0 ∈ d.disVideos, entries dv = entries dv0 := by
    intro dv hdv
    rw [h4] at hdv
    obtain ⟨dv0, h0, rfl⟩ := List.mem_map.mp hdv
    refine ⟨dv0, h0, ?_⟩
    exact mapIdx_snd _ _
  have hrd : ∃ rd', rawReader new = .ok rd' := by unfold rawReader; rw [h6]; exact ⟨_, rfl⟩
  obtain ⟨rd', hrd'⟩ := hrd
  obtain ⟨res', hr', hq'⟩ := C08_mos_end_to_end new rd' hrd' (Or.inr h5)
    (by
      intro dv hdv
      obtain ⟨dv0, h0, he⟩ := hent dv hdv
      intro xs hx
      exact hs dv0 h0 xs (he ▸ hx))
    (by
      intro dv hdv x hx
      obtain ⟨dv0, h0, he⟩ := hent dv hdv
      exact hnum dv0 h0 x (by unfold videoVotes at hx ⊢; rwa [← he]))
  refine ⟨new, rd', res, res', h1, hrd', hr, hr', ?_⟩
  rw [hq, hq', h4, List.map_map]
  apply List.map_congr_left
  intro dv _
  simp only [Function.comp_apply, videoVotes]
  congr 2
  exact mapIdx_snd _ _

end mos

/-- the example list-style dataset with a name, converted -/
example : ∃ rd new, rawReader { exSeq with datasetName := some "ds" } = .ok rd ∧
    toDictStyle rd {} = .ok ({ exSeq with datasetName := some "ds" }, new) ∧
    (new.disVideos.map entries) = exSeq.disVideos.map entries :=
  let ⟨rd, hrd⟩ : ∃ rd, rawReader { exSeq with datasetName := some "ds" } = .ok rd := ⟨_, rfl⟩
  let ⟨new, _, h1, _, _, _, h4, _⟩ := C42_list_style { exSeq with datasetName := some "ds" } rd hrd {} (by
      intro dv hdv; simp only [exSeq, List.mem_cons, List.not_mem_nil, or_false] at hdv
      rcases hdv with rfl | rfl | rfl <;> exact ⟨_, _, rfl⟩) "ds" rfl
  ⟨rd, new, hrd, h1, by
    rw [h4, List.map_map]
    apply List.map_congr_left
    intro dv _
    exact mapIdx_snd _ _⟩

theorem plainDict_of {dv : DisVideo String K} (h : DictStyle dv) (hp : PlainEntries dv) : PlainDict dv := by
  obtain ⟨d, hd, hn⟩ := h
  refine ⟨d, hd, hn, fun p hpd => ?_⟩
  exact hp p.2 (by simp only [entries, hd]; exact List.mem_map_of_mem hpd)

/-- **C43 (partial).** Combining two datasets (as dictionary-style datasets `first` and `second`, see C42), when
no list of a first-dataset video is appended to more than once (for instance when no two videos of the second
dataset share a path): the new videos are the pairs with equal paths, in order; each keeps the fields of the
first video, and per subject has the votes of the first followed by those of the second; the content ids are
renumbered 0, 1, ... in order of first use, and the references are those of the contents used, in that order.
Missing: with repeated paths in the second dataset the claim is false, see `C43_refuted`. -/
theorem C43_combined_partial (rd1 rd2 : Reader String K) (kw : PrepareKw) (s1 s2 first second : Dataset String K)
    (h1 : toDictStyle rd1 {} = .ok (s1, first)) (h2 : toDictStyle rd2 {} = .ok (s2, second))
    (hacc : assertRaw first = .ok ())
    (hd1 : ∀ dv ∈ first.disVideos, DictStyle dv ∧ PlainEntries dv)
    (hd2 : ∀ dv ∈ second.disVideos, DictStyle dv ∧ PlainEntries dv)
    (honce : ∀ v1 ∈ first.disVideos,
      (second.disVideos.filter fun v2 => decide (v1.path = v2.path)).length ≤ 1 ∨
      ∀ v2 ∈ second.disVideos, v1.path = v2.path → ¬ Appends v1 v2) :
    let pairs := overlapPairs first.disVideos second.disVideos
    let used := firstUses (pairs.map fun p => p.1.contentId)
    ∃ src1 src2 new, toCombinedOverlap rd1 rd2 kw = .ok (src1, src2, new) ∧ MetaKept rd1.dataset new kw ∧
      List.Forall₂ (fun p nv => ∃ d, nv = { p.1 with
          contentId := (used.idxOf p.1.contentId : Int), os := some (.dict d) } ∧
        (d.map Prod.fst).Nodup ∧ ∀ k, d.lookup k = combineEntry (entryOf p.1 k) (entryOf p.2 k))
        pairs new.disVideos ∧
      new.refVideos.length = used.length ∧
      (∀ (i : ℕ) (c : Int), used[i]? = some c → ∃ r, first.refVideos.find? (fun r => decide (r.contentId = c)) = some r ∧
        new.refVideos[i]? = some { r with contentId := (i : Int) }) ∧
      (pairs ≠ [] → assertRaw new = .ok ()) := by
  intro pairs used
  have w := (C01_accepts_iff_wellFormed first).mp hacc
  have p1 := fun dv hdv => plainDict_of (hd1 dv hdv).1 (hd1 dv hdv).2
  have p2 := fun dv hdv => plainDict_of (hd2 dv hdv).1 (hd2 dv hdv).2
  obtain ⟨firsts, news, e, g⟩ := outer_good first.refVideos second.disVideos p2 first.disVideos p1 honce []
  rw [idsAfter_firstUses] at e g
  have hused : ∀ c ∈ used, ∃ r ∈ first.refVideos, r.contentId = c := by
    intro c hc
    obtain ⟨p, hp, rfl⟩ := List.mem_map.mp ((mem_firstUses _ _).mp hc)
    obtain ⟨v1, hv1, hm⟩ := List.mem_flatMap.mp hp
    obtain ⟨v2, _, rfl⟩ := List.mem_map.mp hm
    exact w.hasRef v1 hv1
  obtain ⟨hlen, hget⟩ := refsFor_get first.refVideos used hused
  have hres : ∃ src1 src2 new, toCombinedOverlap rd1 rd2 kw = .ok (src1, src2, new) ∧ MetaKept rd1.dataset new kw ∧
      new.refVideos = refsFor first.refVideos used ∧ new.disVideos = news := by
    unfold toCombinedOverlap
    rw [h1, h2]
    dsimp only
    have e' : overlapLoop first.refVideos second.disVideos first.disVideos [] [] = _ := e
    rw [e']
    exact ⟨_, _, _, rfl, ⟨(prepare_meta rd1.dataset kw).1, (prepare_meta rd1.dataset kw).2,
      (prepare_meta rd1.dataset kw).3⟩, rfl, rfl⟩
  obtain ⟨src1, src2, new, a1, a2, a3, a4⟩ := hres
  have g' : List.Forall₂ (CombinedAs used) pairs new.disVideos := a4 ▸ g
  refine ⟨src1, src2, new, a1, a2, g', by rw [a3, hlen], by rw [a3]; exact hget, ?_⟩
  intro hne
  rw [C01_accepts_iff_wellFormed]
  have hmem : ∀ nv ∈ new.disVideos, ∃ p ∈ pairs, CombinedAs used p nv := by
    intro nv hnv
    obtain ⟨i, hi, rfl⟩ := List.mem_iff_getElem.mp hnv
    have hl := g'.length_eq
    exact ⟨pairs[i]'(by omega), List.getElem_mem _, g'.get _ _⟩
  have hin : ∀ p ∈ pairs, p.1.contentId ∈ used := fun p hp =>
    (mem_firstUses _ _).mpr (List.mem_map_of_mem (f := fun p => p.1.contentId) hp)
  have hnn : new.disVideos ≠ [] := by
    intro h0
    have := g'.length_eq
    rw [h0] at this
    exact hne (List.length_eq_zero_iff.mp this)
  have hgetU : ∀ c ∈ used, ∃ r ∈ new.refVideos, r.contentId = (used.idxOf c : Int) := by
    intro c hc
    have hi : used.idxOf c < used.length := List.idxOf_lt_length_of_mem hc
    obtain ⟨r, _, hr⟩ := hget (used.idxOf c) c (by
      rw [List.getElem?_eq_getElem hi, List.getElem_idxOf])
    rw [← a3] at hr
    exact ⟨_, List.mem_of_getElem? hr, rfl⟩
  refine ⟨?_, hnn, ?_, ?_, ?_, ?_⟩
  · obtain ⟨p, hp⟩ := List.exists_mem_of_ne_nil _ hne
    obtain ⟨r, hr, _⟩ := hgetU _ (hin p hp)
    exact List.ne_nil_of_mem hr
  · intro r hr
    obtain ⟨i, hi, rfl⟩ := List.mem_iff_getElem.mp hr
    have hi' : i < used.length := by rw [a3, hlen] at hi; exact hi
    obtain ⟨r', _, hr'⟩ := hget i used[i] (List.getElem?_eq_getElem hi')
    rw [← a3, List.getElem?_eq_getElem hi] at hr'
    have hr'' := Option.some.inj hr'
    rw [hr'']
    exact Int.natCast_nonneg i
  · intro nv hnv
    obtain ⟨p, hp, d, rfl, -, -⟩ := hmem nv hnv
    exact hgetU _ (hin p hp)
  · intro nv hnv
    obtain ⟨p, hp, d, rfl, -, -⟩ := hmem nv hnv
    exact ⟨_, rfl, by simp⟩
  · intro d0 hd0 hs0
    have : d0 ∈ new.disVideos := by
      cases hl : new.disVideos with
      | nil => rw [hl] at hd0; cases hd0
      | cons a l => rw [hl] at hd0; cases hd0; simp
    obtain ⟨p, hp, d, rfl, -, -⟩ := hmem d0 this
    obtain ⟨t, l, hos⟩ := hs0
    cases hos


/-- a distorted video of content 7 with the given asset id, path and dictionary of scores -/
def ovVideo (i : Int) (p : String) (d : List (String × Vote ℚ)) : DisVideo String ℚ where
  contentId := 7
  assetId := i
  path := p
  os := some (.dict d)
  groundtruth := none
  groundtruthStd := none
  extra := []

/-- a dictionary-style dataset with one reference (content 7) and the given videos -/
def ovData (vs : List (DisVideo String ℚ)) : Dataset String ℚ where
  refVideos := [⟨7, "ref", []⟩]
  disVideos := vs
  refScore := none
  datasetName := none
  attrs := []

/-- two small datasets sharing the path "p": Ann voted in both, Bob only in the first, Cy only in the second -/
def ovFirst : Dataset String ℚ :=
  ovData [ovVideo 0 "q" [("Ann", .one (.fin 5))],
    ovVideo 1 "p" [("Ann", .many .list [.fin 1, .fin 2]), ("Bob", .one (.fin 3))]]

def ovSecond : Dataset String ℚ := ovData [ovVideo 0 "p" [("Cy", .one (.fin 4)), ("Ann", .one (.fin 5))]]

/-- the second dataset lists the path "p" twice -/
def ovTwice : Dataset String ℚ :=
  ovData [ovVideo 0 "p" [("Ann", .one (.fin 5))], ovVideo 1 "p" [("Ann", .one (.fin 4))]]

theorem ovFirst_plain : ∀ dv ∈ ovFirst.disVideos, DictStyle dv ∧ PlainEntries dv := by
  intro dv hdv
  simp only [ovFirst, ovData, List.mem_cons, List.not_mem_nil, or_false] at hdv
  rcases hdv with rfl | rfl
  · exact ⟨⟨_, rfl, by decide⟩, by intro v hv; simp [entries, ovVideo] at hv; simp [hv]⟩
  · exact ⟨⟨_, rfl, by decide⟩, by
      intro v hv
      simp [entries, ovVideo] at hv
      rcases hv with rfl | rfl <;> simp⟩

theorem ovSecond_plain : ∀ dv ∈ ovSecond.disVideos, DictStyle dv ∧ PlainEntries dv := by
  intro dv hdv
  simp only [ovSecond, ovData, List.mem_cons, List.not_mem_nil, or_false] at hdv
  rcases hdv with rfl
  exact ⟨⟨_, rfl, by decide⟩, by
      intro v hv
      simp [entries, ovVideo] at hv
      rcases hv with rfl | rfl <;> simp⟩

/-- the hypotheses of `C43_combined_partial` hold of them -/
example : ∃ rd1 rd2, rawReader ovFirst = .ok rd1 ∧ rawReader ovSecond = .ok rd2 ∧
    ∃ src1 src2 new, toCombinedOverlap rd1 rd2 {} = .ok (src1, src2, new) ∧ assertRaw new = .ok () := by
  refine ⟨_, _, rfl, rfl, ?_⟩
  obtain ⟨a, b, c, h, -, -, -, -, hw⟩ := C43_combined_partial (K := ℚ)
    ⟨ovFirst, ovFirst.disVideos, opinionScores ovFirst.disVideos, listObservers ovFirst.disVideos⟩
    ⟨ovSecond, ovSecond.disVideos, opinionScores ovSecond.disVideos, listObservers ovSecond.disVideos⟩ {}
    ovFirst ovSecond ovFirst ovSecond
    (C42_dict_as_is _ _ (by simp [ovFirst, ovData]) fun dv hdv => (ovFirst_plain dv hdv).1)
    (C42_dict_as_is _ _ (by simp [ovSecond, ovData]) fun dv hdv => (ovSecond_plain dv hdv).1)
    rfl ovFirst_plain ovSecond_plain (fun v1 _ => .inl (List.length_filter_le _ _))
  exact ⟨a, b, c, h, hw (by simp [overlapPairs, ovFirst, ovSecond, ovData, ovVideo])⟩

/-- and the combined votes, content ids and references are as expected -/
example : ∃ rd1 rd2 src1 src2 new, rawReader ovFirst = .ok rd1 ∧ rawReader ovSecond = .ok rd2 ∧
    toCombinedOverlap rd1 rd2 {} = .ok (src1, src2, new) ∧
    new.disVideos.map (fun v => v.os) = [some (.dict [("Ann", .many .list [.fin 1, .fin 2, .fin 5]),
      ("Bob", .one (.fin 3)), ("Cy", .one (.fin 4))])] ∧
    new.disVideos.map (fun v => v.contentId) = [0] ∧ new.refVideos.map (fun v => v.contentId) = [0] := by
  refine ⟨_, _, _, _, _, rfl, rfl, rfl, ?_, ?_, ?_⟩ <;> rfl

/-- **C43, refuted.** Two well-formed dictionary-style datasets for which a combined video does not have the
votes of its two videos: the second dataset lists a path twice, with votes 5 and 4 of Ann; the first combined
video has Ann's votes 1, 2, 5, 4, because both appends go to the one list of the first dataset. -/
theorem C43_refuted : ∃ rd1 rd2 src1 src2 new, rawReader ovFirst = .ok rd1 ∧ rawReader ovTwice = .ok rd2 ∧
    toCombinedOverlap rd1 rd2 {} = .ok (src1, src2, new) ∧
    (overlapPairs ovFirst.disVideos ovTwice.disVideos).map
      (fun p => combineEntry (entryOf p.1 "Ann") (entryOf p.2 "Ann")) =
        [some (.many .list [.fin 1, .fin 2, .fin 5]), some (.many .list [.fin 1, .fin 2, .fin 4])] ∧
    new.disVideos.map (fun nv => entryOf nv "Ann") =
        [some (.many .list [.fin 1, .fin 2, .fin 5, .fin 4]), some (.many .list [.fin 1, .fin 2, .fin 5, .fin 4])] := by
  refine ⟨_, _, _, _, _, rfl, rfl, rfl, ?_, ?_⟩ <;> rfl

/-- **C44, refuted.** Combining two datasets changes the first one: Ann's list `[1, 2]` becomes `[1, 2, 5]`. -/
theorem C44_refuted : ∃ rd1 rd2 src1 src2 new, rawReader ovFirst = .ok rd1 ∧ rawReader ovSecond = .ok rd2 ∧
    toCombinedOverlap rd1 rd2 {} = .ok (src1, src2, new) ∧
    rd1.dataset.disVideos.map (fun v => entryOf v "Ann") =
      [some (.one (.fin 5)), some (.many .list [.fin 1, .fin 2])] ∧
    src1.disVideos.map (fun v => entryOf v "Ann") =
      [some (.one (.fin 5)), some (.many .list [.fin 1, .fin 2, .fin 5])] := by
  refine ⟨_, _, _, _, _, rfl, rfl, rfl, ?_, ?_⟩ <;> rfl

theorem toDict_copies (d : Dataset String K) (rd : Reader String K) (hacc : rawReader d = .ok rd)
    (hstyle : (∀ dv ∈ d.disVideos, DictStyle dv) ∨ (∀ dv ∈ d.disVideos, SeqStyle dv) ∧ d.datasetName ≠ none) :
    ∃ new, toDictStyle rd {} = .ok (d, new) ∧ List.Forall₂ IsCopy d.disVideos new.disVideos ∧
      (∀ dv ∈ new.disVideos, DictStyle dv) ∧ new.disVideos.map entries = d.disVideos.map entries := by
  rcases hstyle with h | ⟨h, hn⟩
  · obtain ⟨hass, rfl⟩ : assertRaw d = .ok () ∧
        rd = ⟨d, d.disVideos, opinionScores d.disVideos, listObservers d.disVideos⟩ := by
      unfold rawReader at hacc
      split at hacc
      · cases hacc
      · cases hacc; exact ⟨by assumption, rfl⟩
    refine ⟨d, C42_dict_as_is _ {} ((C01_accepts_iff_wellFormed d).mp hass).diss h, ?_, h, rfl⟩
    rw [List.forall₂_same]
    intro dv hdv
    obtain ⟨e, he, -⟩ := h dv hdv
    exact .inl ⟨⟨e, he⟩, rfl⟩
  · obtain ⟨n, hname⟩ := Option.ne_none_iff_exists'.mp hn
    obtain ⟨new, name, h1, -, -, -, h4, h5, -⟩ := C42_list_style d rd hacc {} h n hname
    refine ⟨new, h1, ?_, h5, ?_⟩
    · rw [h4, List.forall₂_map_right_iff, List.forall₂_same]
      intro dv hdv
      obtain ⟨t, l, he⟩ := h dv hdv
      exact .inr ⟨t, l, _, he, rfl, by rw [mapIdx_snd]; simp [entries, he]⟩
    · rw [h4, List.map_map]
      apply List.map_congr_left
      intro dv _
      exact mapIdx_snd _ _

/-- **C44 (partial).** Combining two accepted datasets whose entries are numbers and lists leaves the second
dataset as it was, and leaves the first dataset as it was exactly when there is no pair of videos with the same
path and a subject whose entry is a list in the first and a number in the second.
Missing: the property claims it for all datasets; it is false for the rest, by this theorem and `C44_refuted`. -/
theorem C44_unchanged_iff_partial (d1 d2 : Dataset String K) (rd1 rd2 : Reader String K)
    (hacc1 : rawReader d1 = .ok rd1) (hacc2 : rawReader d2 = .ok rd2) (kw : PrepareKw)
    (hs1 : (∀ dv ∈ d1.disVideos, DictStyle dv) ∨ (∀ dv ∈ d1.disVideos, SeqStyle dv) ∧ d1.datasetName ≠ none)
    (hs2 : (∀ dv ∈ d2.disVideos, DictStyle dv) ∨ (∀ dv ∈ d2.disVideos, SeqStyle dv) ∧ d2.datasetName ≠ none)
    (hp1 : ∀ dv ∈ d1.disVideos, PlainEntries dv) (hp2 : ∀ dv ∈ d2.disVideos, PlainEntries dv) :
    ∃ first second src1 new, toDictStyle rd1 {} = .ok (d1, first) ∧ toDictStyle rd2 {} = .ok (d2, second) ∧
      toCombinedOverlap rd1 rd2 kw = .ok (src1, d2, new) ∧
      (src1 = d1 ↔ ∀ v1 ∈ first.disVideos, ∀ v2 ∈ second.disVideos, v1.path = v2.path → ¬ Appends v1 v2) := by
  obtain ⟨first, a1, a2, a3, a4⟩ := toDict_copies d1 rd1 hacc1 hs1
  obtain ⟨second, b1, b2, b3, b4⟩ := toDict_copies d2 rd2 hacc2 hs2
  have hplain : ∀ {d n : Dataset String K}, (∀ dv ∈ d.disVideos, PlainEntries dv) →
      n.disVideos.map entries = d.disVideos.map entries → ∀ dv ∈ n.disVideos, PlainEntries dv := by
    intro d n h e dv hdv v hv
    have : entries dv ∈ d.disVideos.map entries := e ▸ List.mem_map_of_mem hdv
    obtain ⟨dv', hdv', e'⟩ := List.mem_map.mp this
    exact h dv' hdv' v (e' ▸ hv)
  have q1 := fun dv hdv => plainDict_of (a3 dv hdv) (hplain hp1 a4 dv hdv)
  have q2 := fun dv hdv => plainDict_of (b3 dv hdv) (hplain hp2 b4 dv hdv)
  obtain ⟨firsts, refs', news, e, g⟩ := outer_any first.refVideos second.disVideos q2 first.disVideos q1 [] []
  have e1 : rd1.dataset = d1 := by
    unfold rawReader at hacc1
    split at hacc1
    · cases hacc1
    · cases hacc1; rfl
  have e2 : rd2.dataset = d2 := by
    unfold rawReader at hacc2
    split at hacc2
    · cases hacc2
    · cases hacc2; rfl
  have hres : ∃ src1 new, toCombinedOverlap rd1 rd2 kw = .ok (src1, d2, new) ∧
      src1 = { d1 with disVideos := List.zipWith sourceVideo d1.disVideos firsts } := by
    unfold toCombinedOverlap
    rw [a1, b1]
    dsimp only
    rw [e]
    dsimp only
    rw [e1, e2]
    exact ⟨_, _, rfl, rfl⟩
  obtain ⟨src1, new, r1, rfl⟩ := hres
  refine ⟨first, second, _, new, a1, b1, r1, ?_⟩
  rw [← zip_source_iff a2 g]
  constructor
  · intro h; exact congrArg Dataset.disVideos h
  · intro h; rw [h]

/-- the two example datasets meet the hypotheses -/
example : ∃ rd1 rd2, rawReader ovFirst = .ok rd1 ∧ rawReader ovSecond = .ok rd2 ∧
    ∃ src1 new, toCombinedOverlap rd1 rd2 {} = .ok (src1, ovSecond, new) := by
  refine ⟨_, _, rfl, rfl, ?_⟩
  obtain ⟨-, -, a, b, -, -, h, -⟩ := C44_unchanged_iff_partial ovFirst ovSecond _ _ rfl rfl {}
    (.inl fun dv hdv => (ovFirst_plain dv hdv).1) (.inl fun dv hdv => (ovSecond_plain dv hdv).1)
    (fun dv hdv => (ovFirst_plain dv hdv).2) (fun dv hdv => (ovSecond_plain dv hdv).2)
  exact ⟨a, b, h⟩

end Sureal.Props
