import Verif.Lemmas.Convert
import Verif.Props.Mos
/-!
# Properties of dataset conversions: C40, C41
-/
set_option linter.unusedSectionVars false
namespace Sureal.Props
open Sureal Spec Conv
variable {κ K : Type}

/-- **C40.** `to_aggregated_dataset`, matching lengths: the call succeeds, the source is unchanged, attributes
and reference videos are kept, and the new distorted videos are the selected ones, in order, each with its own
score (and std), without opinion scores and otherwise as before. -/
theorem C40_aggregated (rd : Reader κ K) (scores : List (Score K)) (kw : AggKw K)
    (hlen : rd.disVideos.length = scores.length)
    (hstd : ∀ l, kw.scoresStd = some l → rd.disVideos.length = l.length) :
    ∃ new, toAggregated rd scores kw = .ok (rd.dataset, new) ∧
      MetaKept rd.dataset new kw.toPrepareKw ∧ new.refVideos = rd.dataset.refVideos ∧
      ∃ out : Fin rd.disVideos.length → DisVideo κ K,
        (∀ i, ∃ s g, scores[i.val]? = some s ∧ GtOf s g ∧
          out i = { rd.disVideos[i] with
            os := none, groundtruth := some g,
            groundtruthStd := match kw.scoresStd with
              | none => rd.disVideos[i].groundtruthStd
              | some l => l[i.val]? }) ∧
        new.disVideos = ((List.finRange rd.disVideos.length).filter fun i =>
          decide (Selected kw.contentIds rd.disVideos[i].contentId ∧
            Selected kw.assetIds rd.disVideos[i].assetId)).map out := by
  have hi : ∀ i : Fin rd.disVideos.length, i.val < scores.length := fun i => hlen ▸ i.isLt
  let out : Fin rd.disVideos.length → DisVideo κ K := fun i =>
    { rd.disVideos[i] with
      os := none, groundtruth := some (scores[i.val]'(hi i)).toGt,
      groundtruthStd := match kw.scoresStd with
        | none => rd.disVideos[i].groundtruthStd
        | some l => l[i.val]? }
  have hbase : selectIds (·.assetId) kw.assetIds (selectIds (·.contentId) kw.contentIds
      ((List.finRange rd.disVideos.length).map out))
      = ((List.finRange rd.disVideos.length).filter fun i =>
          decide (Selected kw.contentIds rd.disVideos[i].contentId ∧
            Selected kw.assetIds rd.disVideos[i].assetId)).map out := by
    cases hc : kw.contentIds <;> cases ha : kw.assetIds <;>
      simp [selectIds, Selected, List.filter_map, List.filter_filter, Function.comp_def, out]
    rw [List.filter_congr]
    intro i _
    exact Bool.and_comm _ _
  have hmid : addStd (List.zipWith aggVideo rd.disVideos scores) kw.scoresStd
      = .ok ((List.finRange rd.disVideos.length).map out) := by
    cases hs : kw.scoresStd with
    | none =>
      unfold addStd
      dsimp only
      congr 1
      apply List.ext_getElem
      · simp [hlen]
      · intro i h1 h2
        simp [out, aggVideo, hs]
    | some l =>
      have hl := hstd l hs
      unfold addStd
      dsimp only
      rw [if_pos (by simp; omega)]
      congr 1
      apply List.ext_getElem
      · simp; omega
      · intro i h1 h2
        have : i < l.length := by simp at h2; omega
        simp [out, aggVideo, hs, List.getElem?_eq_getElem this]
  have hres : ∀ Y, selectIds (·.assetId) kw.assetIds (selectIds (·.contentId) kw.contentIds
      ((List.finRange rd.disVideos.length).map out)) = Y → toAggregated rd scores kw = .ok (rd.dataset,
      { prepare rd.dataset kw.toPrepareKw with refVideos := rd.dataset.refVideos, disVideos := Y }) := by
    rintro Y rfl
    unfold toAggregated
    dsimp only
    rw [if_pos hlen, hmid]
  refine ⟨_, hres _ hbase, ⟨(prepare_meta rd.dataset kw.toPrepareKw).1, (prepare_meta rd.dataset kw.toPrepareKw).2,
    (prepare_meta rd.dataset kw.toPrepareKw).3⟩, rfl, out, ?_, rfl⟩
  intro i
  exact ⟨_, _, List.getElem?_eq_getElem (hi i), toGt_spec _, rfl⟩

/-- **C40.** A list of scores (or of standard deviations) of the wrong length is refused. -/
theorem C40_aggregated_refuses (rd : Reader κ K) (scores : List (Score K)) (kw : AggKw K)
    (h : rd.disVideos.length ≠ scores.length ∨ ∃ l, kw.scoresStd = some l ∧ rd.disVideos.length ≠ l.length) :
    toAggregated rd scores kw = .error .assertion := by
  unfold toAggregated
  dsimp only
  by_cases hl : rd.disVideos.length = scores.length
  · rw [if_pos hl]
    rcases h with h | ⟨l, hs, hne⟩
    · exact absurd hl h
    · rw [hs, addStd, if_neg (by simp; omega)]
  · rw [if_neg hl]

/-- scores of three videos, one selected out by asset id; the dataset has an internal attribute -/
def exAggReader : Reader String ℚ :=
  { dataset := { exSeq with attrs := [("__file__", "x.py"), ("width", "1920"), ("quality_width", "640")] }
    disVideos := exSeq.disVideos
    scores := opinionScores exSeq.disVideos
    observers := listObservers exSeq.disVideos }

example : ∃ new, toAggregated exAggReader [.num (.fin 4), .arr [.fin 2], .arr [.fin 1, .fin 5]]
      { qualityWidth := some "100", scoresStd := some [.fin 1, .fin 0, .nan], assetIds := some [2, 0] }
      = .ok (exAggReader.dataset, new) ∧
    new.attrs = [("width", "1920"), ("quality_width", "100")] ∧
    new.disVideos = [
      { contentId := 0, assetId := 0, path := "r0", os := none, groundtruth := some (.one (.fin 4)),
        groundtruthStd := some (.fin 1) },
      { contentId := 1, assetId := 2, path := "d2", os := none, groundtruth := some (.many [.fin 1, .fin 5]),
        groundtruthStd := some .nan }] :=
  ⟨_, rfl, by decide +kernel, by decide +kernel⟩

section mos
variable [Field K] [LinearOrder K] [IsStrictOrderedRing K] [MathFn K] [LinearOrder κ]

/-- **C40, end to end.** The dataset file produced from a MOS run: every video of the source, in order, without
opinion scores, with the mean of its own votes as groundtruth; the source is unchanged. -/
theorem C40_mos_dataset (d : Dataset κ K) (rd : Reader κ K) (hacc : rawReader d = .ok rd)
    (hstyle : (∀ dv ∈ d.disVideos, SeqStyle dv) ∨ (∀ dv ∈ d.disVideos, DictStyle dv))
    (hs : ∀ dv ∈ d.disVideos, NdarraysSingle dv)
    (hnum : ∀ dv ∈ d.disVideos, ∀ x ∈ videoVotes dv, NumOrNan x) :
    ∃ res new, runMOS rd {} = .ok res ∧ modelToAggregated rd res {} = .ok (d, new) ∧
      new.disVideos.map (fun dv => { dv with groundtruthStd := none }) =
        d.disVideos.map fun dv => { dv with
          os := none, groundtruth := some (.one (meanOrNan (videoVotes dv))), groundtruthStd := none } := by
  obtain ⟨res, h1, h2⟩ := C08_mos_end_to_end d rd hacc hstyle hs hnum
  have hass : assertRaw d = .ok () ∧
      rd = ⟨d, d.disVideos, opinionScores d.disVideos, listObservers d.disVideos⟩ := by
    unfold rawReader at hacc
    split at hacc
    · cases hacc
    · cases hacc; exact ⟨by assumption, rfl⟩
  obtain ⟨hass, rfl⟩ := hass
  obtain ⟨a, ha, hE, -⟩ := C06_no_vote_lost d hass hstyle hs
  have hstd : ∃ l : List (Fl K), res.qualityScoresStd = some l ∧ l.length = d.disVideos.length := by
    rw [runMOS_default ha h1]
    exact ⟨_, rfl, by simp [hE]⟩
  obtain ⟨l, hl, hlen⟩ := hstd
  obtain ⟨new, hn, -, -, out, hout, hdv⟩ := C40_aggregated
    (⟨d, d.disVideos, opinionScores d.disVideos, listObservers d.disVideos⟩ : Reader κ K)
    (res.qualityScores.map .num) { scoresStd := res.qualityScoresStd } (by rw [h2]; simp)
    (by intro l' hl'; rw [hl] at hl'; cases hl'; exact hlen.symm)
  refine ⟨res, new, h1, hn, ?_⟩
  rw [hdv]
  have hsel : ((List.finRange d.disVideos.length).filter fun i =>
      decide (Selected (none : Option (List Int)) d.disVideos[i].contentId ∧
        Selected (none : Option (List Int)) d.disVideos[i].assetId)) = List.finRange d.disVideos.length := by
    apply List.filter_eq_self.mpr
    intro i _
    simp [Selected]
  dsimp only
  rw [hsel]
  apply List.ext_getElem
  · simp
  · intro i h3 h4
    have hi : i < d.disVideos.length := by simpa using h4
    simp only [List.getElem_map, List.getElem_finRange]
    obtain ⟨s, g, hs1, hg, ho⟩ := hout ⟨i, hi⟩
    refine Eq.trans (congrArg (fun v : DisVideo κ K => { v with groundtruthStd := none }) ho) ?_
    rw [h2] at hs1
    simp only [List.map_map, List.getElem?_map, List.getElem?_eq_getElem hi, Option.map_some,
      Option.some.injEq, Function.comp_apply] at hs1
    subst hs1
    rcases hg with ⟨x, hx, rfl⟩ | ⟨xs, hx, _⟩
    · rcases hx with hx | hx
      · cases hx; rfl
      · cases hx
    · cases hx

end mos

/-- **C40.** The filter applied when a dataset file is imported keeps exactly the requested videos. -/
theorem C40_import_filter (d : Dataset κ K) (cids aids : Option (List Int)) :
    (importFilter d cids aids).disVideos =
      d.disVideos.filter (fun dv => decide (Selected cids dv.contentId ∧ Selected aids dv.assetId)) ∧
    (importFilter d cids aids).refVideos = d.refVideos := by
  refine ⟨?_, rfl⟩
  cases cids <;> cases aids <;> simp [importFilter, selectIds, Selected, List.filter_filter]
  apply List.filter_congr
  intro i _
  exact Bool.and_comm _ _

example : ((importFilter exSeq (some [0]) (some [1, 2])).disVideos).map (·.assetId) = [1] := by decide +kernel

section persubject
variable [LinearOrder κ]

/-- **C41.** Per-subject dataset of a dict-style dataset with one repetition: if every entry is exactly one
number, every video is listed once per observer who rated it, in the order of the (sorted) observer list,
with that observer's vote as groundtruth, so that the votes listed for a video are exactly its votes.
Otherwise (an explicit NaN, or an empty list, among the votes) the conversion is refused. -/
theorem C41_persubject_dict (d : Dataset κ K) (rd : Reader κ K) (hacc : rawReader d = .ok rd) (kw : PrepareKw)
    (hdict : ∀ dv ∈ d.disVideos, DictStyle dv) (hs : ∀ dv ∈ d.disVideos, NdarraysSingle dv)
    (hR : maxReps d.disVideos = 1) :
    ∃ obs a, rd.observers = .ok obs ∧ rd.scores = .ok a ∧
      ((∀ dv ∈ d.disVideos, OneVoteEach dv) →
        (∃ new, toPersubject rd (perSubjectRows a) kw = .ok (d, new) ∧
          MetaKept d new kw ∧ new.refVideos = d.refVideos ∧
          new.disVideos = d.disVideos.flatMap fun dv => (obs.filterMap (dictVote dv)).map fun x =>
            { dv with os := none, groundtruth := some (.one x) }) ∧
        ∀ dv ∈ d.disVideos, (obs.filterMap (dictVote dv)).Perm (videoVotes dv)) ∧
      (¬ (∀ dv ∈ d.disVideos, OneVoteEach dv) →
        toPersubject rd (perSubjectRows a) kw = .error .assertion) := by
  obtain ⟨hass, rfl⟩ : assertRaw d = .ok () ∧
      rd = ⟨d, d.disVideos, opinionScores d.disVideos, listObservers d.disVideos⟩ := by
    unfold rawReader at hacc
    split at hacc
    · cases hacc
    · cases hacc; exact ⟨by assumption, rfl⟩
  have w := (C01_accepts_iff_wellFormed d).mp hass
  have hO := listObservers_dict hdict
  have hA := opinionScores_dict w.diss hdict hs
  generalize hobs : uniqueSorted (d.disVideos.flatMap raters) = obs at hO hA
  refine ⟨obs, _, hO, hA, ?_⟩
  rw [hR, perSubjectRows_table d.disVideos (fun dv => obs.map fun o => (dictOf dv).lookup o) obs.length 1
    (fun dv _ => by simp)]
  -- the cells of a video
  let c : DisVideo κ K → List (Fl K) := fun dv => obs.map fun o => (dictVote dv o).getD .nan
  have hc : ∀ dv ∈ d.disVideos, ((obs.map fun o => (dictOf dv).lookup o).map fun o =>
      List.ofFn fun r : Fin 1 => ((optVotes o)[r.val]?).getD .nan) = (c dv).map fun x => [x] := by
    intro dv hdv
    obtain ⟨dd, hdd, hn⟩ := hdict dv hdv
    simp only [c, List.map_map]
    apply List.map_congr_left
    intro o _
    simp only [Function.comp_apply, List.ofFn_succ, List.ofFn_zero, dictVote, hdd, dictOf]
    cases dd.lookup o with
    | none => simp [optVotes]
    | some v => cases hv : votesOf v <;> simp [optVotes, hv]
  have hps : ∀ dv ∈ d.disVideos, psVideo dv (.rows ((obs.map fun o => (dictOf dv).lookup o).map fun o =>
      List.ofFn fun r : Fin 1 => ((optVotes o)[r.val]?).getD .nan)) =
      if (dictOf dv).length = (dropNan (c dv)).length then
        .ok ((dropNan (c dv)).map fun x => { dv with os := none, groundtruth := some (.one x) })
      else .error .assertion := by
    intro dv hdv
    obtain ⟨dd, hdd, hn⟩ := hdict dv hdv
    rw [hc dv hdv, psVideo_dict hdd]
    have : dictOf dv = dd := by simp [dictOf, hdd]
    rw [this]
  -- present votes
  have hle : ∀ dv ∈ d.disVideos, ∀ v ∈ entries dv, (votesOf v).length ≤ 1 := fun dv hdv v hv =>
    hR ▸ le_maxReps hdv hv
  have hperm : ∀ dv ∈ d.disVideos, (dropNan (c dv)).Perm (dropNan (videoVotes dv)) := by
    intro dv hdv
    obtain ⟨e, he⟩ := List.getElem?_of_mem hdv
    have h1 := dict_cells hdict he hobs.symm
    refine List.Perm.trans (List.Perm.of_eq ?_) (h1.filter _)
    obtain ⟨dd, hdd, hn⟩ := hdict dv hdv
    show dropNan (c dv) = dropNan _
    rw [dropNan_flatMap, List.flatMap_map]
    have := cells_present dd obs (by
      intro o v hv
      apply hle dv hdv
      simp only [entries, hdd]
      exact List.mem_map.mpr ⟨(o, v), (lookup_eq_some_iff hn).mp hv, rfl⟩)
    simpa only [c, dictVote, hdd, dictOf] using this
  have hiff : ∀ dv ∈ d.disVideos, ((dictOf dv).length = (dropNan (c dv)).length ↔ OneVoteEach dv) := by
    intro dv hdv
    rw [(hperm dv hdv).length_eq, videoVotes]
    have := (present_count (entries dv) (hle dv hdv)).2
    rw [show (dictOf dv).length = (entries dv).length by rw [entries_dict (hdict dv hdv)]; simp]
    exact this
  have hone : ∀ dv ∈ d.disVideos, OneVoteEach dv → dropNan (c dv) = obs.filterMap (dictVote dv) := by
    intro dv hdv h1
    apply dropNan_getD
    intro o x hx
    obtain ⟨dd, hdd, hn⟩ := hdict dv hdv
    simp only [dictVote, hdd] at hx
    cases hv : dd.lookup o with
    | none => rw [hv] at hx; cases hx
    | some v =>
      rw [hv] at hx
      obtain ⟨y, hy, hne⟩ := h1 v (by
        simp only [entries, hdd]
        exact List.mem_map.mpr ⟨(o, v), (lookup_eq_some_iff hn).mp hv, rfl⟩)
      simp only [Option.bind_some, hy, List.head?_cons, Option.some.injEq] at hx
      rwa [← hx]
  unfold toPersubject
  simp only [zip_map_right', mapPy_map]
  constructor
  · intro hall
    refine ⟨?_, ?_⟩
    · have hm := mapPy_ok (f := fun dv => psVideo dv (.rows ((obs.map fun o => (dictOf dv).lookup o).map fun o =>
        List.ofFn fun r : Fin 1 => ((optVotes o)[r.val]?).getD .nan)))
        (g := fun dv => (obs.filterMap (dictVote dv)).map fun x =>
            { dv with os := none, groundtruth := some (.one x) }) (l := d.disVideos) (by
          intro dv hdv
          rw [hps dv hdv, if_pos ((hiff dv hdv).mpr (hall dv hdv)), hone dv hdv (hall dv hdv)])
      rw [hm]
      exact ⟨_, rfl, ⟨(prepare_meta d kw).1, (prepare_meta d kw).2, (prepare_meta d kw).3⟩, rfl, rfl⟩
    · intro dv hdv
      rw [← hone dv hdv (hall dv hdv), ← dropNan_oneVote (hall dv hdv)]
      exact hperm dv hdv
  · intro hnot
    push Not at hnot
    obtain ⟨dv, hdv, hnot⟩ := hnot
    rw [mapPy_error hdv]
    · intro dv' hdv' e he
      rw [hps dv' hdv'] at he
      split at he
      · cases he
      · cases he; rfl
    · exact ⟨_, by rw [hps dv hdv, if_neg (fun h => hnot ((hiff dv hdv).mp h))]⟩

/-- the per-subject dataset of three observers, two of whom rated the second video -/
def exOne : Dataset String ℚ :=
  { refVideos := [⟨0, "r0", []⟩]
    disVideos := [
      { contentId := 0, assetId := 0, path := "r0", os := some (.dict [("zoe", .one (.fin 5)), ("al", .many .list [.fin 4])]) },
      { contentId := 0, assetId := 1, path := "d1", os := some (.dict [("bo", .one (.fin 2)), ("zoe", .one (.fin 3))]) }] }

example : (∀ dv ∈ exOne.disVideos, DictStyle dv) ∧ (∀ dv ∈ exOne.disVideos, NdarraysSingle dv) ∧
    (∀ dv ∈ exOne.disVideos, OneVoteEach dv) ∧ maxReps exOne.disVideos = 1 := by
  refine ⟨?_, ?_, ?_, by decide +kernel⟩ <;> intro dv hdv <;>
    simp only [exOne, List.mem_cons, List.not_mem_nil, or_false] at hdv <;> rcases hdv with rfl | rfl
  · exact ⟨_, rfl, by decide⟩
  · exact ⟨_, rfl, by decide⟩
  · intro xs hx; simp [entries] at hx
  · intro xs hx; simp [entries] at hx
  · intro v hv; simp [entries] at hv; rcases hv with rfl | rfl <;> exact ⟨_, rfl, by simp⟩
  · intro v hv; simp [entries] at hv; rcases hv with rfl | rfl <;> exact ⟨_, rfl, by simp⟩

example : ∃ rd a new, rawReader exOne = .ok rd ∧ rd.scores = .ok a ∧
    toPersubject rd (perSubjectRows a) {} = .ok (exOne, new) ∧
    new.disVideos.map (fun dv => (dv.assetId, dv.os, dv.groundtruth)) =
      [(0, none, some (.one (.fin 4))), (0, none, some (.one (.fin 5))),
       (1, none, some (.one (.fin 2))), (1, none, some (.one (.fin 3)))] :=
  ⟨_, _, _, rfl, rfl, rfl, by decide +kernel⟩

/-- **C41.** List-style dataset with one repetition: every video is listed once per observer, in order, with
the observer's vote (NaN if the entry holds no number) as groundtruth. -/
theorem C41_persubject_seq (d : Dataset κ K) (rd : Reader κ K) (hacc : rawReader d = .ok rd) (kw : PrepareKw)
    (hseq : ∀ dv ∈ d.disVideos, SeqStyle dv) (hs : ∀ dv ∈ d.disVideos, NdarraysSingle dv)
    (hR : maxReps d.disVideos = 1) :
    ∃ a new, rd.scores = .ok a ∧ toPersubject rd (perSubjectRows a) kw = .ok (d, new) ∧
      MetaKept d new kw ∧ new.refVideos = d.refVideos ∧
      new.disVideos = d.disVideos.flatMap fun dv => (entries dv).map fun v =>
        { dv with os := none, groundtruth := some (.one ((votesOf v).headD .nan)) } := by
  obtain ⟨hass, rfl⟩ : assertRaw d = .ok () ∧
      rd = ⟨d, d.disVideos, opinionScores d.disVideos, listObservers d.disVideos⟩ := by
    unfold rawReader at hacc
    split at hacc
    · cases hacc
    · cases hacc; exact ⟨by assumption, rfl⟩
  have w := (C01_accepts_iff_wellFormed d).mp hass
  obtain ⟨d0, rest, hd⟩ : ∃ d0 rest, d.disVideos = d0 :: rest := by
    cases hd : d.disVideos with
    | nil => exact absurd hd w.diss
    | cons d0 rest => exact ⟨d0, rest, rfl⟩
  have hl : ∀ dv ∈ d0 :: rest, (entries dv).length = (entries d0).length := by
    have := w.sameLen d0 (by simp [hd]) (hseq d0 (by simp [hd]))
    rwa [hd] at this
  have hA := opinionScores_seq (d0 := d0) (rest := rest) (by rwa [hd] at hseq) hl (by rwa [hd] at hs)
  rw [← hd] at hA hl
  have hm := mapPy_ok (f := fun dv => psVideo dv (.rows (((entries dv).map some).map fun o =>
        List.ofFn fun r : Fin 1 => ((optVotes o)[r.val]?).getD .nan)))
        (g := fun dv => (entries dv).map fun v =>
          { dv with os := none, groundtruth := some (.one ((votesOf v).headD .nan)) }) (l := d.disVideos) (by
      intro dv hdv
      obtain ⟨t, l, hos⟩ := hseq dv hdv
      have he : entries dv = l := by simp [entries, hos]
      have hc : ((l.map some).map fun o => List.ofFn fun r : Fin 1 => ((optVotes o)[r.val]?).getD .nan)
          = (l.map fun v => (votesOf v).headD .nan).map fun x => [x] := by
        simp only [List.map_map]
        apply List.map_congr_left
        intro v _
        simp only [Function.comp_apply, List.ofFn_succ, List.ofFn_zero, optVotes]
        cases hv : votesOf v <;> simp
      rw [he, hc, psVideo_seq hos, if_pos (by simp), List.map_map]
      rfl)
  have hres := perSubjectRows_table d.disVideos (fun dv => (entries dv).map some) (entries d0).length 1
      (fun dv hdv => by simp [hl dv hdv])
  rw [hR] at hA
  have : ∃ new, toPersubject (⟨d, d.disVideos, opinionScores d.disVideos, listObservers d.disVideos⟩ : Reader κ K)
      (perSubjectRows (tableArr d.disVideos.length (entries d0).length 1
        (d.disVideos.map fun dv => (entries dv).map some))) kw = .ok (d, new) ∧
      MetaKept d new kw ∧ new.refVideos = d.refVideos ∧
      new.disVideos = d.disVideos.flatMap fun dv => (entries dv).map fun v =>
        { dv with os := none, groundtruth := some (.one ((votesOf v).headD .nan)) } := by
    rw [hres]
    unfold toPersubject
    simp only [zip_map_right', mapPy_map]
    rw [hm]
    exact ⟨_, rfl, ⟨(prepare_meta d kw).1, (prepare_meta d kw).2, (prepare_meta d kw).3⟩, rfl, rfl⟩
  obtain ⟨new, h⟩ := this
  exact ⟨_, new, hA, h⟩

/-- **C41.** With repeated votes the per-subject conversion of a dict-style dataset raises TypeError
(`math.isnan` of an array). -/
theorem C41_persubject_repetitions (d : Dataset κ K) (rd : Reader κ K) (hacc : rawReader d = .ok rd)
    (kw : PrepareKw) (hdict : ∀ dv ∈ d.disVideos, DictStyle dv) (hs : ∀ dv ∈ d.disVideos, NdarraysSingle dv)
    (hR : maxReps d.disVideos ≠ 1) :
    ∃ a, rd.scores = .ok a ∧ toPersubject rd (perSubjectRows a) kw = .error .type := by
  obtain ⟨hass, rfl⟩ : assertRaw d = .ok () ∧
      rd = ⟨d, d.disVideos, opinionScores d.disVideos, listObservers d.disVideos⟩ := by
    unfold rawReader at hacc
    split at hacc
    · cases hacc
    · cases hacc; exact ⟨by assumption, rfl⟩
  have w := (C01_accepts_iff_wellFormed d).mp hass
  have hA := opinionScores_dict w.diss hdict hs
  -- there is an observer
  have hobs : uniqueSorted (d.disVideos.flatMap raters) ≠ [] := by
    intro h
    apply hR
    have he : d.disVideos.flatMap entries = [] := by
      rw [List.flatMap_eq_nil_iff]
      intro dv hdv
      rw [entries_dict (hdict dv hdv), List.map_eq_nil_iff]
      by_contra hne
      obtain ⟨p, hp⟩ := List.exists_mem_of_ne_nil _ hne
      have : p.1 ∈ uniqueSorted (d.disVideos.flatMap raters) := by
        rw [mem_uniqueSorted, List.mem_flatMap]
        exact ⟨dv, hdv, by rw [raters_eq]; exact List.mem_map_of_mem hp⟩
      rw [h] at this
      cases this
    simp [maxReps, he]
  refine ⟨_, hA, ?_⟩
  generalize uniqueSorted (d.disVideos.flatMap raters) = obs at hobs
  rw [perSubjectRows_table d.disVideos (fun dv => obs.map fun o => (dictOf dv).lookup o) obs.length _
    (fun dv _ => by simp)]
  unfold toPersubject
  simp only [zip_map_right', mapPy_map]
  obtain ⟨o, os, rfl⟩ := List.exists_cons_of_ne_nil hobs
  obtain ⟨d0, rest, hd⟩ := List.exists_cons_of_ne_nil w.diss
  obtain ⟨dd, hdd, -⟩ := hdict d0 (by simp [hd])
  generalize hM : maxReps d.disVideos = M at hR
  rw [hd]
  simp only [mapPy, psVideo, hdd, psScores, List.map_cons]
  rw [filterRows_type _ _ (by simpa using hR)]

example : maxReps exDict.disVideos = 2 := by decide +kernel

/-- **C41.** Scores given as plain rows of numbers (as `to_persubject_dataset` documents them): the entries of each video are its
numbers, without the missing ones if the votes are given by name; a row with another number of scores than votes is refused.
Rows beyond the last video, and videos beyond the last row, are left out. -/
theorem C41_flat (rd : Reader κ K) (qs : List (List (Fl K))) (kw : PrepareKw)
    (hos : ∀ dv ∈ rd.disVideos, DictStyle dv ∨ SeqStyle dv) :
    ((∀ p ∈ rd.disVideos.zip qs, (entries p.1).length = (givenScores p.1 p.2).length) →
      ∃ new, toPersubject rd (qs.map .row) kw = .ok (rd.dataset, new) ∧ MetaKept rd.dataset new kw ∧
        new.refVideos = rd.dataset.refVideos ∧
        new.disVideos = (rd.disVideos.zip qs).flatMap fun p => (givenScores p.1 p.2).map fun x =>
          { p.1 with os := none, groundtruth := some (.one x) }) ∧
    ((∃ p ∈ rd.disVideos.zip qs, (entries p.1).length ≠ (givenScores p.1 p.2).length) →
      toPersubject rd (qs.map .row) kw = .error .assertion) := by
  have hps : ∀ p ∈ rd.disVideos.zip qs, psVideo p.1 (.row p.2) =
      if (entries p.1).length = (givenScores p.1 p.2).length then
        .ok ((givenScores p.1 p.2).map fun x => { p.1 with os := none, groundtruth := some (.one x) })
      else .error .assertion := by
    rintro ⟨dv, xs⟩ hp
    dsimp only
    rcases hos dv (List.of_mem_zip hp).1 with h | h
    · obtain ⟨dd, hdd, -⟩ := id h
      rw [show givenScores dv xs = dropNan xs by simp [givenScores, hdd], entries_dict h]
      have h1 : psScores (.dict dd : Os κ K) (.row xs) =
          if dd.length = (dropNan xs).length then .ok ((dropNan xs).map .num) else .error .assertion := rfl
      simp only [psVideo, hdd, h1, List.length_map, dictOf]
      by_cases hl : dd.length = (dropNan xs).length
      · rw [if_pos hl, if_pos hl]
        simp [List.map_map, Function.comp_def, aggVideo, Score.toGt]
      · rw [if_neg hl, if_neg hl]
    · obtain ⟨t, l, hl0⟩ := id h
      rw [show givenScores dv xs = xs by simp [givenScores, hl0]]
      have he : entries dv = l := by simp [entries, hl0]
      rw [he]
      have h1 : psScores (.seq t l : Os κ K) (.row xs) =
          if l.length = xs.length then .ok (xs.map .num) else .error .assertion := rfl
      simp only [psVideo, hl0, h1]
      by_cases hl : l.length = xs.length
      · rw [if_pos hl, if_pos hl]
        simp [List.map_map, Function.comp_def, aggVideo, Score.toGt]
      · rw [if_neg hl, if_neg hl]
  unfold toPersubject
  have hz : rd.disVideos.zip (qs.map PsRow.row) = (rd.disVideos.zip qs).map fun p => (p.1, PsRow.row p.2) := by
    rw [List.zip_map_right]
    rfl
  simp only [hz, mapPy_map]
  constructor
  · intro hall
    have hm := mapPy_ok (f := fun p : DisVideo κ K × List (Fl K) => psVideo p.1 (.row p.2))
      (g := fun p => (givenScores p.1 p.2).map fun x => { p.1 with os := none, groundtruth := some (.one x) })
      (l := rd.disVideos.zip qs) (fun p hp => by rw [hps p hp, if_pos (hall p hp)])
    rw [hm]
    have h := prepare_meta rd.dataset kw
    exact ⟨_, rfl, ⟨h.1, h.2, h.3⟩, rfl, by rw [List.flatMap_def]⟩
  · intro hex
    have key : ∀ l : List (DisVideo κ K × List (Fl K)), (∀ p ∈ l, p ∈ rd.disVideos.zip qs) →
        (∃ p ∈ l, (entries p.1).length ≠ (givenScores p.1 p.2).length) →
        mapPy (fun p : DisVideo κ K × List (Fl K) => psVideo p.1 (.row p.2)) l = .error .assertion := by
      intro l
      induction l with
      | nil => rintro - ⟨p, hp, -⟩; cases hp
      | cons q l ih =>
        intro hsub ⟨p, hp, hne⟩
        unfold mapPy
        rw [hps q (hsub q (by simp))]
        by_cases hq : (entries q.1).length = (givenScores q.1 q.2).length
        · rw [if_pos hq]
          dsimp only
          rcases List.mem_cons.mp hp with rfl | hp
          · exact absurd hq hne
          · rw [ih (fun p hp => hsub p (by simp [hp])) ⟨p, hp, hne⟩]
        · rw [if_neg hq]
    rw [key _ (fun _ h => h) hex]

/-- scores of which the second video misses one -/
example : ∀ dv ∈ exDict.disVideos, DictStyle dv ∨ SeqStyle dv := by
  intro dv hdv
  exact Or.inl (exDict_dictStyle dv hdv)

end persubject

end Sureal.Props
