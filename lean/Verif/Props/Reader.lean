import Verif.Lemmas.Dataset
import Mathlib.Data.List.Range
/-!
# Properties of the raw dataset reader: C01 – C06
-/
namespace Sureal.Props
open Sureal Spec
variable {κ K : Type}

/-- **C01.** Constructing a raw dataset reader succeeds exactly on the well-formed datasets. -/
theorem C01_accepts_iff_wellFormed (d : Dataset κ K) : assertRaw d = .ok () ↔ WellFormed d := by
  unfold assertRaw
  constructor
  · intro h
    split at h
    · simp at h
    · rename_i h0
      obtain ⟨a1, a2, a3⟩ := (assertDataset_ok d).mp h0
      split at h
      · rename_i h1
        have hos : ∀ dv ∈ d.disVideos, ∃ os, dv.os = some os ∧ os ≠ .other := by
          intro dv hdv
          have := List.all_eq_true.mp h1 dv hdv
          cases ho : dv.os with
          | none => simp [ho] at this
          | some os => exact ⟨os, rfl, by rintro rfl; simp [ho, Os.iterable] at this⟩
        split at h
        · simp at h
        · rename_i d0 rest hd
          refine ⟨a1, by simp [hd], a2, a3, hos, ?_⟩
          intro d0' hd0' hseq dv hdv
          rw [hd] at hd0' hdv
          simp only [List.head?_cons, Option.some.injEq] at hd0'
          subst hd0'
          obtain ⟨t, l, hl⟩ := hseq
          simp only [hl] at h
          split at h
          · rename_i h2
            rcases List.mem_cons.mp hdv with rfl | hdv'
            · rfl
            · have := List.all_eq_true.mp h2 dv hdv'
              obtain ⟨os, ho, _⟩ := hos dv (by rw [hd]; exact hdv)
              rw [entries_length ho, entries_length hl]
              simp only [ho, decide_eq_true_eq] at this
              exact this.symm
          · simp at h
      · simp at h
  · intro w
    have h0 := (assertDataset_ok d).mpr ⟨w.refs, w.nonneg, w.hasRef⟩
    rw [h0]
    dsimp only
    rw [if_pos]
    · cases hd : d.disVideos with
      | nil => exact absurd hd w.diss
      | cons d0 rest =>
        dsimp only
        split
        · rename_i t l hl
          rw [if_pos]
          rw [List.all_eq_true]
          intro dv hdv
          obtain ⟨os, ho, _⟩ := w.hasOs dv (by rw [hd]; simp [hdv])
          have := w.sameLen d0 (by simp [hd]) ⟨t, l, hl⟩ dv (by rw [hd]; simp [hdv])
          rw [entries_length ho, entries_length hl] at this
          simp only [ho, decide_eq_true_eq]
          exact this.symm
        · rfl
    · rw [List.all_eq_true]
      intro dv hdv
      obtain ⟨os, ho, hne⟩ := w.hasOs dv hdv
      rw [ho]
      cases os <;> simp_all [Os.iterable]

/-- A small sequence-style dataset used to show that hypotheses are satisfiable: two contents, three
videos, two observers, repetitions, missing votes. -/
def exSeq : Dataset String ℚ :=
  { refVideos := [⟨0, "r0", []⟩, ⟨1, "r1", []⟩]
    disVideos := [
      { contentId := 0, assetId := 0, path := "r0", os := some (.seq false [.one (.fin 5), .many .list [.fin 4, .fin 5]]) },
      { contentId := 0, assetId := 1, path := "d1", os := some (.seq true [.one .nan, .many .tuple [.fin 2]]) },
      { contentId := 1, assetId := 2, path := "d2", os := some (.seq false [.one (.fin 1), .many .list []]) }]
    refScore := some (some (.fin 5)) }

/-- A small dict-style dataset: three observers, none of whom rated everything. -/
def exDict : Dataset String ℚ :=
  { refVideos := [⟨0, "r0", []⟩]
    disVideos := [
      { contentId := 0, assetId := 0, path := "r0", os := some (.dict [("zoe", .one (.fin 5)), ("al", .many .list [.fin 4, .fin 5])]) },
      { contentId := 0, assetId := 1, path := "d1", os := some (.dict [("bo", .one (.fin 2)), ("zoe", .one (.fin 3))]) }] }

example : assertRaw exSeq = .ok () ∧ assertRaw exDict = .ok () := by decide +kernel
example : WellFormed exSeq := (C01_accepts_iff_wellFormed _).mp (by decide +kernel)
/-- a dataset whose second video has too few entries is refused -/
example : assertRaw { exSeq with disVideos := exSeq.disVideos ++
    [{ contentId := 0, assetId := 3, path := "x", os := some (.seq false [.one (.fin 3)]) }] }
    = .error .assertion := by decide +kernel

/-- **C02 (refuted).** The reader accepts reference content ids with a gap, although the source comment
promises "content id is from 0 to the total_content - 1". -/
theorem C02_contiguous_ids_refuted :
    ∃ d : Dataset String ℚ, assertRaw d = .ok () ∧
      ¬ (d.refVideos.map (·.contentId)).Perm ((List.range d.refVideos.length).map (fun n : ℕ => (n : Int))) ∧
      d.refVideos.map (·.contentId) = [0, 2] :=
  ⟨{ refVideos := [⟨0, "a", []⟩, ⟨2, "b", []⟩]
     disVideos := [{ contentId := 2, assetId := 0, path := "x", os := some (.seq false [.one (.fin 3)]) }] },
    by decide +kernel, by decide +kernel, by decide +kernel⟩

/-- Duplicated reference content ids are accepted as well. -/
theorem C02_duplicate_ids_refuted :
    ∃ d : Dataset String ℚ, assertRaw d = .ok () ∧ ¬ (d.refVideos.map (·.contentId)).Nodup :=
  ⟨{ refVideos := [⟨0, "a", []⟩, ⟨0, "b", []⟩]
     disVideos := [{ contentId := 0, assetId := 0, path := "x", os := some (.seq false [.one (.fin 3)]) }] },
    by decide +kernel, by decide +kernel⟩

/-- **C02 (partial).** What acceptance does give.  Full claim: the ids are exactly `0..n-1`.  Proved: ids are
never negative, every distorted video's id is among them, and *if* in addition there is no duplicate and
no id exceeds `n-1`, the ids are exactly `0..n-1`.  Missing (false of the code): that duplicates and gaps
are refused. -/
theorem C02_content_ids_partial (d : Dataset κ K) (h : assertRaw d = .ok ()) :
    (∀ r ∈ d.refVideos, 0 ≤ r.contentId) ∧
    (∀ dv ∈ d.disVideos, ∃ r ∈ d.refVideos, r.contentId = dv.contentId) ∧
    ((d.refVideos.map (·.contentId)).Nodup → (∀ r ∈ d.refVideos, r.contentId < d.refVideos.length) →
      (d.refVideos.map (·.contentId)).Perm ((List.range d.refVideos.length).map (fun n : ℕ => (n : Int)))) := by
  have w := (C01_accepts_iff_wellFormed d).mp h
  refine ⟨w.nonneg, w.hasRef, fun hn hlt => ?_⟩
  have hsub : (d.refVideos.map (·.contentId)).Subperm
      ((List.range d.refVideos.length).map (fun n : ℕ => (n : Int))) := by
    apply hn.subperm
    intro x hx
    obtain ⟨r, hr, rfl⟩ := List.mem_map.mp hx
    refine List.mem_map.mpr ⟨r.contentId.toNat, ?_, Int.toNat_of_nonneg (w.nonneg r hr)⟩
    have h1 := w.nonneg r hr
    have h2 := hlt r hr
    rw [List.mem_range]; omega
  exact hsub.perm_of_length_le (by simp)

example : (exSeq.refVideos.map (·.contentId)).Nodup ∧ ∀ r ∈ exSeq.refVideos, r.contentId < exSeq.refVideos.length := by
  decide +kernel

variable [LinearOrder κ]

/-- **C03.** The opinion score array of an accepted sequence-style dataset: its shape, every vote in its
cell, NaN elsewhere.  (An ndarray entry that does not hold exactly one number makes numpy raise
`ValueError`.) -/
theorem C03_seq_cells (d : Dataset κ K) (hacc : assertRaw d = .ok ())
    (hseq : ∀ dv ∈ d.disVideos, SeqStyle dv) :
    ((∀ dv ∈ d.disVideos, NdarraysSingle dv) →
      ∃ a, opinionScores d.disVideos = .ok a ∧
        a.E = d.disVideos.length ∧
        (∀ dv ∈ d.disVideos, a.S = (entries dv).length) ∧
        a.R = maxReps d.disVideos ∧
        ∀ (e : Fin a.E) (s : Fin a.S) (r : Fin a.R) (dv : DisVideo κ K), d.disVideos[e.val]? = some dv →
          a.get e s r = (seqVote? dv s r).getD .nan) ∧
    (¬ (∀ dv ∈ d.disVideos, NdarraysSingle dv) → opinionScores d.disVideos = .error .value) := by
  have w := (C01_accepts_iff_wellFormed d).mp hacc
  cases hd : d.disVideos with
  | nil => exact absurd hd w.diss
  | cons d0 rest =>
    rw [hd] at hseq
    have hl : ∀ dv ∈ d0 :: rest, (entries dv).length = (entries d0).length := by
      have := w.sameLen d0 (by simp [hd]) (hseq d0 (by simp))
      rwa [hd] at this
    refine ⟨fun hs => ⟨_, opinionScores_seq hseq hl hs, rfl, fun dv hdv => (hl dv hdv).symm, rfl, ?_⟩,
      fun hs => opinionScores_seq_err hseq hl hs⟩
    intro e s r dv hdv
    refine (tableArr_get _ e s r).trans ?_
    simp only [List.getElem?_map, hdv, Option.map_some, Option.bind_some]
    have hmem : dv ∈ d0 :: rest := List.mem_of_getElem? hdv
    have hs' : s.val < (entries dv).length := by
      have := s.isLt
      have h2 := hl dv hmem
      simp only [tableArr] at this
      omega
    simp [seqVote?, List.getElem?_eq_getElem hs']

example : (∀ dv ∈ exSeq.disVideos, SeqStyle dv) ∧ (∀ dv ∈ exSeq.disVideos, NdarraysSingle dv) := by
  refine ⟨?_, ?_⟩ <;> intro dv hdv <;> simp only [exSeq, List.mem_cons, List.not_mem_nil, or_false] at hdv <;>
    rcases hdv with rfl | rfl | rfl
  · exact ⟨_, _, rfl⟩
  · exact ⟨_, _, rfl⟩
  · exact ⟨_, _, rfl⟩
  all_goals intro xs hx; simp [entries] at hx

/-- the array of the example, cell by cell -/
example : ∃ a, opinionScores exSeq.disVideos = .ok a ∧ (a.E, a.S, a.R) = (3, 2, 2) ∧
    ravel3 a.get = [.fin 5, .nan, .fin 4, .fin 5, .nan, .nan, .fin 2, .nan, .fin 1, .nan, .nan, .nan] :=
  ⟨_, rfl, by decide +kernel, by decide +kernel⟩

/-- **C04.** The opinion score array of an accepted dict-style dataset: rows are videos, columns the observers
in the order of the observer list (see C05), and a cell holds the observer's vote or NaN. -/
theorem C04_dict_cells (d : Dataset κ K) (hacc : assertRaw d = .ok ())
    (hdict : ∀ dv ∈ d.disVideos, DictStyle dv) :
    ((∀ dv ∈ d.disVideos, NdarraysSingle dv) →
      ∃ obs a, listObservers d.disVideos = .ok obs ∧ opinionScores d.disVideos = .ok a ∧
        a.E = d.disVideos.length ∧ a.S = obs.length ∧ a.R = maxReps d.disVideos ∧
        ∀ (e : Fin a.E) (s : Fin a.S) (r : Fin a.R) (dv : DisVideo κ K) (o : κ),
          d.disVideos[e.val]? = some dv → obs[s.val]? = some o →
          (∀ x, IsDictVote dv o r x → a.get e s r = x) ∧
          ((¬ ∃ x, IsDictVote dv o r x) → a.get e s r = .nan)) ∧
    (¬ (∀ dv ∈ d.disVideos, NdarraysSingle dv) → opinionScores d.disVideos = .error .value) := by
  have w := (C01_accepts_iff_wellFormed d).mp hacc
  refine ⟨fun hs => ⟨_, _, listObservers_dict hdict, opinionScores_dict w.diss hdict hs, rfl, rfl, rfl, ?_⟩,
    fun hs => opinionScores_dict_err hdict hs⟩
  intro e s r dv o hdv ho
  have hmem : dv ∈ d.disVideos := List.mem_of_getElem? hdv
  obtain ⟨dd, hdd, hn⟩ := hdict dv hmem
  have hdo : dictOf dv = dd := by simp [dictOf, hdd]
  have hget : (tableArr d.disVideos.length (uniqueSorted (d.disVideos.flatMap raters)).length (maxReps d.disVideos)
      (d.disVideos.map fun dv => (uniqueSorted (d.disVideos.flatMap raters)).map fun o => (dictOf dv).lookup o)).get e s r
      = match dd.lookup o with
        | some v => ((votesOf v)[r.val]?).getD .nan
        | none => .nan := by
    refine (tableArr_get _ e s r).trans ?_
    simp only [List.getElem?_map, hdv, Option.map_some, Option.bind_some, ho, Option.join_some, hdo]
    cases dd.lookup o <;> rfl
  refine ⟨?_, ?_⟩
  · rintro x ⟨d', v, hd', hv, hx⟩
    rw [hdd] at hd'
    cases hd'
    rw [hget, (lookup_eq_some_iff hn).mpr hv]
    simp [hx]
  · intro hno
    rw [hget]
    cases hv : dd.lookup o with
    | none => rfl
    | some v =>
      dsimp only
      cases hx : (votesOf v)[r.val]? with
      | none => rfl
      | some x => exact absurd ⟨x, dd, v, hdd, (lookup_eq_some_iff hn).mp hv, hx⟩ hno

theorem exDict_dictStyle : ∀ dv ∈ exDict.disVideos, DictStyle dv := by
  intro dv hdv
  simp only [exDict, List.mem_cons, List.not_mem_nil, or_false] at hdv
  rcases hdv with rfl | rfl <;> exact ⟨_, rfl, by decide⟩

example : (∀ dv ∈ exDict.disVideos, DictStyle dv) ∧ (∀ dv ∈ exDict.disVideos, NdarraysSingle dv) := by
  refine ⟨exDict_dictStyle, ?_⟩
  intro dv hdv
  simp only [exDict, List.mem_cons, List.not_mem_nil, or_false] at hdv
  rcases hdv with rfl | rfl <;> intro xs hx <;> simp [entries] at hx

/-- the array of the example: observers al, bo, zoe -/
example : ∃ a, opinionScores exDict.disVideos = .ok a ∧ (a.E, a.S, a.R) = (2, 3, 2) ∧
    ravel3 a.get = [.fin 4, .fin 5, .nan, .nan, .fin 5, .nan, .nan, .nan, .fin 2, .nan, .fin 3, .nan] :=
  ⟨_, rfl, by decide +kernel, by decide +kernel⟩

/-- **C05.** The observer list is strictly increasing and contains exactly the raters; reordering the entries
of any `os` dict changes neither the list nor the array (nor whether reading raises). -/
theorem C05_observers (dvs : List (DisVideo κ K)) (hdict : ∀ dv ∈ dvs, DictStyle dv) :
    (∃ obs, listObservers dvs = .ok obs ∧ obs.Pairwise (· < ·) ∧
      ∀ o, o ∈ obs ↔ ∃ dv ∈ dvs, o ∈ raters dv) ∧
    ∀ dvs', List.Forall₂ DictReorder dvs dvs' →
      listObservers dvs' = listObservers dvs ∧ opinionScores dvs' = opinionScores dvs := by
  refine ⟨⟨_, listObservers_dict hdict, uniqueSorted_sorted _, fun o => ?_⟩, ?_⟩
  · rw [mem_uniqueSorted, List.mem_flatMap]
  · intro dvs' hr
    have hdict' : ∀ dv ∈ dvs', DictStyle dv := by
      induction hr with
      | nil => simp
      | cons hab _ ih =>
        rename_i a b la lb hrest
        intro dv hdv
        rcases List.mem_cons.mp hdv with rfl | hdv
        · obtain ⟨d, d', ha, hb, hp, _⟩ := hab
          obtain ⟨d2, ha2, hn⟩ := hdict a (by simp)
          rw [ha] at ha2; cases ha2
          exact ⟨d', hb, (hp.map Prod.fst).nodup_iff.mp hn⟩
        · exact ih (fun x hx => hdict x (by simp [hx])) dv hdv
    have hdo : List.Forall₂ (fun a b => (dictOf a).Perm (dictOf b)) dvs dvs' := by
      refine hr.imp ?_
      rintro a b ⟨d, d', ha, hb, hp, _⟩
      simpa [dictOf, ha, hb] using hp
    have hobs : uniqueSorted (dvs'.flatMap raters) = uniqueSorted (dvs.flatMap raters) := by
      apply uniqueSorted_congr
      intro k
      clear hr hdict hdict'
      induction hdo with
      | nil => simp
      | cons hab _ ih =>
        simp only [List.flatMap_cons, List.mem_append, raters_eq, ih]
        rw [(hab.map Prod.fst).mem_iff]
    have hent : (dvs'.flatMap entries).Perm (dvs.flatMap entries) := by
      clear hobs hr
      induction hdo with
      | nil => simp
      | cons hab _ ih =>
        simp only [List.flatMap_cons]
        refine List.Perm.append ?_ (ih (fun x hx => hdict x (by simp [hx])) (fun x hx => hdict' x (by simp [hx])))
        rw [entries_dict (hdict _ List.mem_cons_self), entries_dict (hdict' _ List.mem_cons_self)]
        exact (hab.map Prod.snd).symm
    have hmax : maxReps dvs' = maxReps dvs := by
      unfold maxReps
      have := hent.map fun v => (votesOf v).length
      exact this.foldr_eq (lcomm := ⟨fun a b c => by omega⟩) 1
    have hlen : dvs'.length = dvs.length := hr.length_eq.symm
    refine ⟨by rw [listObservers_dict hdict, listObservers_dict hdict', hobs], ?_⟩
    have hnd : (∀ dv ∈ dvs', NdarraysSingle dv) ↔ (∀ dv ∈ dvs, NdarraysSingle dv) := by
      have key : ∀ l : List (DisVideo κ K), (∀ dv ∈ l, NdarraysSingle dv) ↔
          ∀ xs, Vote.many .ndarray xs ∈ l.flatMap entries → xs.length = 1 := by
        intro l
        simp only [List.mem_flatMap, NdarraysSingle]
        exact ⟨fun h xs ⟨dv, h1, h2⟩ => h dv h1 xs h2, fun h dv h1 xs h2 => h xs ⟨dv, h1, h2⟩⟩
      rw [key, key]
      simp only [hent.mem_iff]
    by_cases hs : ∀ dv ∈ dvs, NdarraysSingle dv
    · by_cases hne : dvs = []
      · subst hne
        cases hr
        rfl
      · have hne' : dvs' ≠ [] := by
          intro h0; subst h0; simp at hlen; exact hne (List.eq_nil_of_length_eq_zero hlen.symm)
        rw [opinionScores_dict hne hdict hs, opinionScores_dict hne' hdict' (hnd.mpr hs), hobs, hmax, hlen]
        congr 2
        clear hobs hr hent hmax hlen hnd hs hne hne' hdict'
        generalize uniqueSorted (dvs.flatMap raters) = obs
        induction hdo with
        | nil => rfl
        | cons hab _ ih =>
          simp only [List.map_cons]
          rw [ih (fun x hx => hdict x (by simp [hx]))]
          congr 2
          funext o
          exact (lookup_perm hab (dictOf_nodup (hdict _ (by simp))) o).symm
    · rw [opinionScores_dict_err hdict hs, opinionScores_dict_err hdict' (fun h => hs (hnd.mp h))]

/-- a genuine reordering of the example -/
example : List.Forall₂ DictReorder exDict.disVideos
    [{ contentId := 0, assetId := 0, path := "r0", os := some (.dict [("al", .many .list [.fin 4, .fin 5]), ("zoe", .one (.fin 5))]) },
      { contentId := 0, assetId := 1, path := "d1", os := some (.dict [("bo", .one (.fin 2)), ("zoe", .one (.fin 3))]) }] :=
  .cons ⟨_, _, rfl, rfl, by decide, rfl⟩ (.cons ⟨_, _, rfl, rfl, .refl _, rfl⟩ .nil)

/-- **C06.** For every accepted dataset (either style) and every video, the non-NaN cells of the video are,
as a multiset, exactly the non-NaN votes the dataset lists for that video. -/
theorem C06_no_vote_lost (d : Dataset κ K) (hacc : assertRaw d = .ok ())
    (hstyle : (∀ dv ∈ d.disVideos, SeqStyle dv) ∨ (∀ dv ∈ d.disVideos, DictStyle dv))
    (hs : ∀ dv ∈ d.disVideos, NdarraysSingle dv) :
    ∃ a, opinionScores d.disVideos = .ok a ∧ a.E = d.disVideos.length ∧
      ∀ (e : Fin a.E) (dv : DisVideo κ K), d.disVideos[e.val]? = some dv →
        (dropNan (videoCells a.get e)).Perm (dropNan (videoVotes dv)) := by
  have w := (C01_accepts_iff_wellFormed d).mp hacc
  rcases hstyle with hseq | hdict
  · cases hd : d.disVideos with
    | nil => exact absurd hd w.diss
    | cons d0 rest =>
      rw [hd] at hseq hs
      have hl : ∀ dv ∈ d0 :: rest, (entries dv).length = (entries d0).length := by
        have := w.sameLen d0 (by simp [hd]) (hseq d0 (by simp))
        rwa [hd] at this
      refine ⟨_, opinionScores_seq hseq hl hs, rfl, ?_⟩
      intro e dv hdv
      have hmem : dv ∈ d0 :: rest := List.mem_of_getElem? hdv
      have h1 := tableArr_cells (E := (d0 :: rest).length) (R := maxReps (d0 :: rest))
        ((d0 :: rest).map fun dv => (entries dv).map some) e ((entries dv).map some)
        (by rw [List.getElem?_map]; simp only [hdv, Option.map_some]) (by
          intro o ho
          obtain ⟨v, hv, rfl⟩ := List.mem_map.mp ho
          exact le_maxReps hmem hv)
      rw [List.length_map, hl dv hmem] at h1
      rw [h1, flatMap_optVotes, List.filterMap_map]
      simp [videoVotes]
  · refine ⟨_, opinionScores_dict w.diss hdict hs, rfl, ?_⟩
    intro e dv hdv
    have hmem : dv ∈ d.disVideos := List.mem_of_getElem? hdv
    have h1 := tableArr_cells (E := d.disVideos.length) (R := maxReps d.disVideos)
      (d.disVideos.map fun dv => (uniqueSorted (d.disVideos.flatMap raters)).map fun o => (dictOf dv).lookup o) e
      ((uniqueSorted (d.disVideos.flatMap raters)).map fun o => (dictOf dv).lookup o)
      (by simp [List.getElem?_map, hdv]) (dict_row_bound hmem (hdict dv hmem))
    rw [List.length_map] at h1
    rw [h1]
    exact (dict_cells hdict hdv rfl).filter _

example : assertRaw exDict = .ok () ∧ (∀ dv ∈ exDict.disVideos, DictStyle dv) :=
  ⟨by decide +kernel, exDict_dictStyle⟩

end Sureal.Props
