import Verif.Spec.PairedScores
import Verif.Props.Unanimous
/-! # C151: models of opinion scores on paired comparisons -/
set_option linter.unusedSectionVars false
namespace Sureal.Props
open Sureal Spec Routine Format Main

theorem lookup_ne_none {α β : Type} [BEq α] [LawfulBEq α] {l : List (α × β)} {k : α} {v : β} (h : (k, v) ∈ l) : l.lookup k ≠ none := by
  intro hn
  rw [List.lookup_eq_none_iff] at hn
  have := hn _ h
  simp at this

theorem mem_of_lookup {α β : Type} [BEq α] [LawfulBEq α] {l : List (α × β)} {k : α} {v : β} (h : l.lookup k = some v) : (k, v) ∈ l := by
  obtain ⟨l1, l2, e, -⟩ := List.lookup_eq_some_iff.mp h
  rw [e]
  simp

theorem lookup_ne_none' {α β : Type} [DecidableEq α] {l : List (α × β)} {k : α} {v : β} (h : (k, v) ∈ l) : l.lookup k ≠ none := lookup_ne_none h

section general
variable {κ : Type} [LinearOrder κ] {ppf : Fl ℝ → ℕ → Fl ℝ} {other : ModelClass → Reader κ ℝ → Py (Result κ ℝ)}
  {pc : List ModelClass → Py (Output (String ⊕ κ) (Fl ℝ))} {path : List Char} {readPy readJson : Py (Dataset κ ℝ)} {d : Dataset κ ℝ}

theorem winsOnly_votes (h : WinsOnly d) {dv : DisVideo κ ℝ} (hdv : dv ∈ d.disVideos) {x : Fl ℝ} (hx : x ∈ videoVotes dv) : x = .fin 1 := by
  obtain ⟨l, hl, -, h1⟩ := h dv hdv
  unfold videoVotes entries at hx
  rw [hl] at hx
  obtain ⟨v, hv, hx⟩ := List.mem_flatMap.mp hx
  obtain ⟨⟨k, v'⟩, hm, rfl⟩ := List.mem_map.mp hv
  rw [h1 k v' hm] at hx
  simpa [votesOf] using hx

theorem winsOnly_numbers (h : WinsOnly d) {dv : DisVideo κ ℝ} (hdv : dv ∈ d.disVideos) {x : ℝ} (hx : x ∈ numbersOf dv) : x = 1 := by
  have := winsOnly_votes h hdv (Mock.mem_present.mp hx)
  cases this
  rfl

theorem winsOnly_readable (hw : WellFormed d) (h : WinsOnly d) : Readable d where
  wf := hw
  style := Or.inr fun dv hdv => by
    obtain ⟨l, hl, hn, -⟩ := h dv hdv
    exact ⟨l, hl, hn⟩
  single := by
    intro dv hdv xs hm
    obtain ⟨l, hl, -, h1⟩ := h dv hdv
    unfold entries at hm
    rw [hl] at hm
    obtain ⟨⟨k, v⟩, hm, he⟩ := List.mem_map.mp hm
    rw [h1 k v hm] at he
    cases he
  clean := fun dv hdv x hx => Or.inr ⟨1, winsOnly_votes h hdv hx⟩

theorem winsOnly_voted (h : WinsOnly d) : EachVoted 1 d := by
  intro w hw
  cases w with
  | inr s =>
    obtain ⟨dv, hdv, ⟨t, l, hs⟩, -⟩ := hw
    obtain ⟨l', hl, -⟩ := h dv hdv
    rw [hs] at hl
    cases hl
  | inl o =>
    obtain ⟨dv, hdv, ho⟩ := hw
    obtain ⟨l, hl, hn, h1⟩ := h dv hdv
    unfold raters at ho
    rw [hl] at ho
    obtain ⟨⟨k, v⟩, hm, rfl⟩ := List.mem_map.mp ho
    have hlen : 1 ≤ (present (votesBy dv (.inl k))).length := by
      unfold votesBy
      rw [hl]
      dsimp only
      cases hlk : l.lookup k with
      | none => exact absurd hlk (lookup_ne_none hm)
      | some v' =>
        rw [h1 k v' (mem_of_lookup hlk)]
        simp [votesOf, present, Fl.val?]
    exact hlen.trans (List.single_le_sum (by simp) _ (List.mem_map.mpr ⟨dv, hdv, rfl⟩))

theorem winsOnly_written (hw : WellFormed d) (h : WinsOnly d) (hl : Loads path readPy readJson d) (h2 : 2 ≤ votesOverall d)
    (hv : ∀ dv ∈ d.disVideos, numbersOf dv ≠ []) :
    ∃ out, main ppf other pc path readPy readJson ["MOS", "P910"] = .ok out ∧
      ∀ (i : ℕ) (dv : DisVideo κ ℝ), d.disVideos[i]? = some dv →
        numberIn out.disVideos i "MOS" "quality_score" = some (.one (.fin 1)) ∧
        numberIn out.disVideos i "P910" "quality_score" = some (.one (.fin 1)) := by
  have hr := winsOnly_readable hw h
  have hall : ∀ T ∈ ["MOS", "P910"], ∃ run, (T, run) ∈ (runsByName : List (String × (Reader κ ℝ → Py (Result κ ℝ)))) := by
    intro T hT
    simp only [List.mem_cons, List.not_mem_nil, or_false] at hT
    rcases hT with rfl | rfl
    · exact ⟨(runMOS · {}), by simp [runsByName]⟩
    · exact ⟨(runAP2 · {}), by simp [runsByName]⟩
  obtain ⟨rd, a, hrd, hdv, ha, hE, hc, hp, hob⟩ := reads hr
  have ht := total_votes hE hp
  have hrated : EveryVideoRated a := by
    intro e
    have hlt : e.val < d.disVideos.length := by rw [← hE]; exact e.isLt
    obtain ⟨y, hy⟩ := List.exists_mem_of_ne_nil _ (hv _ (List.getElem_mem hlt))
    have := (hp e _ (List.getElem?_eq_getElem hlt)).mem_iff.mpr hy
    obtain ⟨s, r, hsr⟩ := (mem_videoCells _ _ _).mp (Mock.mem_present.mp this)
    exact ⟨s, r, y, hsr⟩
  have hvoted : EveryObserverVoted a := by
    intro s
    have : 0 < (present (observerCells a.get s)).length := each_voted hr (winsOnly_voted h) hrd ha s
    obtain ⟨x, hx⟩ := List.exists_mem_of_ne_nil _ (List.ne_nil_of_length_pos this)
    obtain ⟨e, r, her⟩ := (mem_observerCells a.get s _).mp (Mock.mem_present.mp hx)
    exact ⟨e, r, x, her⟩
  rw [ht] at h2
  obtain ⟨out, hout⟩ : ∃ out, main ppf other pc path readPy readJson ["MOS", "P910"] = .ok out := by
    have hlen : a.E = rd.disVideos.length := by rw [hE, hdv]
    have hg : ∀ c ∈ [ModelClass.MosModel, .P910AnnexEModel], ∃ r, Good other rd rd.disVideos.length a.S c r := by
      intro c hcm
      simp only [List.mem_cons, List.not_mem_nil, or_false] at hcm
      rw [← hlen]
      rcases hcm with rfl | rfl
      · exact ⟨_, mos_good other ha hc hob h2⟩
      · exact p910_good other ha hc hob hrated hvoted h2
    obtain ⟨reports, hf, hrun⟩ := runAll_good ppf other hl hrd hg
    obtain ⟨out, hfm⟩ := format_good ppf other (d := d) hf
    refine ⟨out, ?_⟩
    rw [main_raw ppf other pc (cs := [.MosModel, .P910AnnexEModel]) (.cons rfl (.cons rfl .nil)) (by simp) (by
      intro c hcm
      simp only [List.mem_cons, List.not_mem_nil, or_false] at hcm
      rcases hcm with rfl | rfl <;> decide +kernel), hrun, hfm]
  have hu : Unanimous d := fun dv hdv x hx y hy => by rw [winsOnly_numbers h hdv hx, winsOnly_numbers h hdv hy]
  refine ⟨out, hout, fun i dv hi => ?_⟩
  have hmem := List.mem_of_getElem? hi
  obtain ⟨x, hx⟩ := List.exists_mem_of_ne_nil _ (hv dv hmem)
  have hx1 := winsOnly_numbers h hmem hx
  subst hx1
  exact ⟨unanimous_written hall (by decide) hr hl hu hv (winsOnly_voted h) hout (by simp) (Or.inl rfl) hi hx,
    unanimous_written hall (by decide) hr hl hu hv (winsOnly_voted h) hout (by simp) (Or.inr rfl) hi hx⟩

theorem winsOnly_unwon (hw : WellFormed d) (h : WinsOnly d) (hl : Loads path readPy readJson d) {dv : DisVideo κ ℝ} (hdv : dv ∈ d.disVideos)
    (hno : numbersOf dv = []) (out : Output (String ⊕ κ) (Fl ℝ)) : main ppf other pc path readPy readJson ["MOS", "P910"] ≠ .ok out := by
  intro hout
  have hr := winsOnly_readable hw h
  have hall : ∀ T ∈ ["MOS", "P910"], ∃ run, (T, run) ∈ (runsByName : List (String × (Reader κ ℝ → Py (Result κ ℝ)))) := by
    intro T hT
    simp only [List.mem_cons, List.not_mem_nil, or_false] at hT
    rcases hT with rfl | rfl
    · exact ⟨(runMOS · {}), by simp [runsByName]⟩
    · exact ⟨(runAP2 · {}), by simp [runsByName]⟩
  obtain ⟨d', rd, hl', hrd, hres⟩ := C117_any (by decide) (by simp) hall hout
  have hdd : d' = d := by
    have h1 := (loads_read hl).2
    have h2 := (loads_read hl').2
    rw [h1] at h2
    cases h2
    rfl
  subst hdd
  obtain ⟨rd', a, hrd', hdv', ha, hE, hc, hp, hob⟩ := reads hr
  rw [hrd] at hrd'
  cases hrd'
  obtain ⟨r, hrun, -⟩ := hres "P910" (runAP2 · {}) (by simp) (by simp [runsByName])
  have harm : ObserversHarmless rd := by
    rcases hob with ⟨o, h, -⟩ | h
    · exact Or.inl ⟨o, h⟩
    · exact Or.inr (Or.inl h)
  have hbad := (C27_succeeds_iff Ap.sStdAlt rd harm a ha hc none).2 (by
    intro hrated
    obtain ⟨i, hi, rfl⟩ := List.getElem_of_mem hdv
    obtain ⟨s, r, v, hsr⟩ := hrated ⟨i, by rw [hE]; exact hi⟩
    have := (hp ⟨i, by rw [hE]; exact hi⟩ _ (List.getElem?_eq_getElem hi)).mem_iff.mp (Mock.mem_present.mpr ((mem_videoCells _ _ _).mpr ⟨s, r, hsr⟩))
    rw [hno] at this
    cases this)
  have : runAPWith Ap.sStdAlt rd {} = .ok r := hrun
  rw [show (runAPWith Ap.sStdAlt rd {} = .error .value) from hbad] at this
  cases this

end general

/- whatever the order of the keys -/
variable [LinearOrder (String × Int)] {ppf : Fl ℝ → ℕ → Fl ℝ} {other : ModelClass → Reader (String × Int) ℝ → Py (Result (String × Int) ℝ)}
  {pc : List ModelClass → Py (Output (String ⊕ (String × Int)) (Fl ℝ))} {path : List Char} {readPy readJson : Py (Dataset (String × Int) ℝ)}
  {d : Dataset (String × Int) ℝ}

theorem elsewhere_nil (h : RecordedTwice d) (i : ℕ) : elsewhere d i = [] := by
  unfold elsewhere
  rw [List.flatMap_eq_nil_iff]
  rintro ⟨dv, j⟩ hp
  dsimp only
  have hj : d.disVideos[j]? = some dv := by
    rw [List.mk_mem_zipIdx_iff_getElem?] at hp
    exact hp
  split
  · rename_i l hl
    rw [List.filterMap_eq_nil_iff]
    rintro ⟨⟨s, b⟩, v⟩ hm
    dsimp only
    rw [if_neg]
    rintro ⟨rfl, hn⟩
    refine h i j s ?_ hn
    unfold recordOf entryOf
    rw [hj]
    dsimp only [Option.bind]
    rw [hl]
    exact lookup_ne_none' hm
  · rfl

/-- **C151 (partial).** If every comparison is recorded with both videos, the mean opinion score of a video is the share of its comparisons that it won, ties counting
a half. -/
theorem C151_share_partial (h : Readable d) (hl : Loads path readPy readJson d) (h2 : 2 ≤ votesOverall d) (hb : RecordedTwice d) :
    ∃ out, main ppf other pc path readPy readJson ["MOS"] = .ok out ∧
      ∀ (i : ℕ) (dv : DisVideo (String × Int) ℝ), d.disVideos[i]? = some dv → outcomes d i dv ≠ [] →
        numberIn out.disVideos i "MOS" "quality_score" = some (.one (.fin (mean (outcomes d i dv)))) := by
  obtain ⟨out, hout, -, -, -, hi⟩ := (C117_mos (ppf := ppf) (other := other) (pc := pc) h hl).1 h2
  refine ⟨out, hout, fun i dv hdv hne => ?_⟩
  rw [(hi i dv hdv).2.1]
  unfold outcomes at *
  rw [elsewhere_nil hb, List.append_nil] at *
  unfold numbersOf at *
  unfold meanOrNan
  cases hp : present (videoVotes dv) with
  | nil => exact absurd hp hne
  | cons x xs => rfl

theorem elsewhere_wins (h : WinsOnly d) (i : ℕ) : ∀ x ∈ elsewhere d i, x = 0 := by
  intro x hx
  unfold elsewhere at hx
  obtain ⟨⟨dv, j⟩, hp, hx⟩ := List.mem_flatMap.mp hx
  have hdv : dv ∈ d.disVideos := by
    rw [List.mk_mem_zipIdx_iff_getElem?] at hp
    exact List.mem_of_getElem? hp
  obtain ⟨l, hl, -, h1⟩ := h dv hdv
  dsimp only at hx
  rw [hl] at hx
  obtain ⟨⟨k, v⟩, hm, hx⟩ := List.mem_filterMap.mp hx
  dsimp only at hx
  split at hx
  · rw [h1 k v hm] at hx
    cases hx
    norm_num
  · cases hx

/-- **C151 (refuted).** If comparisons are recorded with the winner, as in the dataset of the project's own test of the command line, and every video has won a comparison, then the program
run with MOS and P910, as in that test, ends well and gives every video the score 1 under both models, whoever won: the share of comparisons won, `w / (w + l)` for `w` comparisons won and
`l` lost, has no influence. -/
theorem C151_wins_refuted (hw : WellFormed d) (h : WinsOnly d) (hl : Loads path readPy readJson d) (h2 : 2 ≤ votesOverall d)
    (hv : ∀ dv ∈ d.disVideos, numbersOf dv ≠ []) :
    ∃ out, main ppf other pc path readPy readJson ["MOS", "P910"] = .ok out ∧
      ∀ (i : ℕ) (dv : DisVideo (String × Int) ℝ), d.disVideos[i]? = some dv →
        numberIn out.disVideos i "MOS" "quality_score" = some (.one (.fin 1)) ∧
        numberIn out.disVideos i "P910" "quality_score" = some (.one (.fin 1)) ∧
        mean (outcomes d i dv) = ((numbersOf dv).length : ℝ) / ((numbersOf dv).length + (elsewhere d i).length) := by
  obtain ⟨out, hout, hs⟩ := winsOnly_written (ppf := ppf) (other := other) (pc := pc) hw h hl h2 hv
  refine ⟨out, hout, fun i dv hi => ⟨(hs i dv hi).1, (hs i dv hi).2, ?_⟩⟩
  have hmem := List.mem_of_getElem? hi
  unfold mean outcomes
  rw [List.sum_append, List.length_append, List.sum_eq_card_nsmul (numbersOf dv) 1 fun x hx => winsOnly_numbers h hmem hx,
    List.sum_eq_zero (elsewhere_wins h i)]
  simp

/-- **C151 (refuted).** If comparisons are recorded with the winner and a video has won none, the program with P910 does not end well. -/
theorem C151_unwon_refuted (hw : WellFormed d) (h : WinsOnly d) (hl : Loads path readPy readJson d) {dv : DisVideo (String × Int) ℝ} (hdv : dv ∈ d.disVideos)
    (hno : numbersOf dv = []) (out : Output (String ⊕ (String × Int)) (Fl ℝ)) : main ppf other pc path readPy readJson ["MOS", "P910"] ≠ .ok out :=
  winsOnly_unwon hw h hl hdv hno out

/-! ### Examples -/

/-- three videos; Ann and Bob prefer the first to the second, Ann the second to the third, Bob the third to the first -/
def exPairs : Dataset (String × Int) ℝ :=
  { refVideos := [⟨0, "r", []⟩]
    disVideos := [
      { contentId := 0, assetId := 0, path := "a", os := some (.dict [(("Ann", 1), .one (.fin 1)), (("Bob", 1), .one (.fin 1))]) },
      { contentId := 0, assetId := 1, path := "b", os := some (.dict [(("Ann", 2), .one (.fin 1))]) },
      { contentId := 0, assetId := 2, path := "c", os := some (.dict [(("Bob", 0), .one (.fin 1))]) }] }

theorem exPairs_wf : WellFormed exPairs where
  refs := by simp [exPairs]
  diss := by simp [exPairs]
  nonneg := by simp [exPairs]
  hasRef := by simp [exPairs]
  hasOs := by
    intro dv h
    simp only [exPairs, List.mem_cons, List.not_mem_nil, or_false] at h
    rcases h with rfl | rfl | rfl <;> exact ⟨_, rfl, by simp⟩
  sameLen := by
    rintro d0 h ⟨t, l, hs⟩
    cases h
    cases hs

theorem exPairs_wins : WinsOnly exPairs := by
  intro dv h
  simp only [exPairs, List.mem_cons, List.not_mem_nil, or_false] at h
  rcases h with rfl | rfl | rfl
  all_goals
    refine ⟨_, rfl, by simp, ?_⟩
    intro k v hm
    simp only [List.mem_cons, Prod.mk.injEq, List.not_mem_nil, or_false] at hm
    first
      | exact hm.2
      | exact hm.elim (·.2) (·.2)

/-- the first video won two of three comparisons, the second one of three, the third one of two; all of them get 1 -/
example : ∃ out, main ppf other pc "pairs.py".toList (.ok exPairs) (.error .assertion) ["MOS", "P910"] = .ok out ∧
    (∀ i < 3, numberIn out.disVideos i "MOS" "quality_score" = some (.one (.fin 1)) ∧ numberIn out.disVideos i "P910" "quality_score" = some (.one (.fin 1))) ∧
    (elsewhere exPairs 0).length = 1 ∧ (elsewhere exPairs 1).length = 2 ∧ (elsewhere exPairs 2).length = 1 := by
  obtain ⟨out, h1, h2⟩ := C151_wins_refuted (ppf := ppf) (other := other) (pc := pc) exPairs_wf exPairs_wins
    (Or.inl ⟨⟨"pairs".toList, by decide +kernel⟩, rfl⟩ : Loads "pairs.py".toList (.ok exPairs) (.error .assertion) exPairs)
    (by simp [votesOverall, exPairs, numbersOf, videoVotes, entries, votesOf, present, Fl.val?]) (by
      intro dv h
      simp only [exPairs, List.mem_cons, List.not_mem_nil, or_false] at h
      rcases h with rfl | rfl | rfl <;> simp [numbersOf, videoVotes, entries, votesOf, present, Fl.val?])
  refine ⟨out, h1, ?_, ?_⟩
  · intro i hi
    have hlt : i < exPairs.disVideos.length := hi
    obtain ⟨h3, h4, -⟩ := h2 i _ (List.getElem?_eq_getElem hlt)
    exact ⟨h3, h4⟩
  · refine ⟨?_, ?_, ?_⟩ <;> rfl

/-- one comparison, recorded with both videos -/
def exBoth : Dataset (String × Int) ℝ :=
  { refVideos := [⟨0, "r", []⟩]
    disVideos := [
      { contentId := 0, assetId := 0, path := "a", os := some (.dict [(("Ann", 1), .one (.fin 1))]) },
      { contentId := 0, assetId := 1, path := "b", os := some (.dict [(("Ann", 0), .one (.fin 0))]) }] }

theorem single_lookup {α β : Type} [DecidableEq α] {k k' : α} {v : β} (h : [(k', v)].lookup k ≠ none) : k = k' := by
  by_contra hn
  refine h (List.lookup_eq_none_iff.mpr ?_)
  intro p hp
  rw [List.mem_singleton.mp hp]
  simpa using hn

theorem exBoth_twice : RecordedTwice exBoth := by
  intro i j s h
  match j, h with
  | 0, h =>
    have hi := single_lookup (k := (s, (i : ℤ))) (k' := ("Ann", 1)) (v := Vote.one (Fl.fin (1 : ℝ))) h
    obtain ⟨rfl, hi2⟩ := Prod.mk.inj hi
    have : i = 1 := by exact_mod_cast hi2
    subst this
    simp [recordOf, entryOf, exBoth, List.lookup]
  | 1, h =>
    have hi := single_lookup (k := (s, (i : ℤ))) (k' := ("Ann", 0)) (v := Vote.one (Fl.fin (0 : ℝ))) h
    obtain ⟨rfl, hi2⟩ := Prod.mk.inj hi
    have : i = 0 := by exact_mod_cast hi2
    subst this
    simp [recordOf, entryOf, exBoth, List.lookup]

/-- the hypotheses of `C151_share_partial` are met -/
example : Readable exBoth ∧ 2 ≤ votesOverall exBoth ∧ RecordedTwice exBoth ∧ outcomes exBoth 0 exBoth.disVideos[0] = [1] ∧ outcomes exBoth 1 exBoth.disVideos[1] = [0] := by
  have hmem : ∀ dv ∈ exBoth.disVideos, ∃ k v, dv.os = some (.dict [(k, .one (.fin v))]) := by
    intro dv h
    simp only [exBoth, List.mem_cons, List.not_mem_nil, or_false] at h
    rcases h with rfl | rfl <;> exact ⟨_, _, rfl⟩
  refine ⟨⟨⟨by simp [exBoth], by simp [exBoth], by simp [exBoth], by simp [exBoth], ?_, ?_⟩, Or.inr ?_, ?_, ?_⟩, ?_, exBoth_twice, ?_, ?_⟩
  · intro dv h
    obtain ⟨k, v, hk⟩ := hmem dv h
    exact ⟨_, hk, nofun⟩
  · rintro d0 h ⟨t, l, hs⟩
    cases h
    cases hs
  · intro dv h
    obtain ⟨k, v, hk⟩ := hmem dv h
    exact ⟨_, hk, by simp⟩
  · intro dv h xs hm
    obtain ⟨k, v, hk⟩ := hmem dv h
    simp [entries, hk] at hm
  · intro dv h x hx
    obtain ⟨k, v, hk⟩ := hmem dv h
    simp [videoVotes, entries, hk, votesOf] at hx
    exact Or.inr ⟨v, hx⟩
  · simp [votesOverall, exBoth, numbersOf, videoVotes, entries, votesOf, present, Fl.val?]
  · unfold outcomes
    rw [elsewhere_nil exBoth_twice]
    simp [exBoth, numbersOf, videoVotes, entries, votesOf, present, Fl.val?]
  · unfold outcomes
    rw [elsewhere_nil exBoth_twice]
    simp [exBoth, numbersOf, videoVotes, entries, votesOf, present, Fl.val?]

end Sureal.Props
