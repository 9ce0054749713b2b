import Verif.Model.Mock
import Verif.Spec.PcArr
import Verif.Lemmas.Dataset
import Verif.Lemmas.Fl
/-! # Helper lemmas for the mocked readers -/
set_option linter.unusedSectionVars false
namespace Sureal.Mock
open Spec
variable {κ K : Type} [LinearOrder κ]

theorem cell_of_lt {α : Type} (a : Arr3D α) {i j s : ℕ} (hi : i < a.E) (hj : j < a.S) (hs : s < a.R) :
    cell a i j s = some (a.get ⟨i, hi⟩ ⟨j, hj⟩ ⟨s, hs⟩) := dif_pos ⟨hi, hj, hs⟩

theorem cell_fin {α : Type} (a : Arr3D α) (e : Fin a.E) (s : Fin a.S) (r : Fin a.R) :
    cell a e s r = some (a.get e s r) := dif_pos ⟨e.2, s.2, r.2⟩

theorem cell_none {α : Type} (a : Arr3D α) {i j s : ℕ} (h : ¬ (i < a.E ∧ j < a.S ∧ s < a.R)) :
    cell a i j s = none := dif_neg h

/-- the cells of a table -/
theorem cell_table (E S R : ℕ) (t : List (List (Option (Vote K)))) {e s r : ℕ} (he : e < E) (hs : s < S) (hr : r < R) :
    cell (tableArr E S R t) e s r = some (match (t[e]?).bind (fun row => (row[s]?).join) with
      | some v => ((votesOf v)[r]?).getD .nan
      | none => .nan) := by
  rw [cell_of_lt (tableArr E S R t) he hs hr]
  exact congrArg some (tableArr_get t (⟨e, he⟩ : Fin E) (⟨s, hs⟩ : Fin S) (⟨r, hr⟩ : Fin R))

theorem numObservers_dict {dvs : List (DisVideo κ K)} (hne : dvs ≠ []) (h : ∀ dv ∈ dvs, DictStyle dv) :
    numObservers dvs = .ok (uniqueSorted (dvs.flatMap raters)).length := by
  cases dvs with
  | nil => exact absurd rfl hne
  | cons d0 rest =>
    obtain ⟨dd, hd0, -⟩ := h d0 (by simp)
    unfold numObservers
    simp only [hd0]
    rw [listObservers_dict h]

theorem opinionScoresWith_dict {dvs : List (DisVideo κ K)} (hne : dvs ≠ []) (h : ∀ dv ∈ dvs, DictStyle dv) (n : ℕ) :
    opinionScoresWith dvs n = opinionScores dvs := by
  unfold opinionScores
  rw [numObservers_dict hne h]
  dsimp only
  cases dvs with
  | nil => rfl
  | cons d0 rest =>
    obtain ⟨dd, hd0, -⟩ := h d0 (by simp)
    unfold opinionScoresWith
    simp only [hd0]

theorem numObservers_seq {d0 : DisVideo κ K} {rest : List (DisVideo κ K)} (h : SeqStyle d0) :
    numObservers (d0 :: rest) = .ok (entries d0).length := by
  obtain ⟨t, l, hd⟩ := h
  unfold numObservers
  simp [hd, entries]

/-- the largest number of repetitions among the first `n` observers -/
def repsOfFirst (n : ℕ) (dvs : List (DisVideo κ K)) : ℕ :=
  ((dvs.flatMap fun dv => (entries dv).take n).map fun v => (votesOf v).length).foldr max 1

theorem foldr_max_mono {l l' : List ℕ} (h : ∀ x ∈ l, x ∈ l') : l.foldr max 1 ≤ l'.foldr max 1 := by
  have hle : ∀ (l : List ℕ) x, x ∈ l → x ≤ l.foldr max 1 := by
    intro l x hx
    induction l with
    | nil => simp at hx
    | cons y l ih =>
      rcases List.mem_cons.mp hx with rfl | h
      · simp
      · simp [ih h]
  have h1 : ∀ l : List ℕ, 1 ≤ l.foldr max 1 := by
    intro l
    induction l with
    | nil => simp
    | cons y l ih => simp [ih]
  induction l with
  | nil => exact h1 _
  | cons y l ih =>
    simp only [List.foldr_cons]
    exact max_le (hle _ _ (h y (by simp))) (ih fun x hx => h x (by simp [hx]))

theorem repsOfFirst_le (n : ℕ) (dvs : List (DisVideo κ K)) : repsOfFirst n dvs ≤ maxReps dvs := by
  apply foldr_max_mono
  intro x hx
  obtain ⟨v, hv, rfl⟩ := List.mem_map.mp hx
  obtain ⟨dv, hdv, hv⟩ := List.mem_flatMap.mp hv
  exact List.mem_map.mpr ⟨v, List.mem_flatMap.mpr ⟨dv, hdv, List.mem_of_mem_take hv⟩, rfl⟩

theorem le_repsOfFirst {n : ℕ} {dvs : List (DisVideo κ K)} {dv} (h : dv ∈ dvs) {s : ℕ} {v} (hv : (entries dv)[s]? = some v)
    (hs : s < n) : (votesOf v).length ≤ repsOfFirst n dvs := by
  unfold repsOfFirst
  have : (votesOf v).length ∈ (dvs.flatMap fun dv => (entries dv).take n).map fun v => (votesOf v).length := by
    refine List.mem_map_of_mem (List.mem_flatMap.mpr ⟨dv, h, ?_⟩)
    apply List.mem_of_getElem? (i := s)
    rw [List.getElem?_take, if_pos hs, hv]
  generalize (dvs.flatMap fun dv => (entries dv).take n).map (fun v => (votesOf v).length) = l at this
  induction l with
  | nil => simp at this
  | cons y l ih =>
    rcases List.mem_cons.mp this with rfl | h'
    · simp
    · simp [ih h']

theorem opinionScoresWith_seq {d0 : DisVideo κ K} {rest : List (DisVideo κ K)}
    (h : ∀ dv ∈ d0 :: rest, SeqStyle dv)
    (hl : ∀ dv ∈ d0 :: rest, (entries dv).length = (entries d0).length)
    (hs : ∀ dv ∈ d0 :: rest, NdarraysSingle dv) {n : ℕ} (hn : n ≤ (entries d0).length) :
    opinionScoresWith (d0 :: rest) n = .ok (tableArr (d0 :: rest).length (entries d0).length
      (repsOfFirst n (d0 :: rest)) ((d0 :: rest).map fun dv => ((entries dv).take n).map some)) := by
  have hall : ∀ xs, Vote.many .ndarray xs ∈ (d0 :: rest).flatMap (fun dv => (entries dv).take n) → xs.length = 1 := by
    intro xs hx
    obtain ⟨dv, hdv, hx⟩ := List.mem_flatMap.mp hx
    exact hs dv hdv xs (List.mem_of_mem_take hx)
  obtain ⟨t0, l0, hd0⟩ := h d0 (by simp)
  have hl0 : (entries d0).length = l0.length := by simp [entries, hd0]
  have hm : mapPy (seqEntries n) (d0 :: rest) = .ok ((d0 :: rest).map fun dv => (entries dv).take n) := by
    apply mapPy_ok
    intro dv hdv
    obtain ⟨t, l, hl'⟩ := h dv hdv
    have := hl dv hdv
    have e1 : entries dv = l := by simp [entries, hl']
    rw [e1] at this ⊢
    unfold seqEntries
    rw [hl']
    dsimp only
    rw [if_pos (by omega)]
  simp only [hd0, opinionScoresWith]
  rw [hm]
  dsimp only
  rw [if_pos, if_pos (Or.inr (by omega)), repStep_foldl (by simpa [List.flatMap] using hall) le_rfl, hl0,
    List.map_map]
  · rfl
  · have := (assignable_iff _).mpr hall
    simp only [List.all_eq_true, List.mem_flatMap, List.mem_map] at this ⊢
    rintro l ⟨dv, hdv, rfl⟩ v hv
    exact this v ⟨dv, hdv, hv⟩

theorem opinionScoresWith_seq_too_many {d0 : DisVideo κ K} {rest : List (DisVideo κ K)}
    (h : SeqStyle d0) {n : ℕ} (hn : (entries d0).length < n) :
    opinionScoresWith (d0 :: rest) n = .error .index := by
  obtain ⟨t0, l0, hd0⟩ := h
  have hl0 : (entries d0).length = l0.length := by simp [entries, hd0]
  have : mapPy (seqEntries n) (d0 :: rest) = .error .index := by
    unfold mapPy seqEntries
    rw [hd0]
    dsimp only
    rw [if_neg (by omega)]
  simp only [hd0, opinionScoresWith]
  rw [this]

theorem subjectsOk_iff (sel : List Int) (n : ℕ) : subjectsOk sel n = true ↔ ∀ x ∈ sel, 0 ≤ x ∧ x < n := by
  simp [subjectsOk, List.all_eq_true]

theorem pickCols_ok (a : Arr3D (Fl K)) {sel : List ℕ} (h : ∀ x ∈ sel, x < a.S) :
    ∃ b, pickCols a sel = .ok b ∧ b.E = a.E ∧ b.S = sel.length ∧ b.R = a.R ∧
      ∀ e k r (x : ℕ), sel[k]? = some x → cell b e k r = cell a e x r := by
  have h' : ∀ i : Fin sel.length, sel[i] < a.S := fun i => h _ (List.getElem_mem _)
  refine ⟨_, dif_pos h', rfl, rfl, rfl, ?_⟩
  intro e k r x hk
  obtain ⟨hkl, rfl⟩ := List.getElem?_eq_some_iff.mp hk
  by_cases hc : e < a.E ∧ r < a.R
  · rw [cell_of_lt a hc.1 (show sel[k] < a.S from h' ⟨k, hkl⟩) hc.2]
    exact cell_of_lt { E := a.E, S := sel.length, R := a.R, get := fun e s r => a.get e ⟨sel[s], h' s⟩ r } hc.1 hkl hc.2
  · rw [cell_none a (by tauto), cell_none]
    dsimp only
    tauto

theorem rawReader_inv {d : Dataset κ K} {rd} (h : rawReader d = .ok rd) : assertRaw d = .ok () ∧
    rd = ⟨d, d.disVideos, opinionScores d.disVideos, listObservers d.disVideos⟩ := by
  unfold rawReader at h
  split at h
  · cases h
  · cases h; exact ⟨by assumption, rfl⟩

end Sureal.Mock
