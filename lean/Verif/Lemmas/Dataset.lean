import Verif.Spec.Dataset
import Verif.Spec.Arrays
import Mathlib.Tactic.Common
/-! Helper lemmas about the reader model. -/
set_option linter.unusedSectionVars false
namespace Sureal
open Spec

theorem mapPy_ok {α β : Type} {f : α → Py β} {g : α → β} {l : List α}
    (h : ∀ a ∈ l, f a = .ok (g a)) : mapPy f l = .ok (l.map g) := by
  induction l with
  | nil => rfl
  | cons a l ih =>
    have h1 := h a (by simp)
    have h2 := ih (fun b hb => h b (by simp [hb]))
    simp [mapPy, h1, h2]

theorem mapPy_length {α β : Type} {f : α → Py β} {l : List α} {bs : List β}
    (h : mapPy f l = .ok bs) : bs.length = l.length := by
  induction l generalizing bs with
  | nil => simp [mapPy] at h; subst h; rfl
  | cons a l ih =>
    simp only [mapPy] at h
    split at h
    · simp at h
    · split at h
      · simp at h
      · rename_i bs' h'
        simp at h; subst h
        simp [ih h']

theorem mapPy_eq_ok_iff {α β : Type} {f : α → Py β} {l : List α} {bs : List β} :
    mapPy f l = .ok bs ↔ List.Forall₂ (fun a b => f a = .ok b) l bs := by
  induction l generalizing bs with
  | nil => simp [mapPy]
  | cons a l ih =>
    constructor
    · intro h
      simp only [mapPy] at h
      split at h
      · simp at h
      · rename_i b hb
        split at h
        · simp at h
        · rename_i bs' h'
          simp at h; subst h
          exact .cons hb (ih.mp h')
    · rintro (_ | ⟨hb, h⟩)
      simp [mapPy, hb, ih.mpr h]

variable {κ K : Type}

theorem foldl_max_le_iff (c m : Int) (cs : List Int) :
    cs.foldl max c ≤ m ↔ c ≤ m ∧ ∀ x ∈ cs, x ≤ m := by
  induction cs generalizing c with
  | nil => simp
  | cons x cs ih => simp [ih, and_assoc]

theorem assertDataset_ok (d : Dataset κ K) : assertDataset d = .ok () ↔
    d.refVideos ≠ [] ∧ (∀ r ∈ d.refVideos, 0 ≤ r.contentId) ∧
    (∀ dv ∈ d.disVideos, ∃ r ∈ d.refVideos, r.contentId = dv.contentId) := by
  unfold assertDataset
  cases hr : d.refVideos with
  | nil => simp
  | cons r rs =>
    simp only [List.map_cons]
    have hm := (foldl_max_le_iff r.contentId _ (rs.map (·.contentId))).mp le_rfl
    constructor
    · intro h
      split at h
      · rename_i h1
        split at h
        · rename_i h2
          refine ⟨by simp, ?_, ?_⟩
          · simp only [List.all_cons, Bool.and_eq_true, decide_eq_true_eq, List.all_eq_true,
              List.mem_map, forall_exists_index, and_imp, forall_apply_eq_imp_iff₂] at h1
            intro x hx
            rcases List.mem_cons.mp hx with rfl | hx
            · exact h1.1.1
            · exact (h1.2 x hx).1
          · intro dv hdv
            simp only [List.all_eq_true] at h2
            have := h2 dv hdv
            rw [← List.map_cons (f := fun r : RefVideo => r.contentId), List.contains_iff_mem, List.mem_map] at this
            exact this
        · simp at h
      · simp at h
    · rintro ⟨-, h1, h2⟩
      rw [if_pos, if_pos]
      · simp only [List.all_eq_true]
        intro dv hdv
        rw [← List.map_cons (f := fun r : RefVideo => r.contentId), List.contains_iff_mem, List.mem_map]
        exact h2 dv hdv
      · simp only [List.all_cons, Bool.and_eq_true, decide_eq_true_eq, List.all_eq_true,
              List.mem_map, forall_exists_index, and_imp, forall_apply_eq_imp_iff₂]
        refine ⟨⟨h1 r (by simp), by have := hm.1; omega⟩, fun x hx => ⟨h1 x (by simp [hx]), ?_⟩⟩
        have := hm.2 x.contentId (List.mem_map_of_mem hx)
        omega

theorem entries_length {dv : DisVideo κ K} {os : Os κ K} (h : dv.os = some os) :
    (entries dv).length = os.len := by
  unfold entries; rw [h]; cases os <;> simp [Os.len]

theorem repStep_foldl {l : List (Vote K)} {m : Nat}
    (h : ∀ xs, Vote.many .ndarray xs ∈ l → xs.length = 1) (hm : 1 ≤ m) :
    l.foldl repStep m = (l.map fun v => (votesOf v).length).foldr max m := by
  induction l generalizing m with
  | nil => rfl
  | cons v l ih =>
    have key : repStep m v = max m (votesOf v).length := by
      cases v with
      | one x => simp [repStep, votesOf, hm]
      | many k xs =>
        cases k with
        | list => simp only [repStep, votesOf]; split <;> omega
        | tuple => simp only [repStep, votesOf]; split <;> omega
        | ndarray =>
          have : xs.length = 1 := h xs (by simp)
          simp only [repStep, votesOf]; omega
    have hcomm : ∀ (a b : Nat) (l : List Nat), l.foldr max (max a b) = max b (l.foldr max a) := by
      intro a b l
      induction l with
      | nil => simp [Nat.max_comm]
      | cons x l ih => simp [ih]; omega
    simp only [List.foldl_cons, List.map_cons, List.foldr_cons]
    rw [ih (fun xs hxs => h xs (by simp [hxs])) (by rw [key]; omega), key, hcomm]

theorem cell_eq (v : Vote K) (r : Nat) : v.cell r = ((votesOf v)[r]?).getD .nan := by
  cases v with
  | one x => cases r <;> simp [Vote.cell, votesOf]
  | many k xs => simp [Vote.cell, votesOf]

theorem tableArr_get {E S R : Nat} (t : List (List (Option (Vote K)))) (e : Fin E) (s : Fin S) (r : Fin R)
    : (tableArr E S R t).get e s r =
      match (t[e.val]?).bind (fun row => (row[s.val]?).join) with
      | some v => ((votesOf v)[r.val]?).getD .nan
      | none => .nan := by
  simp only [tableArr]
  cases (t[e.val]?).bind (fun row => (row[s.val]?).join) <;> simp [cell_eq]

section
variable [LinearOrder κ]

theorem mem_uniqueSorted {l : List κ} {a : κ} : a ∈ uniqueSorted l ↔ a ∈ l := by
  simp [uniqueSorted]

theorem uniqueSorted_sorted (l : List κ) : (uniqueSorted l).Pairwise (· < ·) := by
  have h1 : (uniqueSorted l).Pairwise (· ≤ ·) := by
    exact List.pairwise_insertionSort _ _
  have h2 : (uniqueSorted l).Nodup :=
    (List.perm_insertionSort _ _).nodup_iff.mpr (List.nodup_dedup l)
  have := h1.and h2
  exact this.imp (fun ⟨a, b⟩ => lt_of_le_of_ne a b)

theorem uniqueSorted_congr {l l' : List κ} (h : ∀ a, a ∈ l ↔ a ∈ l') :
    uniqueSorted l = uniqueSorted l' := by
  apply List.Perm.eq_of_pairwise (le := (· ≤ ·))
  · intro a b _ _; exact le_antisymm
  · exact (uniqueSorted_sorted l).imp le_of_lt
  · exact (uniqueSorted_sorted l').imp le_of_lt
  · apply (List.perm_ext_iff_of_nodup _ _).mpr
    · intro a; simp [mem_uniqueSorted, h]
    · exact (uniqueSorted_sorted l).imp ne_of_lt
    · exact (uniqueSorted_sorted l').imp ne_of_lt
end

theorem osDict_ok {dv : DisVideo κ K} {d} : osDict dv = .ok d ↔ dv.os = some (.dict d) := by
  unfold osDict
  split <;> simp_all

/-- The dict of a video, `[]` if it has none. -/
def dictOf (dv : DisVideo κ K) : List (κ × Vote K) :=
  match dv.os with
  | some (.dict d) => d
  | _ => []

theorem osDict_dictOf {dv : DisVideo κ K} (h : DictStyle dv) : osDict dv = .ok (dictOf dv) := by
  obtain ⟨d, h, _⟩ := h
  simp [osDict, dictOf, h]

theorem raters_eq (dv : DisVideo κ K) : raters dv = (dictOf dv).map Prod.fst := by
  unfold raters dictOf; split <;> simp_all

theorem entries_dict {dv : DisVideo κ K} (h : DictStyle dv) : entries dv = (dictOf dv).map Prod.snd := by
  obtain ⟨d, h, _⟩ := h
  simp [entries, dictOf, h]

theorem dictOf_nodup {dv : DisVideo κ K} (h : DictStyle dv) : ((dictOf dv).map Prod.fst).Nodup := by
  obtain ⟨d, h, hn⟩ := h
  simpa [dictOf, h] using hn

theorem lookup_eq_some_iff [DecidableEq κ] {d : List (κ × Vote K)} (hn : (d.map Prod.fst).Nodup) {o : κ} {v : Vote K} :
    d.lookup o = some v ↔ (o, v) ∈ d := by
  induction d with
  | nil => simp
  | cons p d ih =>
    obtain ⟨k, w⟩ := p
    simp only [List.map_cons, List.nodup_cons] at hn
    rw [List.lookup_cons]
    by_cases hk : o = k
    · subst hk
      simp only [BEq.rfl, List.mem_cons, Prod.mk.injEq, true_and]
      constructor
      · intro h; left; simpa using h.symm
      · rintro (h | h)
        · simp [h]
        · exact absurd (List.mem_map_of_mem (f := Prod.fst) h) hn.1
    · have : (o == k) = false := by simpa using hk
      simp [this, hk, ih hn.2]

theorem lookup_perm [DecidableEq κ] {d d' : List (κ × Vote K)} (h : d.Perm d')
    (hn : (d.map Prod.fst).Nodup) (o : κ) : d.lookup o = d'.lookup o := by
  have hn' : (d'.map Prod.fst).Nodup := (h.map Prod.fst).nodup_iff.mp hn
  apply Option.ext
  intro v
  rw [lookup_eq_some_iff hn, lookup_eq_some_iff hn']
  exact h.mem_iff

section
variable [LinearOrder κ]

theorem listObservers_dict {dvs : List (DisVideo κ K)} (h : ∀ dv ∈ dvs, DictStyle dv) :
    listObservers dvs = .ok (uniqueSorted (dvs.flatMap raters)) := by
  have := mapPy_ok (f := osDict) (g := dictOf) (l := dvs) (fun dv hdv => osDict_dictOf (h dv hdv))
  simp only [listObservers, this]
  congr 2
  simp only [List.flatMap, List.map_map]
  congr 1
  apply List.map_congr_left
  intro dv _
  simp [raters_eq]

theorem assignable_iff (l : List (Vote K)) :
    l.all Vote.assignable = true ↔ ∀ xs, Vote.many .ndarray xs ∈ l → xs.length = 1 := by
  simp only [List.all_eq_true]
  constructor
  · intro h xs hx
    simpa [Vote.assignable] using h _ hx
  · intro h v hv
    cases v with
    | one x => rfl
    | many k xs => cases k <;> simp [Vote.assignable]; exact h _ hv

/-- closed form of the array for dict-style datasets -/
theorem opinionScores_dict {dvs : List (DisVideo κ K)} (hne : dvs ≠ []) (h : ∀ dv ∈ dvs, DictStyle dv)
    (hs : ∀ dv ∈ dvs, NdarraysSingle dv) :
    opinionScores dvs = .ok (tableArr dvs.length (uniqueSorted (dvs.flatMap raters)).length (maxReps dvs)
      (dvs.map fun dv => (uniqueSorted (dvs.flatMap raters)).map fun o => (dictOf dv).lookup o)) := by
  cases dvs with
  | nil => exact absurd rfl hne
  | cons d0 rest =>
    obtain ⟨dd, hd0, _⟩ := h d0 (by simp)
    have hm := mapPy_ok (f := osDict) (g := dictOf) (l := d0 :: rest) (fun dv hdv => osDict_dictOf (h dv hdv))
    have hall : ∀ xs, Vote.many .ndarray xs ∈ (d0 :: rest).flatMap entries → xs.length = 1 := by
      intro xs hx
      obtain ⟨dv, hdv, hx⟩ := List.mem_flatMap.mp hx
      exact hs dv hdv xs hx
    have he : (((d0 :: rest).map dictOf).flatMap fun d => d.map Prod.snd) = (d0 :: rest).flatMap entries := by
      simp only [List.flatMap, List.map_map]
      congr 1
      apply List.map_congr_left
      intro dv hdv
      simp [entries_dict (h dv hdv)]
    unfold opinionScores numObservers
    simp only [hd0]
    rw [listObservers_dict h]
    simp only [opinionScoresWith, hd0]
    rw [listObservers_dict h, hm]
    dsimp only
    rw [if_pos]
    · rw [he, repStep_foldl hall le_rfl, List.map_map]
      rfl
    · have := (assignable_iff _).mpr hall
      rw [← he] at this
      simp only [List.all_eq_true, List.mem_flatMap, List.mem_map] at this ⊢
      intro d hd p hp
      exact this _ ⟨d, by simpa using hd, p, hp, rfl⟩

/-- closed form of the array for sequence-style datasets -/
theorem opinionScores_seq {d0 : DisVideo κ K} {rest : List (DisVideo κ K)}
    (h : ∀ dv ∈ d0 :: rest, SeqStyle dv)
    (hl : ∀ dv ∈ d0 :: rest, (entries dv).length = (entries d0).length)
    (hs : ∀ dv ∈ d0 :: rest, NdarraysSingle dv) :
    opinionScores (d0 :: rest) = .ok (tableArr (d0 :: rest).length (entries d0).length (maxReps (d0 :: rest))
      ((d0 :: rest).map fun dv => (entries dv).map some)) := by
  have hall : ∀ xs, Vote.many .ndarray xs ∈ (d0 :: rest).flatMap entries → xs.length = 1 := by
    intro xs hx
    obtain ⟨dv, hdv, hx⟩ := List.mem_flatMap.mp hx
    exact hs dv hdv xs hx
  obtain ⟨t0, l0, hd0⟩ := h d0 (by simp)
  have hl0 : (entries d0).length = l0.length := by simp [entries, hd0]
  have hm : mapPy (seqEntries l0.length) (d0 :: rest) = .ok ((d0 :: rest).map entries) := by
    apply mapPy_ok
    intro dv hdv
    obtain ⟨t, l, hl'⟩ := h dv hdv
    have := hl dv hdv
    have e1 : entries dv = l := by simp [entries, hl']
    rw [e1] at this ⊢
    simp [seqEntries, hl', ← hl0, ← this]
  unfold opinionScores numObservers
  simp only [hd0, opinionScoresWith]
  rw [hm]
  dsimp only
  rw [if_pos, if_pos (Or.inr le_rfl), repStep_foldl (by simpa [List.flatMap] using hall) le_rfl, hl0,
    List.map_map]
  · rfl
  · have := (assignable_iff _).mpr hall
    simp only [List.all_eq_true, List.mem_flatMap, List.mem_map] at this ⊢
    rintro l ⟨dv, hdv, rfl⟩ v hv
    exact this v ⟨dv, hdv, hv⟩

end
end Sureal

namespace Sureal
open Spec
variable {κ K : Type}

theorem dropNan_ofFn_getD (l : List (Fl K)) (R : Nat) (h : l.length ≤ R) :
    dropNan (List.ofFn fun r : Fin R => (l[r.val]?).getD .nan) = dropNan l := by
  induction l generalizing R with
  | nil =>
    simp only [List.length_nil] at h
    simp [dropNan, Fl.isNan]
  | cons x l ih =>
    cases R with
    | zero => simp at h
    | succ R =>
      have := ih R (by simpa using h)
      rw [List.ofFn_succ]
      simp only [dropNan, Fin.val_zero, Fin.val_succ, List.getElem?_cons_zero, List.getElem?_cons_succ,
        Option.getD_some] at this ⊢
      rw [List.filter_cons, List.filter_cons, this]

/-- votes of an optional entry -/
def optVotes : Option (Vote K) → List (Fl K)
  | some v => votesOf v
  | none => []

theorem dropNan_flatten (l : List (List (Fl K))) : dropNan l.flatten = (l.map dropNan).flatten := by
  induction l with
  | nil => rfl
  | cons x l ih => simp [dropNan, List.filter_append] at ih ⊢; exact ih

theorem dropNan_flatMap {β : Type} (l : List β) (f : β → List (Fl K)) :
    dropNan (l.flatMap f) = l.flatMap (fun x => dropNan (f x)) := by
  rw [List.flatMap, dropNan_flatten, List.map_map]; rfl

theorem row_cells (row : List (Option (Vote K))) (R : Nat) (h : ∀ o ∈ row, (optVotes o).length ≤ R) :
    dropNan (List.ofFn fun s : Fin row.length => List.ofFn fun r : Fin R =>
      ((optVotes ((row[s.val]?).join))[r.val]?).getD .nan).flatten = dropNan (row.flatMap optVotes) := by
  rw [dropNan_flatten, dropNan_flatMap]
  rw [List.flatMap]
  congr 1
  apply List.ext_getElem
  · simp
  · intro i h1 h2
    have hi : i < row.length := by simpa using h2
    simp only [List.getElem_map, List.getElem_ofFn, List.getElem?_eq_getElem hi, Option.join_some]
    exact dropNan_ofFn_getD _ _ (h _ (List.getElem_mem hi))

theorem tableArr_cells {E R : Nat} (t : List (List (Option (Vote K)))) (e : Fin E) (row : List (Option (Vote K)))
    (ht : t[e.val]? = some row) (h : ∀ o ∈ row, (optVotes o).length ≤ R) :
    dropNan (videoCells (tableArr E row.length R t).get e) = dropNan (row.flatMap optVotes) := by
  rw [← row_cells row R h]
  unfold videoCells
  congr 3
  funext s
  congr 1
  funext r
  refine (tableArr_get t e s r).trans ?_
  simp only [ht, Option.bind_some]
  rcases (row[s.val]?).join with _ | v <;> simp [optVotes]

theorem le_maxReps {dvs : List (DisVideo κ K)} {dv} (h : dv ∈ dvs) {v} (hv : v ∈ entries dv) :
    (votesOf v).length ≤ maxReps dvs := by
  unfold maxReps
  have : (votesOf v).length ∈ (dvs.flatMap entries).map fun v => (votesOf v).length :=
    List.mem_map_of_mem (List.mem_flatMap.mpr ⟨dv, h, hv⟩)
  generalize (dvs.flatMap entries).map (fun v => (votesOf v).length) = l at this
  induction l with
  | nil => simp at this
  | cons x l ih =>
    rcases List.mem_cons.mp this with rfl | h'
    · simp
    · have := ih h'; simp only [List.foldr_cons]; omega

theorem filterMap_lookup_perm [DecidableEq κ] {d : List (κ × Vote K)} {obs : List κ}
    (hn : (d.map Prod.fst).Nodup) (ho : obs.Nodup) (hsub : ∀ k ∈ d.map Prod.fst, k ∈ obs) :
    (obs.filterMap fun o => d.lookup o).Perm (d.map Prod.snd) := by
  have h1 : (obs.filterMap fun o => (d.lookup o).map fun v => (o, v)).Perm d := by
    apply (List.perm_ext_iff_of_nodup _ _).mpr
    · rintro ⟨o, v⟩
      simp only [List.mem_filterMap, Option.map_eq_some_iff, Prod.mk.injEq]
      constructor
      · rintro ⟨o', _, v', h, rfl, rfl⟩
        exact (lookup_eq_some_iff hn).mp h
      · intro h
        exact ⟨o, hsub o (List.mem_map_of_mem (f := Prod.fst) h), v, (lookup_eq_some_iff hn).mpr h, rfl, rfl⟩
    · apply List.Nodup.filterMap _ ho
      intro a a' b h h'
      simp only [Option.mem_def, Option.map_eq_some_iff] at h h'
      obtain ⟨_, _, rfl⟩ := h
      obtain ⟨_, _, h⟩ := h'
      exact (Prod.mk.inj h).1.symm
    · exact List.Nodup.of_map _ hn
  have h2 := h1.map Prod.snd
  rw [List.map_filterMap] at h2
  convert h2 using 2
  rename_i o _
  cases d.lookup o <;> rfl

theorem flatMap_optVotes (row : List (Option (Vote K))) :
    row.flatMap optVotes = (row.filterMap id).flatMap votesOf := by
  induction row with
  | nil => rfl
  | cons o row ih => cases o <;> simp [optVotes, ih]

end Sureal

namespace Sureal
open Spec
variable {κ K : Type} [LinearOrder κ]

/-- reading a dict-style dataset raises ValueError when an ndarray entry does not have one element -/
theorem opinionScores_dict_err {dvs : List (DisVideo κ K)} (h : ∀ dv ∈ dvs, DictStyle dv)
    (hs : ¬ ∀ dv ∈ dvs, NdarraysSingle dv) : opinionScores dvs = .error .value := by
  cases dvs with
  | nil => simp at hs
  | cons d0 rest =>
    obtain ⟨dd, hd0, _⟩ := h d0 (by simp)
    have hm := mapPy_ok (f := osDict) (g := dictOf) (l := d0 :: rest) (fun dv hdv => osDict_dictOf (h dv hdv))
    unfold opinionScores numObservers
    simp only [hd0]
    rw [listObservers_dict h]
    simp only [opinionScoresWith, hd0]
    rw [listObservers_dict h, hm]
    dsimp only
    rw [if_neg]
    intro hall
    apply hs
    intro dv hdv xs hx
    rw [entries_dict (h dv hdv)] at hx
    simp only [List.all_eq_true] at hall
    obtain ⟨p, hp, hpe⟩ := List.mem_map.mp hx
    have := hall (dictOf dv) (List.mem_map_of_mem hdv) p hp
    rw [hpe] at this
    simpa [Vote.assignable] using this

theorem opinionScores_seq_err {d0 : DisVideo κ K} {rest : List (DisVideo κ K)}
    (h : ∀ dv ∈ d0 :: rest, SeqStyle dv)
    (hl : ∀ dv ∈ d0 :: rest, (entries dv).length = (entries d0).length)
    (hs : ¬ ∀ dv ∈ d0 :: rest, NdarraysSingle dv) :
    opinionScores (d0 :: rest) = .error .value := by
  obtain ⟨t0, l0, hd0⟩ := h d0 (by simp)
  have hl0 : (entries d0).length = l0.length := by simp [entries, hd0]
  have hm : mapPy (seqEntries l0.length) (d0 :: rest) = .ok ((d0 :: rest).map entries) := by
    apply mapPy_ok
    intro dv hdv
    obtain ⟨t, l, hl'⟩ := h dv hdv
    have := hl dv hdv
    have e1 : entries dv = l := by simp [entries, hl']
    rw [e1] at this ⊢
    simp [seqEntries, hl', ← hl0, ← this]
  unfold opinionScores numObservers
  simp only [hd0, opinionScoresWith]
  rw [hm]
  dsimp only
  rw [if_neg]
  intro hall
  apply hs
  intro dv hdv xs hx
  simp only [List.all_eq_true] at hall
  have := hall (entries dv) (List.mem_map_of_mem hdv) _ hx
  simpa [Vote.assignable] using this

/-- cells of a video in the array of a dict-style dataset -/
theorem dict_cells {dvs : List (DisVideo κ K)} (h : ∀ dv ∈ dvs, DictStyle dv) {e : ℕ}
    {dv} (he : dvs[e]? = some dv) {obs : List κ} (ho : obs = uniqueSorted (dvs.flatMap raters)) :
    ((obs.map fun o => (dictOf dv).lookup o).flatMap optVotes).Perm (videoVotes dv) := by
  have hmem : dv ∈ dvs := List.mem_of_getElem? he
  rw [flatMap_optVotes, List.filterMap_map, videoVotes, entries_dict (h dv hmem)]
  apply List.Perm.flatMap_right
  have := filterMap_lookup_perm (d := dictOf dv) (obs := obs) (dictOf_nodup (h dv hmem))
    (by rw [ho]; exact (uniqueSorted_sorted _).imp ne_of_lt)
    (by
      intro k hk
      rw [ho, mem_uniqueSorted, List.mem_flatMap]
      exact ⟨dv, hmem, by rw [raters_eq]; exact hk⟩)
  simpa [Function.comp_def] using this

theorem dict_row_bound {dvs : List (DisVideo κ K)} {dv} (hdv : dv ∈ dvs) (h : DictStyle dv)
    {obs : List κ} : ∀ o ∈ obs.map fun o => (dictOf dv).lookup o, (optVotes o).length ≤ maxReps dvs := by
  intro o ho
  obtain ⟨k, _, rfl⟩ := List.mem_map.mp ho
  cases hv : (dictOf dv).lookup k with
  | none => simp [optVotes]
  | some v =>
    apply le_maxReps hdv
    rw [entries_dict h]
    exact List.mem_map.mpr ⟨(k, v), (lookup_eq_some_iff (dictOf_nodup h)).mp hv, rfl⟩

end Sureal
