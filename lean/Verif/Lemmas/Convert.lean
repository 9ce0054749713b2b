import Verif.Spec.Convert
import Verif.Lemmas.Preproc
/-!
# Lemmas on dataset conversions
-/
namespace Sureal.Conv
open Sureal Spec
variable {κ K : Type}

theorem lookup_cons_if {α β : Type} [DecidableEq α] (k a : α) (b : β) (l : List (α × β)) :
    ((a, b) :: l).lookup k = if k = a then some b else l.lookup k := by
  rw [List.lookup_cons]
  by_cases h : k = a
  · subst h; simp
  · have : (k == a) = false := by simpa using h
    rw [this, if_neg h]

theorem dictSet_lookup {α β : Type} [DecidableEq α] (l : List (α × β)) (k : α) (v : β) (k' : α) :
    (dictSet l k v).lookup k' = if k' = k then some v else l.lookup k' := by
  induction l with
  | nil => simp only [dictSet, lookup_cons_if, List.lookup_nil]
  | cons p l ih =>
    obtain ⟨a, b⟩ := p
    simp only [dictSet]
    split
    · rename_i h
      subst h
      simp only [lookup_cons_if]
      by_cases h' : k' = a <;> simp [h']
    · rename_i h
      simp only [lookup_cons_if, ih]
      by_cases h' : k' = a
      · subst h'; simp [h]
      · simp [h']

theorem setAttr_eq (l : List (String × String)) (k v : String) : setAttr l k v = dictSet l k v := by
  induction l with
  | nil => rfl
  | cons p l ih => obtain ⟨a, b⟩ := p; simp only [setAttr, dictSet, ih]

theorem setAttr_lookup (l : List (String × String)) (k v k' : String) :
    (setAttr l k v).lookup k' = if k' = k then some v else l.lookup k' := by
  rw [setAttr_eq, dictSet_lookup]

theorem setOpt_lookup (l : List (String × String)) (k : String) (o : Option String) (k' : String) :
    (setOpt l k o).lookup k' = if k' = k then (match o with | some v => some v | none => l.lookup k')
      else l.lookup k' := by
  cases o with
  | none => simp [setOpt]
  | some v => simp only [setOpt, setAttr_lookup]

theorem dunder_iff (k : String) : ("__".toList.isPrefixOf k.toList) = true ↔ Dunder k := by
  have : "__".toList = ['_', '_'] := by decide
  rw [this]
  unfold Dunder
  rw [List.isPrefixOf_iff_prefix]
  constructor
  · rintro ⟨t, h⟩; exact ⟨t, by rw [← h]; rfl⟩
  · rintro ⟨t, h⟩; exact ⟨t, by rw [h]; rfl⟩

theorem lookup_filter_fst (l : List (String × String)) (p : String → Bool) (k : String) :
    (l.filter fun q => p q.1).lookup k = if p k then l.lookup k else none := by
  induction l with
  | nil => simp
  | cons a l ih =>
    obtain ⟨a, b⟩ := a
    rw [List.filter_cons]
    by_cases h : p a = true
    · rw [if_pos h]
      simp only [lookup_cons_if, ih]
      by_cases h' : k = a
      · subst h'; simp [h]
      · simp [h']
    · rw [if_neg h]
      simp only [lookup_cons_if, ih]
      by_cases h' : k = a
      · subst h'; simp [h]
      · simp [h']

theorem prepare_meta (d : Dataset κ K) (kw : PrepareKw) : MetaKept d (prepare d kw) kw := by
  refine ⟨rfl, rfl, fun k => ?_⟩
  classical
  unfold prepare attrAfter
  simp only [setOpt_lookup]
  have hf := lookup_filter_fst d.attrs (fun s => !("__".toList.isPrefixOf s.toList)) k
  rw [hf]
  have h1 : ¬ Dunder "quality_width" := by rw [← dunder_iff]; decide
  have h2 : ¬ Dunder "quality_height" := by rw [← dunder_iff]; decide
  have h3 : ¬ Dunder "resampling_type" := by rw [← dunder_iff]; decide
  have hd : (!("__".toList.isPrefixOf k.toList)) = decide (¬ Dunder k) := by
    by_cases hk : Dunder k
    · rw [(dunder_iff k).mpr hk]; simp [hk]
    · have : ¬ ("__".toList.isPrefixOf k.toList) = true := fun h => hk ((dunder_iff k).mp h)
      simp only [Bool.not_eq_true] at this
      rw [this]; simp [hk]
  rw [hd]
  have e : (if decide (¬ Dunder k) = true then d.attrs.lookup k else none)
      = if Dunder k then none else d.attrs.lookup k := by
    by_cases hk : Dunder k <;> simp [hk]
  rw [e]
  by_cases a1 : k = "quality_width"
  · subst a1; simp; cases kw.qualityWidth <;> rfl
  · by_cases a2 : k = "quality_height"
    · subst a2; simp; cases kw.qualityHeight <;> rfl
    · by_cases a3 : k = "resampling_type"
      · subst a3; simp; cases kw.resamplingType <;> rfl
      · simp [a1, a2, a3]

theorem toGt_spec (s : Score K) : GtOf s s.toGt := by
  unfold GtOf
  match s with
  | .num x => exact Or.inl ⟨x, Or.inl rfl, rfl⟩
  | .arr [] => exact Or.inr ⟨[], rfl, by simp, rfl⟩
  | .arr [x] => exact Or.inl ⟨x, Or.inr rfl, rfl⟩
  | .arr (x :: y :: l) => exact Or.inr ⟨_, rfl, by simp, rfl⟩

end Sureal.Conv

namespace Sureal.Conv
open Sureal Spec
variable {κ K : Type}

/-- the rows handed to the per-subject conversion, for an array made from a table with rows of full length -/
theorem perSubjectRows_table {α : Type} (dvs : List α) (row : α → List (Option (Vote K))) (S R : Nat)
    (hS : ∀ dv ∈ dvs, (row dv).length = S) :
    perSubjectRows (tableArr dvs.length S R (dvs.map row)) = dvs.map fun dv =>
      .rows ((row dv).map fun o => List.ofFn fun r : Fin R => ((optVotes o)[r.val]?).getD .nan) := by
  unfold perSubjectRows
  apply List.ext_getElem
  · simp [tableArr]
  · intro i h1 h2
    have hi : i < dvs.length := by simpa using h2
    simp only [List.getElem_ofFn, List.getElem_map]
    congr 1
    have hl := hS dvs[i] (List.getElem_mem hi)
    apply List.ext_getElem
    · simp only [List.length_ofFn, List.length_map]; exact hl.symm
    · intro s h3 h4
      have hs : s < (row dvs[i]).length := by simpa using h4
      simp only [List.getElem_ofFn, List.getElem_map]
      congr 1
      funext r
      refine (tableArr_get _ _ _ _).trans ?_
      simp only [List.getElem?_map, List.getElem?_eq_getElem hi, Option.map_some, Option.bind_some,
        List.getElem?_eq_getElem hs, Option.join_some]
      cases (row dvs[i])[s] <;> simp [optVotes]

theorem filterRows_single (l : List (Fl K)) :
    filterRows (l.map fun x => [x]) = .ok ((dropNan l).map fun x => [x]) := by
  induction l with
  | nil => rfl
  | cons x l ih =>
    simp only [List.map_cons, filterRows, isnanArr, ih, dropNan, List.filter_cons]
    cases x.isNan <;> simp

theorem filterRows_type (a : List (Fl K)) (l : List (List (Fl K))) (h : a.length ≠ 1) :
    filterRows (a :: l) = .error .type := by
  match a, h with
  | [], _ => rfl
  | [_], h => simp at h
  | _ :: _ :: _, _ => rfl

theorem psVideo_dict {dv : DisVideo κ K} {d : List (κ × Vote K)} (h : dv.os = some (.dict d)) (c : List (Fl K)) :
    psVideo dv (.rows (c.map fun x => [x])) =
      if d.length = (dropNan c).length then
        .ok ((dropNan c).map fun x => { dv with os := none, groundtruth := some (.one x) })
      else .error .assertion := by
  simp only [psVideo, h, psScores, filterRows_single, Os.len, List.length_map]
  by_cases hl : d.length = (dropNan c).length
  · rw [if_pos hl, if_pos hl]
    simp [List.map_map, Function.comp_def, aggVideo, Score.toGt]
  · rw [if_neg hl, if_neg hl]

theorem psVideo_seq {dv : DisVideo κ K} {t} {l : List (Vote K)} (h : dv.os = some (.seq t l)) (c : List (Fl K)) :
    psVideo dv (.rows (c.map fun x => [x])) =
      if l.length = c.length then
        .ok (c.map fun x => { dv with os := none, groundtruth := some (.one x) })
      else .error .assertion := by
  simp only [psVideo, h, psScores, Os.len, List.length_map]
  by_cases hl : l.length = c.length
  · rw [if_pos hl, if_pos hl]
    simp [List.map_map, Function.comp_def, aggVideo, Score.toGt]
  · rw [if_neg hl, if_neg hl]

theorem zip_map_right' {α β : Type} (l : List α) (f : α → β) : l.zip (l.map f) = l.map fun a => (a, f a) := by
  induction l with
  | nil => rfl
  | cons a l ih => simp [ih]

theorem mapPy_map {α β γ : Type} (f : β → Py γ) (g : α → β) (l : List α) :
    mapPy f (l.map g) = mapPy (fun a => f (g a)) l := by
  induction l with
  | nil => rfl
  | cons a l ih => simp only [List.map_cons, mapPy, ih]

/-- counting present votes: one for each entry iff every entry is exactly one number -/
theorem present_count (l : List (Vote K)) (h : ∀ v ∈ l, (votesOf v).length ≤ 1) :
    (dropNan (l.flatMap votesOf)).length ≤ l.length ∧
    (l.length = (dropNan (l.flatMap votesOf)).length ↔ ∀ v ∈ l, ∃ x, votesOf v = [x] ∧ x ≠ .nan) := by
  induction l with
  | nil => simp [dropNan]
  | cons v l ih =>
    obtain ⟨h1, h2⟩ := ih (fun v hv => h v (List.mem_cons_of_mem _ hv))
    have hv := h v (by simp)
    simp only [List.flatMap_cons, dropNan, List.filter_append, List.length_append, List.length_cons,
      List.forall_mem_cons] at h1 h2 ⊢
    match hvv : votesOf v, hv with
    | [], _ =>
      simp only [List.filter_nil, List.length_nil, Nat.zero_add]
      refine ⟨by omega, ⟨fun h => absurd h (by omega), fun h => ?_⟩⟩
      obtain ⟨⟨x, hx, _⟩, _⟩ := h
      cases hx
    | [x], _ =>
      by_cases hx : x = .nan
      · subst hx
        have : ([Fl.nan] : List (Fl K)).filter (fun x => !x.isNan) = [] := rfl
        rw [this]
        simp only [List.length_nil, Nat.zero_add]
        refine ⟨by omega, ⟨fun h => absurd h (by omega), fun h => ?_⟩⟩
        obtain ⟨⟨x, hx, hn⟩, _⟩ := h
        cases hx; exact absurd rfl hn
      · have hn : x.isNan = false := by
          cases x <;> first | rfl | exact absurd rfl hx
        have : ([x] : List (Fl K)).filter (fun x => !x.isNan) = [x] := by simp [hn]
        rw [this]
        simp only [List.length_singleton]
        refine ⟨by omega, ⟨fun h => ⟨⟨x, rfl, hx⟩, h2.mp (by omega)⟩, fun h => ?_⟩⟩
        have := h2.mpr h.2
        omega

theorem notNan_of_ne {x : Fl K} (h : x ≠ .nan) : x.isNan = false := by
  cases x <;> first | rfl | exact absurd rfl h

/-- the present cells of a one-repetition row -/
theorem cells_present [DecidableEq κ] (dd : List (κ × Vote K)) (obs : List κ)
    (hle : ∀ o v, dd.lookup o = some v → (votesOf v).length ≤ 1) :
    dropNan (obs.map fun o => ((dd.lookup o).bind fun v => (votesOf v).head?).getD .nan)
      = obs.flatMap fun o => dropNan (optVotes (dd.lookup o)) := by
  induction obs with
  | nil => rfl
  | cons o l ih =>
    rw [List.map_cons, List.flatMap_cons, ← ih]
    have h1 : ∀ (x : Fl K) l, dropNan (x :: l) = dropNan [x] ++ dropNan l := by
      intro x l
      simp only [dropNan, ← List.filter_append, List.singleton_append]
    rw [h1]
    congr 1
    cases hv : dd.lookup o with
    | none => rfl
    | some v =>
      have := hle o v hv
      match hvv : votesOf v, this with
      | [], _ => simp [optVotes, hvv]; rfl
      | [x], _ => simp [optVotes, hvv]

theorem dropNan_getD {α : Type} (l : List α) (f : α → Option (Fl K)) (h : ∀ o x, f o = some x → x ≠ .nan) :
    dropNan (l.map fun o => (f o).getD .nan) = l.filterMap f := by
  induction l with
  | nil => rfl
  | cons o l ih =>
    simp only [dropNan, List.map_cons, List.filter_cons, List.filterMap_cons] at ih ⊢
    cases hf : f o with
    | none => simpa [Fl.isNan] using ih
    | some x => simp [notNan_of_ne (h o x hf), ih]

theorem dropNan_oneVote {dv : DisVideo κ K} (h : OneVoteEach dv) : dropNan (videoVotes dv) = videoVotes dv := by
  unfold dropNan
  rw [List.filter_eq_self]
  intro x hx
  obtain ⟨v, hv, hx⟩ := List.mem_flatMap.mp hx
  obtain ⟨y, hy, hn⟩ := h v hv
  rw [hy, List.mem_singleton] at hx
  subst hx
  simp [notNan_of_ne hn]

end Sureal.Conv
