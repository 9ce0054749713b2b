import Verif.Model.Pc
import Verif.Spec.Pc
import Verif.Lemmas.Overlap
import Mathlib.Data.List.Sort
/-!
# Lemmas on the conversion to paired comparisons
-/
set_option linter.unusedSectionVars false
namespace Sureal.Pc
open Sureal.Conv Sureal.Spec
variable {κ K : Type} [DecidableEq κ]

/-- what a subject rated, in the order of the videos -/
def ratings (dvs : List (DisVideo κ K)) (s : κ) : List (Rating K) :=
  dvs.filterMap fun v => (entryOf v s).map fun x => ⟨v.assetId, x, v.contentId⟩

theorem foldPy_append {α β : Type} (f : β → α → Py β) (b : β) (l l' : List α) :
    foldPy f b (l ++ l') = match foldPy f b l with | .error e => .error e | .ok b' => foldPy f b' l' := by
  induction l generalizing b with
  | nil => rfl
  | cons a l ih =>
    simp only [List.cons_append, foldPy]
    cases f b a with
    | error e => rfl
    | ok b' => exact ih b'

theorem any_asset {rs : List (Rating K)} {a : Int} :
    (rs.any fun r => decide (r.asset = a)) = true ↔ a ∈ rs.map (·.asset) := by
  simp

/-- the state before and after the entries of one video -/
theorem addVideo_fold (dv : DisVideo κ K) : ∀ (d : List (κ × Vote K)) (acc : List (κ × List (Rating K)))
    (hn : (acc.map Prod.fst).Nodup) (hd : (d.map Prod.fst).Nodup),
    ((∀ p ∈ d, dv.assetId ∉ ((acc.lookup p.1).getD []).map (·.asset)) →
      ∃ acc', foldPy (addRating dv) acc d = .ok acc' ∧ (acc'.map Prod.fst).Nodup ∧
        ∀ s, (acc'.lookup s).getD [] = (acc.lookup s).getD [] ++
          ((d.lookup s).map fun x => (⟨dv.assetId, x, dv.contentId⟩ : Rating K)).toList) ∧
    ((∃ p ∈ d, dv.assetId ∈ ((acc.lookup p.1).getD []).map (·.asset)) →
      foldPy (addRating dv) acc d = .error .assertion)
  | [], acc, hn, _ => ⟨fun _ => ⟨acc, rfl, hn, fun s => by simp⟩, fun ⟨p, hp, _⟩ => by cases hp⟩
  | p :: d, acc, hn, hd => by
    rw [List.map_cons, List.nodup_cons] at hd
    by_cases hc : dv.assetId ∈ ((acc.lookup p.1).getD []).map (·.asset)
    · refine ⟨fun h => absurd hc (h p (by simp)), fun _ => ?_⟩
      simp only [foldPy, addRating]
      rw [if_pos (any_asset.mpr hc)]
    · have hstep : addRating dv acc p = .ok (dictSet acc p.1
          ((acc.lookup p.1).getD [] ++ [⟨dv.assetId, p.2, dv.contentId⟩])) := by
        simp only [addRating]
        rw [if_neg (fun h => hc (any_asset.mp h))]
      have hother : ∀ q ∈ d, q.1 ≠ p.1 := fun q hq e => hd.1 (e ▸ List.mem_map_of_mem hq)
      have ih := addVideo_fold dv d (hd := hd.2) (hn := dictSet_nodup _ _ _ hn) (acc := dictSet acc p.1
          ((acc.lookup p.1).getD [] ++ [⟨dv.assetId, p.2, dv.contentId⟩]))
      have hl : ∀ q ∈ d, (dictSet acc p.1
          ((acc.lookup p.1).getD [] ++ [⟨dv.assetId, p.2, dv.contentId⟩])).lookup q.1 = acc.lookup q.1 := by
        intro q hq
        rw [dictSet_lookup, if_neg (hother q hq)]
      constructor
      · intro h
        obtain ⟨acc', e, n', hs⟩ := ih.1 (by
          intro q hq
          rw [hl q hq]
          exact h q (by simp [hq]))
        refine ⟨acc', by simp only [foldPy, hstep]; exact e, n', ?_⟩
        intro s
        rw [hs, dictSet_lookup, lookup_cons_if]
        by_cases hsp : s = p.1
        · rw [if_pos hsp, if_pos hsp, hsp]
          have : d.lookup p.1 = none := (lookup_none_iff _ _).mpr hd.1
          rw [this]
          simp
        · rw [if_neg hsp, if_neg hsp]
      · rintro ⟨q, hq, hqc⟩
        rcases List.mem_cons.mp hq with rfl | hq
        · exact absurd hqc hc
        · simp only [foldPy, hstep]
          exact ih.2 ⟨q, hq, by rw [hl q hq]; exact hqc⟩

theorem ratings_append (l l' : List (DisVideo κ K)) (s : κ) : ratings (l ++ l') s = ratings l s ++ ratings l' s := by
  simp [ratings]

theorem ratings_assets (dvs : List (DisVideo κ K)) (s : κ) :
    (ratings dvs s).map (·.asset) = (dvs.filter fun v => (entryOf v s).isSome).map (·.assetId) := by
  induction dvs with
  | nil => rfl
  | cons v l ih =>
    simp only [ratings, List.filterMap_cons, List.filter_cons] at ih ⊢
    cases h : entryOf v s with
    | none => simpa using ih
    | some x => simpa using ih

theorem noRepeat_iff (dvs : List (DisVideo κ K)) :
    NoRepeat dvs ↔ ∀ s, ((ratings dvs s).map (·.asset)).Nodup := by
  unfold NoRepeat
  simp only [ratings_assets]

theorem ratings_single {v : DisVideo κ K} {d : List (κ × Vote K)} (h : v.os = some (.dict d)) (s : κ) :
    ratings [v] s = ((d.lookup s).map fun x => (⟨v.assetId, x, v.contentId⟩ : Rating K)).toList := by
  simp only [ratings, List.filterMap_cons, List.filterMap_nil, entryOf_dict h]
  cases d.lookup s <;> rfl

theorem subjRatings_fold : ∀ (dvs pre : List (DisVideo κ K)) (acc : List (κ × List (Rating K))),
    (acc.map Prod.fst).Nodup → (∀ s, (acc.lookup s).getD [] = ratings pre s) → NoRepeat pre →
    (∀ v ∈ dvs, DictStyle v) →
    (NoRepeat (pre ++ dvs) → ∃ m, foldPy addVideo acc dvs = .ok m ∧ (m.map Prod.fst).Nodup ∧
      ∀ s, (m.lookup s).getD [] = ratings (pre ++ dvs) s) ∧
    (¬ NoRepeat (pre ++ dvs) → foldPy addVideo acc dvs = .error .assertion)
  | [], pre, acc, hn, hs, hp, _ => by
    rw [List.append_nil]
    exact ⟨fun _ => ⟨acc, rfl, hn, hs⟩, fun h => absurd hp h⟩
  | v :: dvs, pre, acc, hn, hs, hp, hd => by
    obtain ⟨d, ho, hdn⟩ := hd v (by simp)
    have hstep := addVideo_fold v d acc hn hdn
    have hadd : addVideo acc v = foldPy (addRating v) acc d := by simp only [addVideo, ho]
    have hlook : ∀ p ∈ d, d.lookup p.1 = some p.2 := by
      intro p hpd
      exact (lookup_eq_some_iff hdn).mpr hpd
    by_cases hc : ∃ p ∈ d, v.assetId ∈ ((acc.lookup p.1).getD []).map (·.asset)
    · have hbad : ¬ NoRepeat (pre ++ (v :: dvs)) := by
        obtain ⟨p, hpd, hm⟩ := hc
        rw [noRepeat_iff]
        intro h
        have := h p.1
        rw [show pre ++ v :: dvs = pre ++ ([v] ++ dvs) by simp, ratings_append, ratings_append,
          ratings_single ho, hlook p hpd, List.map_append, List.map_append] at this
        rw [hs] at hm
        exact (List.disjoint_of_nodup_append this) hm (by simp)
      refine ⟨fun h => absurd h hbad, fun _ => ?_⟩
      simp only [foldPy, hadd, hstep.2 hc]
    · push Not at hc
      obtain ⟨acc', e, n', hs'⟩ := hstep.1 hc
      have hs'' : ∀ s, (acc'.lookup s).getD [] = ratings (pre ++ [v]) s := by
        intro s
        rw [hs', hs, ratings_append, ratings_single ho]
      have hp' : NoRepeat (pre ++ [v]) := by
        rw [noRepeat_iff] at hp ⊢
        intro s
        rw [ratings_append, ratings_single ho, List.map_append]
        cases hl : d.lookup s with
        | none => simpa using hp s
        | some x =>
          have hx := (lookup_eq_some_iff hdn).mp hl
          have := hc _ hx
          rw [hs] at this
          rw [List.nodup_append]
          refine ⟨hp s, by simp, ?_⟩
          intro a ha b hb
          simp at hb
          subst hb
          rintro rfl
          exact this ha
      have ih := subjRatings_fold dvs (pre ++ [v]) acc' n' hs'' hp' (fun w hw => hd w (by simp [hw]))
      rw [List.append_assoc, List.singleton_append] at ih
      have hf : foldPy addVideo acc (v :: dvs) = foldPy addVideo acc' dvs := by
        simp only [foldPy, hadd, e]
      rw [hf]
      exact ih

theorem subjRatings_ok {dvs : List (DisVideo κ K)} (hd : ∀ v ∈ dvs, DictStyle v) (hr : NoRepeat dvs) :
    ∃ m, subjRatings dvs = .ok m ∧ (m.map Prod.fst).Nodup ∧ ∀ s, (m.lookup s).getD [] = ratings dvs s := by
  have := (subjRatings_fold dvs [] [] (by simp) (by intro s; rfl) (by intro s; simp) hd).1
  rw [List.nil_append] at this
  exact this hr

theorem subjRatings_err {dvs : List (DisVideo κ K)} (hd : ∀ v ∈ dvs, DictStyle v) (hr : ¬ NoRepeat dvs) :
    subjRatings dvs = .error .assertion := by
  have := (subjRatings_fold dvs [] [] (by simp) (by intro s; rfl) (by intro s; simp) hd).2
  rw [List.nil_append] at this
  exact this hr

/-! ### the jobs -/

/-- the ratings sorted by asset id -/
def sorted (rs : List (Rating K)) : List (Rating K) := rs.insertionSort fun r r' => r.asset ≤ r'.asset

theorem mem_sorted {rs : List (Rating K)} {r : Rating K} : r ∈ sorted rs ↔ r ∈ rs :=
  (List.perm_insertionSort _ rs).mem_iff

theorem sorted_lt {rs : List (Rating K)} (h : (rs.map (·.asset)).Nodup) :
    (sorted rs).Pairwise fun r r' => r.asset < r'.asset := by
  have hs : (sorted rs).Pairwise fun r r' => r.asset ≤ r'.asset := by
    haveI : Std.Total (fun r r' : Rating K => r.asset ≤ r'.asset) := ⟨fun a b => le_total a.asset b.asset⟩
    haveI : IsTrans (Rating K) (fun r r' => r.asset ≤ r'.asset) := ⟨fun a b c h1 h2 => le_trans (α := Int) h1 h2⟩
    exact List.pairwise_insertionSort _ rs
  have hn : (sorted rs).Pairwise fun r r' => r.asset ≠ r'.asset := by
    have : ((sorted rs).map (·.asset)).Nodup := ((List.perm_insertionSort _ rs).map _).nodup_iff.mpr h
    exact List.pairwise_map.mp this
  exact (hs.and hn).imp fun h => lt_of_le_of_ne h.1 h.2

theorem mem_jobsOf {s : κ} {rs : List (Rating K)} {j : Job κ K} : j ∈ jobsOf s rs ↔
    j.subj = s ∧ j.idx2 < j.idx ∧ (sorted rs)[j.idx]? = some j.x ∧ (sorted rs)[j.idx2]? = some j.y := by
  unfold jobsOf
  change j ∈ (sorted rs).zipIdx.flatMap _ ↔ _
  rw [List.mem_flatMap]
  constructor
  · rintro ⟨⟨x, i⟩, hx, hj⟩
    obtain ⟨⟨y, k⟩, hy, rfl⟩ := List.mem_map.mp hj
    rw [List.mem_zipIdx_iff_getElem?] at hx hy
    dsimp only at hx hy ⊢
    rw [show (List.insertionSort (fun r r' : Rating K => r.asset ≤ r'.asset) rs) = sorted rs from rfl,
      List.getElem?_take] at hy
    split at hy
    · exact ⟨rfl, by assumption, hx, hy⟩
    · cases hy
  · rintro ⟨rfl, hlt, hx, hy⟩
    refine ⟨(j.x, j.idx), List.mem_zipIdx_iff_getElem?.mpr hx, List.mem_map.mpr ⟨(j.y, j.idx2), ?_, rfl⟩⟩
    rw [List.mem_zipIdx_iff_getElem?]
    dsimp only
    rw [show (List.insertionSort (fun r r' : Rating K => r.asset ≤ r'.asset) rs) = sorted rs from rfl,
      List.getElem?_take, if_pos hlt]
    exact hy

/-- what identifies a comparison -/
def Job.id (j : Job κ K) : κ × Int × Int := (j.subj, j.x.asset, j.y.asset)

theorem zipIdx_pairwise {α : Type} (l : List α) : l.zipIdx.Pairwise fun q q' => q.2 ≠ q'.2 := by
  have : (l.zipIdx.map Prod.snd).Nodup := by
    rw [List.zipIdx_map_snd]
    exact List.nodup_range'
  exact List.pairwise_map.mp this

theorem jobsOf_idx (s : κ) (rs : List (Rating K)) :
    (jobsOf s rs).Pairwise fun j j' => (j.idx, j.idx2) ≠ (j'.idx, j'.idx2) := by
  unfold jobsOf
  dsimp only
  rw [List.pairwise_flatMap]
  constructor
  · intro p _
    rw [List.pairwise_map]
    have : (List.zipIdx (List.take p.2 (rs.insertionSort fun r r' => r.asset ≤ r'.asset))).Pairwise
        fun q q' => q.2 ≠ q'.2 := zipIdx_pairwise _
    refine this.imp ?_
    intro q q' h e
    exact h (Prod.mk.inj e).2
  · have : (List.zipIdx (rs.insertionSort fun r r' => r.asset ≤ r'.asset)).Pairwise
        fun q q' => q.2 ≠ q'.2 := zipIdx_pairwise _
    refine this.imp ?_
    intro q q' h j hj j' hj' e
    obtain ⟨_, _, rfl⟩ := List.mem_map.mp hj
    obtain ⟨_, _, rfl⟩ := List.mem_map.mp hj'
    exact h (Prod.mk.inj e).1

theorem sorted_asset_inj {rs : List (Rating K)} (h : (rs.map (·.asset)).Nodup) {i k : ℕ} {x y : Rating K}
    (hi : (sorted rs)[i]? = some x) (hk : (sorted rs)[k]? = some y) (e : x.asset = y.asset) : i = k := by
  have hs := sorted_lt h
  obtain ⟨hi', rfl⟩ := List.getElem?_eq_some_iff.mp hi
  obtain ⟨hk', rfl⟩ := List.getElem?_eq_some_iff.mp hk
  rw [List.pairwise_iff_getElem] at hs
  rcases Nat.lt_trichotomy i k with hlt | heq | hgt
  · exact absurd e (ne_of_lt (hs i k hi' hk' hlt))
  · exact heq
  · exact absurd e.symm (ne_of_lt (hs k i hk' hi' hgt))

theorem jobsOf_lt {s : κ} {rs : List (Rating K)} (h : (rs.map (·.asset)).Nodup) {j : Job κ K}
    (hj : j ∈ jobsOf s rs) : j.x ∈ rs ∧ j.y ∈ rs ∧ j.y.asset < j.x.asset := by
  obtain ⟨-, hlt, hx, hy⟩ := mem_jobsOf.mp hj
  refine ⟨mem_sorted.mp (List.mem_of_getElem? hx), mem_sorted.mp (List.mem_of_getElem? hy), ?_⟩
  have hs := sorted_lt h
  obtain ⟨hi', hx'⟩ := List.getElem?_eq_some_iff.mp hx
  obtain ⟨hk', hy'⟩ := List.getElem?_eq_some_iff.mp hy
  rw [List.pairwise_iff_getElem] at hs
  have := hs j.idx2 j.idx hk' hi' hlt
  rw [hx', hy'] at this
  exact this

theorem jobsOf_complete {s : κ} {rs : List (Rating K)} (h : (rs.map (·.asset)).Nodup) {x y : Rating K}
    (hx : x ∈ rs) (hy : y ∈ rs) (hlt : y.asset < x.asset) : ∃ j ∈ jobsOf s rs, j.x = x ∧ j.y = y := by
  obtain ⟨i, hi⟩ := List.mem_iff_getElem?.mp (mem_sorted.mpr hx)
  obtain ⟨k, hk⟩ := List.mem_iff_getElem?.mp (mem_sorted.mpr hy)
  refine ⟨⟨s, i, k, x, y⟩, mem_jobsOf.mpr ⟨rfl, ?_, hi, hk⟩, rfl, rfl⟩
  have hs := sorted_lt h
  obtain ⟨hi', hx'⟩ := List.getElem?_eq_some_iff.mp hi
  obtain ⟨hk', hy'⟩ := List.getElem?_eq_some_iff.mp hk
  rw [List.pairwise_iff_getElem] at hs
  dsimp only
  rcases Nat.lt_trichotomy i k with hlt' | heq | hgt
  · have := hs i k hi' hk' hlt'
    rw [hx', hy'] at this
    omega
  · subst heq
    rw [hi] at hk
    cases hk
    omega
  · exact hgt

/-- all comparisons of a table of ratings -/
abbrev jobs (m : List (κ × List (Rating K))) : List (Job κ K) := m.flatMap fun p => jobsOf p.1 p.2

theorem lookup_mem {β : Type} {m : List (κ × β)} (hn : (m.map Prod.fst).Nodup) {p : κ × β} (hp : p ∈ m) :
    m.lookup p.1 = some p.2 := by
  induction m with
  | nil => cases hp
  | cons q m ih =>
    rw [List.map_cons, List.nodup_cons] at hn
    rw [show q = (q.1, q.2) from rfl, lookup_cons_if]
    rcases List.mem_cons.mp hp with rfl | hp
    · rw [if_pos rfl]
    · rw [if_neg (fun (e : p.1 = q.1) => hn.1 (e ▸ List.mem_map_of_mem hp)), ih hn.2 hp]

theorem mem_of_lookup' {β : Type} {m : List (κ × β)} {s : κ} {rs : β} (hl : m.lookup s = some rs) :
    (s, rs) ∈ m := by
  induction m with
  | nil => cases hl
  | cons q m ih =>
    rw [show q = (q.1, q.2) from rfl, lookup_cons_if] at hl
    split at hl
    · cases hl
      subst s
      simp
    · exact List.mem_cons_of_mem _ (ih hl)

section table
variable {dvs : List (DisVideo κ K)} {m : List (κ × List (Rating K))}

/-- the table describes the videos -/
structure TableOf (dvs : List (DisVideo κ K)) (m : List (κ × List (Rating K))) : Prop where
  nodup : (m.map Prod.fst).Nodup
  rows : ∀ s, (m.lookup s).getD [] = ratings dvs s
  once : ∀ s, ((ratings dvs s).map (·.asset)).Nodup

theorem TableOf.row (t : TableOf dvs m) {p : κ × List (Rating K)} (hp : p ∈ m) : p.2 = ratings dvs p.1 := by
  rw [← t.rows, lookup_mem t.nodup hp]
  rfl

theorem TableOf.job_mem (t : TableOf dvs m) {j : Job κ K} (hj : j ∈ jobs m) :
    j ∈ jobsOf j.subj (ratings dvs j.subj) := by
  obtain ⟨p, hp, hj⟩ := List.mem_flatMap.mp hj
  have hs := (mem_jobsOf.mp hj).1
  rw [t.row hp] at hj
  rw [hs]
  exact hj

theorem TableOf.job (t : TableOf dvs m) {j : Job κ K} (hj : j ∈ jobs m) :
    j.x ∈ ratings dvs j.subj ∧ j.y ∈ ratings dvs j.subj ∧ j.y.asset < j.x.asset :=
  jobsOf_lt (t.once _) (t.job_mem hj)

theorem TableOf.job_exists (t : TableOf dvs m) {s : κ} {x y : Rating K} (hx : x ∈ ratings dvs s)
    (hy : y ∈ ratings dvs s) (hlt : y.asset < x.asset) : ∃ j ∈ jobs m, j.subj = s ∧ j.x = x ∧ j.y = y := by
  obtain ⟨j, hj, h1, h2⟩ := jobsOf_complete (s := s) (t.once s) hx hy hlt
  refine ⟨j, ?_, (mem_jobsOf.mp hj).1, h1, h2⟩
  have hr := t.rows s
  cases hl : m.lookup s with
  | none =>
    rw [hl] at hr
    rw [← hr] at hx
    cases hx
  | some rs =>
    rw [hl] at hr
    rw [List.mem_flatMap]
    exact ⟨(s, rs), mem_of_lookup' hl, by rw [show rs = ratings dvs s from hr]; exact hj⟩

theorem TableOf.pairwise (t : TableOf dvs m) : (jobs m).Pairwise fun j j' => j.id ≠ j'.id := by
  rw [List.pairwise_flatMap]
  constructor
  · intro p hp
    have hn : (p.2.map (·.asset)).Nodup := by rw [t.row hp]; exact t.once _
    refine (jobsOf_idx p.1 p.2).imp_of_mem ?_
    intro j j' hj hj' hne e
    obtain ⟨-, -, hx, hy⟩ := mem_jobsOf.mp hj
    obtain ⟨-, -, hx', hy'⟩ := mem_jobsOf.mp hj'
    simp only [Job.id, Prod.mk.injEq] at e
    exact hne (by rw [sorted_asset_inj hn hx hx' e.2.1, sorted_asset_inj hn hy hy' e.2.2])
  · have := List.pairwise_map.mp t.nodup
    refine this.imp ?_
    intro p q h j hj j' hj' e
    simp only [Job.id, Prod.mk.injEq] at e
    exact h (by rw [← (mem_jobsOf.mp hj).1, ← (mem_jobsOf.mp hj').1, e.1])

end table

/-! ### ratings of an asset -/

theorem ratingOf_eq (dvs : List (DisVideo κ K)) (s : κ) (a : Int) :
    ratingOf dvs s a = ((ratings dvs s).find? fun r => decide (r.asset = a)).map fun r => (r.score, r.content) := by
  induction dvs with
  | nil => rfl
  | cons v l ih =>
    simp only [ratingOf, ratings, List.findSome?_cons, List.filterMap_cons] at ih ⊢
    cases he : entryOf v s with
    | none => simpa using ih
    | some x =>
      by_cases ha : v.assetId = a
      · simp [ha]
      · simpa [ha] using ih

theorem ratingOf_iff {dvs : List (DisVideo κ K)} {s : κ} (h : ((ratings dvs s).map (·.asset)).Nodup) {a : Int}
    {x : Vote K} {c : Int} : ratingOf dvs s a = some (x, c) ↔ (⟨a, x, c⟩ : Rating K) ∈ ratings dvs s := by
  rw [ratingOf_eq]
  generalize ratings dvs s = rs at h ⊢
  induction rs with
  | nil => simp
  | cons r rs ih =>
    rw [List.map_cons, List.nodup_cons] at h
    obtain ⟨ra, rx, rc⟩ := r
    by_cases ha : ra = a
    · subst ha
      simp only [List.find?_cons, decide_true, Option.map_some, Option.some.injEq, Prod.mk.injEq, List.mem_cons,
        Rating.mk.injEq, true_and]
      constructor
      · rintro ⟨rfl, rfl⟩; exact .inl ⟨rfl, rfl⟩
      · rintro (⟨rfl, rfl⟩ | hm)
        · exact ⟨rfl, rfl⟩
        · exact absurd (List.mem_map_of_mem hm) h.1
    · rw [List.find?_cons]
      simp only [ha, decide_false]
      rw [ih h.2, List.mem_cons]
      simp [Ne.symm ha]

/-! ### the index of a video -/

theorem videoIdx_iff (dvs : List (DisVideo κ K)) (a : Int) (i : ℕ) : videoIdx dvs a = some i ↔
    ∃ v, dvs[i]? = some v ∧ v.assetId = a ∧ ∀ k v', i < k → dvs[k]? = some v' → v'.assetId ≠ a := by
  induction dvs using List.reverseRecOn with
  | nil => simp [videoIdx]
  | append_singleton l v ih =>
    have hsplit : videoIdx (l ++ [v]) a = if v.assetId = a then some l.length else videoIdx l a := by
      simp only [videoIdx, List.zipIdx_append, List.filter_append, List.map_append]
      by_cases h : v.assetId = a
      · simp [h]
      · simp [h]
    rw [hsplit]
    split
    · rename_i h
      constructor
      · intro e
        cases e
        refine ⟨v, by simp, h, ?_⟩
        intro k v' hk hv'
        rw [List.getElem?_eq_none (by simp; omega)] at hv'
        cases hv'
      · rintro ⟨w, hw, hwa, hl⟩
        by_cases hi : i = l.length
        · rw [hi]
        · have hlt : i < (l ++ [v]).length := by
            by_contra hc
            rw [List.getElem?_eq_none (by omega)] at hw
            cases hw
          simp at hlt
          exact absurd h (hl l.length v (by omega) (by simp))
    · rename_i h
      rw [ih]
      constructor
      · rintro ⟨w, hw, hwa, hl⟩
        have hlt : i < l.length := by
          by_contra hc
          rw [List.getElem?_eq_none (by omega)] at hw
          cases hw
        refine ⟨w, by rw [List.getElem?_append_left hlt]; exact hw, hwa, ?_⟩
        intro k v' hk hv'
        by_cases hkl : k < l.length
        · rw [List.getElem?_append_left hkl] at hv'
          exact hl k v' hk hv'
        · rw [List.getElem?_append_right (by omega)] at hv'
          cases hz : k - l.length with
          | zero => rw [hz] at hv'; cases hv'; exact h
          | succ z => rw [hz] at hv'; cases hv'
      · rintro ⟨w, hw, hwa, hl⟩
        have hlt : i < l.length := by
          by_contra hc
          rw [List.getElem?_append_right (by omega)] at hw
          cases hz : i - l.length with
          | zero => rw [hz] at hw; cases hw; exact h hwa
          | succ z => rw [hz] at hw; cases hw
        rw [List.getElem?_append_left hlt] at hw
        refine ⟨w, hw, hwa, ?_⟩
        intro k v' hk hv'
        have hkl : k < l.length := by
          by_contra hc
          rw [List.getElem?_eq_none (by omega)] at hv'
          cases hv'
        exact hl k v' hk (by rw [List.getElem?_append_left hkl]; exact hv')

/-! ### the dictionary of a new video -/

/-- dictionary lookup with the equality test of the key type -/
def dictGet {α β : Type} [DecidableEq α] (l : List (α × β)) (k : α) : Option β := l.lookup k

theorem dictAt_lookup (dvs : List (DisVideo κ K)) (ws : List (Write κ K)) (i : ℕ) (k : κ × Int) :
    dictGet (dictAt dvs ws i) k =
      ((ws.filter fun w => decide (videoIdx dvs w.video = some i ∧ w.key = k)).getLast?).map fun w => .one w.val := by
  induction ws using List.reverseRecOn with
  | nil => rfl
  | append_singleton l w ih =>
    unfold dictAt at ih ⊢
    rw [List.foldl_append, List.foldl_cons, List.foldl_nil, List.filter_append]
    by_cases hv : videoIdx dvs w.video = some i
    · unfold dictGet at ih ⊢
      rw [if_pos hv, dictSet_lookup]
      by_cases hk : w.key = k
      · subst hk
        simp [hv]
      · rw [if_neg (Ne.symm hk), ih]
        simp [hk]
    · rw [if_neg hv, ih]
      simp [hv]

theorem dictAt_nodup (dvs : List (DisVideo κ K)) (ws : List (Write κ K)) (i : ℕ) :
    ((dictAt dvs ws i).map Prod.fst).Nodup := by
  induction ws using List.reverseRecOn with
  | nil => simp [dictAt]
  | append_singleton l w ih =>
    unfold dictAt at ih ⊢
    rw [List.foldl_append, List.foldl_cons, List.foldl_nil]
    split
    · exact dictSet_nodup _ _ _ ih
    · exact ih

end Sureal.Pc
