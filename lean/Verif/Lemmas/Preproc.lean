import Verif.Lemmas.Mos
import Verif.Lemmas.Dataset
import Verif.Spec.Reference
/-! Helper lemmas for the preprocessing steps. -/
set_option linter.unusedSectionVars false
namespace Sureal
open Spec Fl

section lists
variable {α : Type}

theorem mem_indices {l : List α} {f : α → Bool} {i : Nat} :
    i ∈ indices l f ↔ ∃ x, l[i]? = some x ∧ f x = true := by
  unfold indices
  rw [List.mem_filterMap]
  constructor
  · rintro ⟨⟨x, j⟩, hx, h⟩
    have := List.mem_zipIdx_iff_getElem?.mp hx
    dsimp only at h this
    split at h
    · cases h; exact ⟨x, this, by assumption⟩
    · cases h
  · rintro ⟨x, hx, hf⟩
    exact ⟨(x, i), List.mem_zipIdx_iff_getElem?.mpr hx, by simp [hf]⟩

theorem indices_pairwise (l : List α) (f : α → Bool) : (indices l f).Pairwise (· < ·) := by
  unfold indices
  have : (l.zipIdx).Pairwise (fun a b => a.2 < b.2) := by
    rw [← List.pairwise_map (f := Prod.snd) (R := fun a b => a < b)]
    rw [List.zipIdx_map_snd]
    exact List.pairwise_lt_range'
  apply List.Pairwise.filterMap _ _ this
  rintro ⟨x, i⟩ ⟨y, j⟩ hij a ha b hb
  dsimp only at ha hb hij
  split at ha <;> split at hb <;> simp_all

theorem indices_eq_singleton {l : List α} {f : α → Bool} {i : Nat} :
    indices l f = [i] ↔ (∃ x, l[i]? = some x ∧ f x = true) ∧ ∀ j x, l[j]? = some x → f x = true → j = i := by
  constructor
  · intro h
    refine ⟨mem_indices.mp (by simp [h]), fun j x hj hf => ?_⟩
    have : j ∈ indices l f := mem_indices.mpr ⟨x, hj, hf⟩
    simpa [h] using this
  · rintro ⟨h1, h2⟩
    have hm := mem_indices.mpr h1
    have hn : (indices l f).Nodup := (indices_pairwise l f).imp (fun h => Nat.ne_of_lt h)
    have hall : ∀ j ∈ indices l f, j = i := by
      intro j hj
      obtain ⟨x, hx, hf⟩ := mem_indices.mp hj
      exact h2 j x hx hf
    match h : indices l f with
    | [] => simp [h] at hm
    | [j] => rw [h] at hall; simp [hall j (by simp)]
    | j :: k :: t =>
      rw [h] at hall hn
      have h1 := hall j (by simp)
      have h2 := hall k (by simp)
      simp [h1, h2] at hn

end lists

section refs
variable {κ K : Type}

theorem refVideoOf_eq_some {refs : List RefVideo} {c : Int} {r : RefVideo} :
    refVideoOf refs c = some r ↔ RefFor refs c r := by
  unfold refVideoOf
  induction refs using List.reverseRecOn with
  | nil => simp [RefFor]
  | append_singleton l x ih =>
    rw [List.foldl_append]
    simp only [List.foldl_cons, List.foldl_nil]
    split
    · rename_i hx
      constructor
      · intro h; cases h
        exact ⟨l, [], by simp, hx, by simp⟩
      · rintro ⟨l1, l2, h, hc, hl⟩
        rcases List.eq_nil_or_concat l2 with rfl | ⟨l3, y, rfl⟩
        · have := List.append_inj_right' h rfl
          simp_all
        · rw [List.concat_eq_append, ← List.cons_append, ← List.append_assoc] at h
          have := List.append_inj_right' h rfl
          simp only [List.cons.injEq, and_true] at this
          subst this
          exact absurd hx (hl x (by simp))
    · rename_i hx
      rw [ih]
      constructor
      · rintro ⟨l1, l2, rfl, hc, hl⟩
        exact ⟨l1, l2 ++ [x], by simp, hc, by
          intro r' hr'
          rcases List.mem_append.mp hr' with h | h
          · exact hl r' h
          · simp at h; subst h; exact hx⟩
      · rintro ⟨l1, l2, h, hc, hl⟩
        rcases List.eq_nil_or_concat l2 with rfl | ⟨l3, y, rfl⟩
        · have := List.append_inj_right' h rfl
          simp only [List.cons.injEq, and_true] at this
          subst this; exact absurd hc hx
        · rw [List.concat_eq_append, ← List.cons_append, ← List.append_assoc] at h
          have h1 := List.append_inj_left' h rfl
          exact ⟨l1, l3, h1, hc, fun r' hr' => hl r' (by simp [hr'])⟩

theorem exists_refFor {refs : List RefVideo} {c : Int} (h : ∃ r ∈ refs, r.contentId = c) : ∃ r, RefFor refs c r := by
  obtain ⟨r0, hr0, hc⟩ := h
  induction refs using List.reverseRecOn with
  | nil => simp at hr0
  | append_singleton l x ih =>
    by_cases hx : x.contentId = c
    · exact ⟨x, l, [], by simp, hx, by simp⟩
    · have : r0 ∈ l := by
        rcases List.mem_append.mp hr0 with h | h
        · exact h
        · simp at h; subst h; exact absurd hc hx
      obtain ⟨r, l1, l2, rfl, h2, h3⟩ := ih this
      exact ⟨r, l1, l2 ++ [x], by simp, h2, by
        intro r' hr'
        rcases List.mem_append.mp hr' with h | h
        · exact h3 r' h
        · simp at h; subst h; exact hx⟩

theorem refFor_unique {refs : List RefVideo} {c : Int} {r r' : RefVideo} (h : RefFor refs c r) (h' : RefFor refs c r') :
    r = r' := by
  have h1 := refVideoOf_eq_some.mpr h
  have h2 := refVideoOf_eq_some.mpr h'
  rw [h1] at h2; exact Option.some.inj h2

/-- the flags of an accepted dataset -/
theorem disvideoIsRefvideo_ok {refs : List RefVideo} {dvs : List (DisVideo κ K)}
    (h : ∀ dv ∈ dvs, ∃ r ∈ refs, r.contentId = dv.contentId) :
    ∃ bs, disvideoIsRefvideo refs dvs = .ok bs ∧ bs.length = dvs.length ∧
      ∀ (i : Nat) (dv : DisVideo κ K), dvs[i]? = some dv →
        ∃ b, bs[i]? = some b ∧ (b = true ↔ ∃ r, RefFor refs dv.contentId r ∧ r.path = dv.path) := by
  unfold disvideoIsRefvideo
  induction dvs with
  | nil => exact ⟨[], rfl, rfl, by simp⟩
  | cons d l ih =>
    obtain ⟨bs, h1, h2, h3⟩ := ih (fun dv hdv => h dv (by simp [hdv]))
    obtain ⟨r, hr⟩ := exists_refFor (h d (by simp))
    refine ⟨decide (r.path = d.path) :: bs, ?_, by simp [h2], ?_⟩
    · simp only [mapPy, refVideoOf_eq_some.mpr hr]
      rw [h1]
    · intro i dv hi
      cases i with
      | zero =>
        simp only [List.getElem?_cons_zero, Option.some.injEq] at hi
        subst hi
        refine ⟨_, rfl, ?_⟩
        rw [decide_eq_true_eq]
        exact ⟨fun hp => ⟨r, hr, hp⟩, fun ⟨r', hr', hp⟩ => by rw [refFor_unique hr hr']; exact hp⟩
      | succ i =>
        simp only [List.getElem?_cons_succ] at hi ⊢
        exact h3 i dv hi

/-- the hidden-reference search of `_get_ref_mos` finds `[i]` iff `i` is the only hidden reference -/
theorem refSearch {d : Dataset κ K} (h : ∀ dv ∈ d.disVideos, ∃ r ∈ d.refVideos, r.contentId = dv.contentId)
    {bs : List Bool} (hb : disvideoIsRefvideo d.refVideos d.disVideos = .ok bs) (c : Int) (i : Nat) :
    indices ((contentIdOfDisVideos d.disVideos).zip bs) (fun p => p.2 && decide (p.1 = c)) = [i]
      ↔ HiddenRef d c i ∧ ∀ j, HiddenRef d c j → j = i := by
  obtain ⟨bs', h1, h2, h3⟩ := disvideoIsRefvideo_ok h
  rw [hb] at h1; cases h1
  have key : ∀ j, HiddenRef d c j ↔ ∃ x, ((contentIdOfDisVideos d.disVideos).zip bs)[j]? = some x ∧
      (x.2 && decide (x.1 = c)) = true := by
    intro j
    simp only [List.getElem?_zip_eq_some, contentIdOfDisVideos, List.getElem?_map, Bool.and_eq_true,
      decide_eq_true_eq, Prod.exists, Option.map_eq_some_iff]
    constructor
    · rintro ⟨dv, r, hj, hc, hr, hp⟩
      obtain ⟨b, hb1, hb2⟩ := h3 j dv hj
      refine ⟨_, b, ⟨⟨dv, hj, rfl⟩, hb1⟩, hb2.mpr ⟨r, by rw [hc]; exact hr, hp⟩, hc⟩
    · rintro ⟨c', b, ⟨⟨dv, hj, rfl⟩, hb1⟩, hbt, hc⟩
      obtain ⟨b', hb1', hb2⟩ := h3 j dv hj
      rw [hb1] at hb1'; cases hb1'
      obtain ⟨r, hr, hp⟩ := hb2.mp hbt
      exact ⟨dv, r, hj, hc, by rw [← hc]; exact hr, hp⟩
  rw [indices_eq_singleton, key i]
  refine and_congr Iff.rfl ⟨fun hh j hj => ?_, fun hh j x hj hx => ?_⟩
  · obtain ⟨x, hx1, hx2⟩ := (key j).mp hj
    exact hh j x hx1 hx2
  · exact hh j ((key j).mpr ⟨x, hj, hx⟩)

end refs

theorem opinionScores_E {κ K : Type} [LinearOrder κ] {dvs : List (DisVideo κ K)} {a : Arr3D (Fl K)}
    (h : opinionScores dvs = .ok a) : a.E = dvs.length := by
  unfold opinionScores opinionScoresWith at h
  repeat' split at h
  all_goals first | cases h; rfl | cases h

end Sureal

namespace Sureal
open Spec Fl
variable {κ K : Type} [Field K] [LinearOrder K] [IsStrictOrderedRing K]

theorem mapPy_error {α β : Type} {f : α → Py β} {l : List α} {x : α} (hx : x ∈ l)
    (hf : ∀ y ∈ l, ∀ e, f y = .error e → e = .assertion) (he : ∃ e, f x = .error e) : mapPy f l = .error .assertion := by
  induction l with
  | nil => simp at hx
  | cons y l ih =>
    unfold mapPy
    cases hy : f y with
    | error e => rw [hf y (by simp) e hy]
    | ok b =>
      have : x ∈ l := by
        rcases List.mem_cons.mp hx with rfl | h
        · obtain ⟨e, he⟩ := he; rw [hy] at he; cases he
        · exact h
      rw [ih this (fun z hz => hf z (by simp [hz]))]

theorem meanAlongS_shift {E S R : Nat} (a : Arr3 (Fl K) E S R) (e : Fin E) (hc : ∀ s r, NumOrNan (a e s r))
    (rs : K) (m : Fl K) (hm : NumOrNan m) :
    meanAlongS (fun e s r => a e s r + .fin rs - m) e = meanOrNan (videoCells a e) + .fin rs - m := by
  rcases hm with rfl | ⟨v, rfl⟩
  · rw [meanAlongS_spec _ _ (by intro s r; simp; exact Or.inl rfl)]
    have : present (videoCells (fun e s r => a e s r + .fin rs - .nan) e) = [] := by
      rw [videoCells_map (fun x : Fl K => x + Fl.fin rs - Fl.nan) a e]
      unfold present
      rw [List.filterMap_map, List.filterMap_eq_nil_iff]
      intro x _
      simp [Function.comp]
    unfold meanOrNan
    rw [this, Fl.sub_nan]
  · have hfun : ∀ x : Fl K, NumOrNan x → x + .fin rs - .fin v = affine 1 (rs - v) x := by
      rintro x (rfl | ⟨w, rfl⟩)
      · simp [affine]
      · simp [affine, add_sub_assoc]
    have h1 : videoCells (fun e s r => a e s r + .fin rs - .fin v) e = (videoCells a e).map (affine 1 (rs - v)) := by
      rw [videoCells_map (fun x : Fl K => x + Fl.fin rs - Fl.fin v) a e]
      apply List.map_congr_left
      intro x hx
      obtain ⟨s, r, rfl⟩ := (mem_videoCells _ _ _).mp hx
      exact hfun _ (hc s r)
    rw [meanAlongS_spec, h1, meanOrNan_affine]
    · refine (hfun _ ?_).symm
      unfold meanOrNan
      split
      · exact Or.inl rfl
      · exact Or.inr ⟨_, rfl⟩
    · intro s r
      rw [hfun _ (hc s r)]
      exact affine_clean (hc s r)

theorem meanOrNan_clean (l : List (Fl K)) : NumOrNan (meanOrNan l) := by
  unfold meanOrNan
  split
  · exact Or.inl rfl
  · exact Or.inr ⟨_, rfl⟩

theorem preprocess_dscore [MathFn K] {rd : Reader κ K} {a : Arr3D (Fl K)} (h : rd.scores = .ok a) :
    preprocess rd { dscoreMode := yes } = match dscoreStep rd a with
      | .error e => .error e
      | .ok b => .ok { arr := b, orig := a } := by
  unfold preprocess
  rw [h]
  show (match dscoreStep rd a with
    | .error e => _
    | .ok a1 => _) = _
  cases dscoreStep rd a <;> rfl

theorem preprocess_dzscore [MathFn K] {rd : Reader κ K} {a : Arr3D (Fl K)} (h : rd.scores = .ok a) :
    preprocess rd { dscoreMode := yes, zscoreMode := yes } = match dscoreStep rd a with
      | .error e => .error e
      | .ok b => .ok { arr := { b with get := zscoreArr b.get }, orig := a } := by
  unfold preprocess
  rw [h]
  show (match dscoreStep rd a with
    | .error e => _
    | .ok a1 => _) = _
  cases dscoreStep rd a <;> rfl

theorem preprocess_zscore [MathFn K] {rd : Reader κ K} {a : Arr3D (Fl K)} (h : rd.scores = .ok a) :
    preprocess rd { zscoreMode := yes } = .ok { arr := { a with get := zscoreArr a.get }, orig := a } := by
  unfold preprocess
  rw [h]
  rfl

theorem preprocess_bias [MathFn K] {rd : Reader κ K} {a : Arr3D (Fl K)} (h : rd.scores = .ok a) :
    preprocess rd { biasOffset := yes } = .ok { arr := { a with get := biasArr a.get }, orig := a, bias := some (List.ofFn (biasEstimate a.get)) } := by
  unfold preprocess
  rw [h]
  rfl

theorem preprocess_kurtosis [MathFn K] {rd : Reader κ K} {a : Arr3D (Fl K)} (h : rd.scores = .ok a) :
    preprocess rd { subjectRejection := yes } = .ok { arr := (kurtosisReject a.get).1, orig := a, rejection := some (kurtosisReject a.get).2 } := by
  unfold preprocess
  rw [h]
  rfl

end Sureal
