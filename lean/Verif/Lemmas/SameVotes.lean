import Verif.Lemmas.RandState
import Verif.Props.Mock
/-! Readers with the same votes and videos give the same results, whatever the style of the datasets. -/
set_option linter.unusedSectionVars false
namespace Sureal
open Spec Mock
variable {κ K : Type} [LinearOrder κ] [Field K] [LinearOrder K] [IsStrictOrderedRing K] [MathFn K]

theorem Arr3D.ext_cell {α : Type} {a b : Arr3D α} (hE : a.E = b.E) (hS : a.S = b.S) (hR : a.R = b.R)
    (h : ∀ e s r, cell a e s r = cell b e s r) : a = b := by
  obtain ⟨E, S, R, f⟩ := a
  obtain ⟨E', S', R', f'⟩ := b
  dsimp only at hE hS hR
  subst hE hS hR
  congr 1
  funext e s r
  have := h e s r
  unfold cell at this
  dsimp only at this
  rw [dif_pos ⟨e.isLt, s.isLt, r.isLt⟩, dif_pos ⟨e.isLt, s.isLt, r.isLt⟩] at this
  exact Option.some.inj this

/-- a video without its votes -/
def bare (v : DisVideo κ K) : DisVideo κ K := { v with os := none }

/-- the same votes on the same videos -/
structure SameVotes (rd rd' : Reader κ K) : Prop where
  scores : rd'.scores = rd.scores
  refs : rd'.dataset.refVideos = rd.dataset.refVideos
  refScore : rd'.dataset.refScore = rd.dataset.refScore
  videos : rd'.disVideos.map bare = rd.disVideos.map bare
  all : rd'.dataset.disVideos.map bare = rd.dataset.disVideos.map bare

theorem contentIds_bare (l : List (DisVideo κ K)) : contentIdOfDisVideos (l.map bare) = contentIdOfDisVideos l := by
  simp [contentIdOfDisVideos, bare]

theorem mapPy_map {α β γ : Type} (f : β → Py γ) (g : α → β) (l : List α) : mapPy f (l.map g) = mapPy (fun a => f (g a)) l := by
  induction l with
  | nil => rfl
  | cons a l ih => simp only [List.map_cons, mapPy, ih]

theorem isRef_bare (refs : List RefVideo) (l : List (DisVideo κ K)) : disvideoIsRefvideo refs (l.map bare) = disvideoIsRefvideo refs l := by
  unfold disvideoIsRefvideo
  rw [mapPy_map]
  rfl

theorem SameVotes.contentIds {rd rd' : Reader κ K} (h : SameVotes rd rd') : contentIdOfDisVideos rd'.disVideos = contentIdOfDisVideos rd.disVideos := by
  rw [← contentIds_bare, h.videos, contentIds_bare]

theorem SameVotes.refMos {rd rd' : Reader κ K} (h : SameVotes rd rd') (mos : List (Fl K)) : refMos rd' mos = refMos rd mos := by
  have key : ∀ r : Reader κ K, Sureal.refMos r mos = mapPy (fun dv =>
      match disvideoIsRefvideo r.dataset.refVideos r.disVideos with
      | .error e => .error e
      | .ok isRef =>
        match indices ((contentIdOfDisVideos r.disVideos).zip isRef) (fun p => p.2 && decide (p.1 = dv.contentId)) with
        | [i] => match mos[i]? with
          | some m => .ok m
          | none => .error .index
        | _ => .error .assertion) (r.dataset.disVideos.map bare) := by
    intro r
    rw [mapPy_map]
    rfl
  rw [key, key, h.all, h.contentIds, h.refs, ← isRef_bare _ rd'.disVideos, h.videos, isRef_bare]

theorem SameVotes.preprocess {rd rd' : Reader κ K} (h : SameVotes rd rd') (o : Opts K) : preprocess rd' o = preprocess rd o := by
  have hd : ∀ a, dscoreStep rd' a = dscoreStep rd a := by
    intro a
    unfold dscoreStep
    rw [h.refScore]
    simp only [h.refMos]
  unfold Sureal.preprocess
  rw [h.scores]
  simp only [hd]

theorem SameVotes.numContents {rd rd' : Reader κ K} (h : SameVotes rd rd') : Mle.numContents rd' = Mle.numContents rd := by
  unfold Mle.numContents
  rw [h.refs]

/-- completed runs up to the list of observers -/
theorem SameVotes.runModeling {rd rd' : Reader κ K} (hobs : rd'.observers = .error .assertion) {f f' : Reader κ K → Opts K → Py (Result κ K)}
    {o : Opts K} {res : Result κ K} (hf : ∀ r, f rd o = .ok r → ∃ obs, f' rd' o = .ok { r with observers := obs })
    (h : runModeling f rd o = .ok res) : ∃ obs, runModeling f' rd' o = .ok { res with observers := obs } := by
  unfold Sureal.runModeling at h ⊢
  cases hr : f rd o with
  | error e => rw [hr] at h; cases h
  | ok r =>
    obtain ⟨obs, hobs'⟩ := hf r hr
    rw [hr] at h
    rw [hobs', hobs]
    dsimp only at h ⊢
    refine ⟨obs, ?_⟩
    cases ho : rd.observers with
    | ok l => rw [ho] at h; cases h; rfl
    | error e =>
      rw [ho] at h
      cases e <;> dsimp only at h <;> cases h <;> rfl

theorem SameVotes.runMOS {rd rd' : Reader κ K} (h : SameVotes rd rd') (hobs : rd'.observers = .error .assertion) {o : Opts K} {res : Result κ K}
    (hm : runMOS rd o = .ok res) : ∃ obs, runMOS rd' o = .ok { res with observers := obs } := by
  refine SameVotes.runModeling hobs ?_ hm
  intro r hr
  refine ⟨r.observers, ?_⟩
  unfold mosRunModeling at hr ⊢
  rw [h.preprocess]
  exact hr

theorem finish_obs {mode : Mle.Mode} {o : Mle.Opts K} {p : Prep K} {C : ℕ} {d : Mle.Data K p.arr.E p.arr.S p.arr.R C} {f : Mle.Fit K p.arr.E p.arr.S C}
    {o1 : Option (List κ)} {res : Result κ K} (h1 : Mle.runModelingWith.finish (κ := κ) mode o p C d f o1 = .ok res) :
    ∃ obs, Mle.runModelingWith.finish (κ := κ) mode o p C d f none = .ok { res with observers := obs } := by
  unfold Mle.runModelingWith.finish at h1 ⊢
  split at h1
  · cases h1
  · rename_i dens hd
    cases h1
    exact ⟨none, rfl⟩

theorem SameVotes.mle {rd rd' : Reader κ K} (h : SameVotes rd rd') (hobs : rd'.observers = .error .assertion) {mode : Mle.Mode} {o : Mle.Opts K}
    {res : Result κ K} (hm : Mle.runModelingTwo mode rd rd o = .ok res) :
    ∃ obs, Mle.runModelingTwo mode rd' rd' o = .ok { res with observers := obs } := by
  unfold Mle.runModelingTwo at hm ⊢
  rw [h.preprocess, h.numContents, h.contentIds, hobs]
  split at hm
  · cases hm
  rename_i hsr
  rw [if_neg hsr]
  split at hm
  · cases hm
  split at hm
  · cases hm
  split at hm
  · cases hm
  split at hm
  · cases hm
  rename_i mos hmos
  obtain ⟨obs', hmos'⟩ := h.runMOS hobs hmos
  rw [hmos']
  dsimp only
  split at hm
  · cases hm
  split at hm
  · cases hm
  rename_i f hf
  rw [if_pos rfl]
  split at hm
  · split at hm
    · exact finish_obs hm
    · cases hm
  · exact finish_obs hm

/-- the exported dataset of a reader with one repetition has the same votes -/
theorem export_same {rd : Reader κ K} {a : Arr3D (Fl K)} (hs : rd.scores = .ok a) (hE : a.E = rd.disVideos.length) (hS : 0 < a.S) (hR : a.R = 1)
    (hwf : WellFormed { rd.dataset with disVideos := rd.disVideos }) (hall : rd.dataset.disVideos = rd.disVideos) :
    ∃ new rd', toDataset rd = .ok new ∧ rawReader new = .ok rd' ∧ SameVotes rd rd' ∧ rd'.observers = .error .assertion ∧
      numObservers rd'.disVideos = .ok a.S ∧ rd'.disVideos.length = rd.disVideos.length := by
  obtain ⟨new, rd', h1, h2, h3, -, h4, -, h5, h6, h7, -⟩ := Props.C75_export rd a hs hE hS hwf
  obtain ⟨a', k1, k2, k3, k4, k5⟩ := h7 hR
  have haa : a' = a := Arr3D.ext_cell k2 k3 (k4.trans hR.symm) k5
  obtain ⟨-, hrd'⟩ := rawReader_inv h2
  have hb : new.disVideos.map bare = rd.disVideos.map bare := by
    apply List.ext_getElem?
    intro i
    rw [List.getElem?_map, List.getElem?_map]
    rcases hi : rd.disVideos[i]? with _ | v
    · rw [List.getElem?_eq_none_iff] at hi
      rw [List.getElem?_eq_none_iff.mpr (by omega)]
    · have hlt := (List.getElem?_eq_some_iff.mp hi).1
      rw [List.getElem?_eq_getElem (by omega)]
      have := h6 i v _ hi (List.getElem?_eq_getElem (by omega))
      simp only [Option.map_some, Option.some.injEq]
      unfold bare
      rw [← this]
  have hvid : rd'.disVideos = new.disVideos := by rw [hrd']
  refine ⟨new, rd', h1, h2, ⟨by rw [k1, haa, hs], by rw [hrd']; exact h3, by rw [hrd']; exact h4, by rw [hvid, hb],
    by rw [hrd']; show new.disVideos.map bare = _; rw [hb, hall]⟩, ?_, ?_, by rw [hvid, h5]⟩
  · have hto := h1
    unfold toDataset at hto
    rw [hs] at hto
    dsimp only at hto
    rw [if_pos hE] at hto
    have hnew := Except.ok.inj hto
    have hd : new.disVideos ≠ [] := by
      intro h0
      have := hwf.diss
      rw [h0] at h5
      exact this (List.length_eq_zero_iff.mp h5.symm)
    rw [hrd']
    show listObservers new.disVideos = _
    unfold listObservers
    obtain ⟨v, l, hv⟩ := List.exists_cons_of_ne_nil hd
    rw [hv]
    have hvos : ∃ t xs, v.os = some (.seq t xs) := by
      have hm : v ∈ new.disVideos := by rw [hv]; exact List.mem_cons_self
      rw [← hnew] at hm
      dsimp only at hm
      obtain ⟨p, -, rfl⟩ := List.mem_map.mp hm
      exact ⟨_, _, rfl⟩
    obtain ⟨t, xs, hos⟩ := hvos
    simp only [mapPy, osDict, hos]
  · have hto := h1
    unfold toDataset at hto
    rw [hs] at hto
    dsimp only at hto
    rw [if_pos hE] at hto
    have hnew := Except.ok.inj hto
    have hd : new.disVideos ≠ [] := by
      intro h0
      have := hwf.diss
      rw [h0] at h5
      exact this (List.length_eq_zero_iff.mp h5.symm)
    rw [hvid]
    obtain ⟨v, l, hv⟩ := List.exists_cons_of_ne_nil hd
    have hvos : ∃ t xs, v.os = some (.seq t xs) ∧ xs.length = a.S := by
      have hm : v ∈ new.disVideos := by rw [hv]; exact List.mem_cons_self
      rw [← hnew] at hm
      dsimp only at hm
      obtain ⟨p, -, rfl⟩ := List.mem_map.mp hm
      exact ⟨_, _, rfl, List.length_ofFn⟩
    obtain ⟨t, xs, hos, hlen⟩ := hvos
    rw [hv]
    unfold numObservers
    dsimp only
    rw [hos]
    exact congrArg Except.ok hlen

end Sureal
