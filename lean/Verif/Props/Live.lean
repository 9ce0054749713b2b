import Verif.Props.Options
import Verif.Props.Ap
/-!
# C38: LIVE DMOS
-/
set_option linter.unusedSectionVars false
namespace Sureal.Props
open Sureal Spec
variable {κ : Type}

theorem live_shape {rd : Reader κ ℝ} {o : Opts ℝ} (h1 : o.dscoreMode ≠ some (some true)) (h2 : o.zscoreMode ≠ some (some true))
    (h3 : o.normalizeFinal = none) (h4 : o.transformFinal = none) :
    (∀ e, preprocess rd { o with dscoreMode := yes, zscoreMode := yes } = .error e →
      runLIVE_DMOS rd o = .error e ∧ runDMOS rd { o with zscoreMode := yes } = .error e) ∧
    (∀ p, preprocess rd { o with dscoreMode := yes, zscoreMode := yes } = .ok p →
      (∃ e, runLIVE_DMOS rd o = .error e ∧ runDMOS rd { o with zscoreMode := yes } = .error e) ∨
      ∃ res res0, runLIVE_DMOS rd o = .ok res ∧ runDMOS rd { o with zscoreMode := yes } = .ok res0 ∧
        res.qualityScores = List.ofFn (meanAlongS fun e s r =>
              (p.arr.get e s r + ((3 : Nat) : Fl ℝ)) * ((100 : Nat) : Fl ℝ) / ((6 : Nat) : Fl ℝ)) ∧
        res0.qualityScores = List.ofFn (meanAlongS p.arr.get) ∧ res0.rawScores = some p.arr) := by
  have hfl : ∀ f : Flag, f ≠ some (some true) → f.isTrue = false := by
    intro f hf; rw [Bool.eq_false_iff, ne_eq, isTrue_iff]; exact hf
  have hd : runDMOS rd { o with zscoreMode := yes } = runModeling mosRunModeling rd { o with dscoreMode := yes, zscoreMode := yes } := by
    simp [runDMOS, hfl _ h1]
  rw [hd]
  constructor
  · intro e he
    constructor
    · unfold runLIVE_DMOS runModeling liveDmosRunModeling
      rw [hfl _ h1, hfl _ h2, he]; rfl
    · unfold runModeling mosRunModeling
      rw [he]
  · intro p hp
    have hl : liveDmosRunModeling rd o = .ok { qualityScores := List.ofFn (meanAlongS fun e s r =>
              (p.arr.get e s r + ((3 : Nat) : Fl ℝ)) * ((100 : Nat) : Fl ℝ) / ((6 : Nat) : Fl ℝ)) } := by
      unfold liveDmosRunModeling
      rw [hfl _ h1, hfl _ h2, hp]; rfl
    have hm : mosRunModeling rd { o with dscoreMode := yes, zscoreMode := yes }
        = .ok ((mosAndStats (fun E _ _ => E * 2) p.arr p.orig).withRejection p.rejection) := by
      unfold mosRunModeling; rw [hp]
    unfold runLIVE_DMOS runModeling
    rw [hl, hm]
    have hq : ∀ q, postprocessScores o q = q := fun q => post_plain h3 h4 q
    have hq' : ∀ q, postprocessScores { o with dscoreMode := yes, zscoreMode := yes } q = q := fun q => post_plain h3 h4 q
    cases ho : rd.observers with
    | ok l =>
      refine Or.inr ⟨_, _, rfl, rfl, hq _, ?_, ?_⟩
      · rw [hq']; cases p.rejection <;> rfl
      · cases p.rejection <;> rfl
    | error e =>
      cases e
      all_goals first
        | exact Or.inl ⟨_, rfl, rfl⟩
        | (refine Or.inr ⟨_, _, rfl, rfl, hq _, ?_, ?_⟩
           · rw [hq']; cases p.rejection <;> rfl
           · cases p.rejection <;> rfl)

/-- **C38**.  Whatever the other options, LIVE DMOS raises the exception z-scored DMOS raises; otherwise its scores are
`100 (z + 3) / 6` of the scores `z` of z-scored DMOS, provided the z-scored array (`raw_scores`) holds numbers and
NaNs only (see `C38_zscores_clean`). -/
theorem C38_live_dmos (rd : Reader κ ℝ) (o : Opts ℝ) (h1 : o.dscoreMode ≠ some (some true))
    (h2 : o.zscoreMode ≠ some (some true)) (h3 : o.normalizeFinal = none) (h4 : o.transformFinal = none) :
    (∃ e, runLIVE_DMOS rd o = .error e ∧ runDMOS rd { o with zscoreMode := yes } = .error e) ∨
    (∃ res res0 a, runLIVE_DMOS rd o = .ok res ∧ runDMOS rd { o with zscoreMode := yes } = .ok res0 ∧
      res0.rawScores = some a ∧
      (CleanVotes a → res.qualityScores = res0.qualityScores.map (affine (100 / 6) (100 * 3 / 6)))) := by
  obtain ⟨he, hok⟩ := live_shape (rd := rd) h1 h2 h3 h4
  cases hp : preprocess rd { o with dscoreMode := yes, zscoreMode := yes } with
  | error e => exact Or.inl ⟨e, he e hp⟩
  | ok p =>
    rcases hok p hp with h | ⟨res, res0, hr, hr0, hq, hq0, ha⟩
    · exact Or.inl h
    · refine Or.inr ⟨res, res0, p.arr, hr, hr0, ha, fun hc => ?_⟩
      rw [hq, hq0, List.map_ofFn]
      congr 1
      funext e
      have hcell : (fun e s r => (p.arr.get e s r + ((3 : Nat) : Fl ℝ)) * ((100 : Nat) : Fl ℝ) / ((6 : Nat) : Fl ℝ))
          = fun e s r => affine (100 / 6) (100 * 3 / 6) (p.arr.get e s r) := by
        funext e s r
        rcases hc e s r with h | ⟨v, h⟩ <;> rw [h]
        · simp [affine]
        · rw [Fl.natCast_def, Fl.natCast_def, Fl.natCast_def, Fl.fin_add, Fl.fin_mul, Fl.fin_div (by norm_num)]
          simp only [affine, Fl.fin_inj]
          push_cast
          ring
      show meanAlongS _ e = affine _ _ (meanAlongS p.arr.get e)
      rw [hcell, meanAlongS_spec _ _ (fun s r => affine_clean (hc e s r)), meanAlongS_spec _ _ (hc e), videoCells_map, meanOrNan_affine]

theorem mapPy_mem {α β : Type} {f : α → Py β} {l : List α} {r : List β} (h : mapPy f l = .ok r) :
    ∀ y ∈ r, ∃ x ∈ l, f x = .ok y := by
  induction l generalizing r with
  | nil => simp only [mapPy] at h; cases h; simp
  | cons x xs ih =>
    simp only [mapPy] at h
    cases hx : f x with
    | error e => rw [hx] at h; cases h
    | ok y =>
      rw [hx] at h
      cases hxs : mapPy f xs with
      | error e => rw [hxs] at h; cases h
      | ok ys =>
        rw [hxs] at h
        cases h
        intro z hz
        rcases List.mem_cons.mp hz with rfl | hz
        · exact ⟨x, by simp, hx⟩
        · obtain ⟨w, hw, h⟩ := ih hxs z hz
          exact ⟨w, by simp [hw], h⟩

theorem dscore_clean {rd : Reader κ ℝ} {a b : Arr3D (Fl ℝ)} (hc : CleanVotes a) (hr : ∀ x, rd.dataset.refScore = some (some x) → ∃ v, x = .fin v)
    (h : dscoreStep rd a = .ok b) : CleanVotes b := by
  unfold dscoreStep at h
  cases hrs : rd.dataset.refScore with
  | none => rw [hrs] at h; cases h
  | some x =>
    cases x with
    | none => rw [hrs] at h; cases h
    | some rs =>
      rw [hrs] at h
      obtain ⟨v, rfl⟩ := hr rs hrs
      dsimp only at h
      cases hm : refMos rd (List.ofFn (meanAlongS a.get)) with
      | error e => rw [hm] at h; cases h
      | ok rm =>
        rw [hm] at h
        dsimp only at h
        have hmos : ∀ y ∈ rm, NumOrNan y := by
          intro y hy
          unfold refMos at hm
          obtain ⟨dv, _, hdv⟩ := mapPy_mem hm y hy
          have : y ∈ List.ofFn (meanAlongS a.get) := by
            revert hdv
            split
            · intro h; cases h
            · split
              · split
                · rename_i hi; intro h; cases h; exact List.mem_of_getElem? hi
                · intro h; cases h
              · intro h; cases h
          obtain ⟨e, rfl⟩ := List.mem_ofFn.mp this
          rw [meanAlongS_spec _ _ (hc e)]
          unfold meanOrNan
          split
          · exact Or.inl rfl
          · exact Or.inr ⟨_, rfl⟩
        have hget : ∀ i : ℕ, NumOrNan ((rm[i]?).getD .nan) := by
          intro i
          cases hi : rm[i]? with
          | none => exact Or.inl rfl
          | some y => exact hmos y (List.mem_of_getElem? hi)
        have hcell : ∀ x y : Fl ℝ, NumOrNan x → NumOrNan y → NumOrNan (x + .fin v - y) := by
          intro x y hx hy
          rcases hx with rfl | ⟨u, rfl⟩ <;> rcases hy with rfl | ⟨w, rfl⟩ <;> simp [NumOrNan]
        split at h
        · cases h
          intro j i r
          exact hcell _ _ (hc j i r) (hget _)
        · split at h
          · cases h
            intro j i r
            exact hcell _ _ (hc j i r) (hget _)
          · cases h

theorem zscore_clean {E S R : ℕ} (a : Arr3 (Fl ℝ) E S R) (hc : ∀ e s r, NumOrNan (a e s r)) (e : Fin E) (s : Fin S) (r : Fin R) :
    NumOrNan (zscoreArr a e s r) := by
  by_cases h : ∃ x ∈ present (observerCells a s), ∃ y ∈ present (observerCells a s), x ≠ y
  · rw [zscore_affine a hc s h]
    exact affine_clean (hc e s r)
  · push Not at h
    rw [zscore_const a hc s h]
    exact Or.inl rfl

/-- **C38**.  If the votes are numbers or missing and the reference score is a number, the z-scored differential scores
are numbers or missing too (an observer who always votes the same becomes missing). -/
theorem C38_zscores_clean (rd : Reader κ ℝ) (a : Arr3D (Fl ℝ)) (ha : rd.scores = .ok a) (hc : CleanVotes a)
    (hr : ∀ x, rd.dataset.refScore = some (some x) → ∃ v, x = .fin v) (res0 : Result κ ℝ)
    (h0 : runDMOS rd { zscoreMode := yes } = .ok res0) : ∃ b, res0.rawScores = some b ∧ CleanVotes b := by
  rcases C38_live_dmos rd {} (by simp) (by simp) rfl rfl with ⟨e, _, h⟩ | ⟨res, r0, b, _, h, hb, _⟩
  · rw [show ({ ({} : Opts ℝ) with zscoreMode := yes } : Opts ℝ) = { zscoreMode := yes } from rfl, h0] at h; cases h
  rw [show ({ ({} : Opts ℝ) with zscoreMode := yes } : Opts ℝ) = { zscoreMode := yes } from rfl, h0] at h
  cases h
  refine ⟨b, hb, ?_⟩
  have hp := preprocess_dzscore ha
  cases hd : dscoreStep rd a with
  | error e =>
    rw [hd] at hp
    have := ((live_shape (rd := rd) (o := {}) (by simp) (by simp) rfl rfl).1 e hp).2
    rw [show ({ ({} : Opts ℝ) with zscoreMode := yes } : Opts ℝ) = { zscoreMode := yes } from rfl, h0] at this; cases this
  | ok b1 =>
    rw [hd] at hp
    rcases (live_shape (rd := rd) (o := {}) (by simp) (by simp) rfl rfl).2 _ hp with ⟨e, _, h⟩ | ⟨_, r0, _, h, _, _, h1⟩
    · rw [show ({ ({} : Opts ℝ) with zscoreMode := yes } : Opts ℝ) = { zscoreMode := yes } from rfl, h0] at h; cases h
    · rw [show ({ ({} : Opts ℝ) with zscoreMode := yes } : Opts ℝ) = { zscoreMode := yes } from rfl, h0] at h
      cases h
      rw [hb] at h1
      cases h1
      have hb1 := dscore_clean hc hr hd
      exact fun j i r => zscore_clean b1.get hb1 j i r

/-- a hidden reference and a distorted version of it, votes `exArr` -/
def exLive : Reader String ℝ :=
  let dvs : List (DisVideo String ℝ) := [{ contentId := 0, assetId := 0, path := "r0", os := none }, { contentId := 0, assetId := 1, path := "d0", os := none }]
  { dataset := { refVideos := [⟨0, "r0", []⟩], disVideos := dvs, refScore := some (some (.fin 5)) }
    disVideos := dvs, scores := .ok ⟨2, 2, 1, exArr⟩, observers := .ok [] }

theorem exLive_dscore : ∃ b, dscoreStep exLive ⟨2, 2, 1, exArr⟩ = .ok b := by
  have : refMos exLive (List.ofFn (meanAlongS exArr)) = .ok [meanAlongS exArr 0, meanAlongS exArr 0] := by
    rfl
  unfold dscoreStep
  simp only [exLive] at this ⊢
  rw [this]
  exact ⟨_, rfl⟩

/-- both models run on it -/
example : ∃ res res0, runLIVE_DMOS exLive {} = .ok res ∧ runDMOS exLive { zscoreMode := yes } = .ok res0 ∧
    res.qualityScores = res0.qualityScores.map (affine (100 / 6) (100 * 3 / 6)) := by
  obtain ⟨b, hb⟩ := exLive_dscore
  have hp := preprocess_dzscore (rd := exLive) rfl
  rw [hb] at hp
  rcases (live_shape (rd := exLive) (o := {}) (by simp) (by simp) rfl rfl).2 _ hp with ⟨e, h1, h2⟩ | ⟨res, res0, h1, h2, _⟩
  · exfalso
    unfold runLIVE_DMOS runModeling liveDmosRunModeling at h1
    rw [show preprocess exLive { ({} : Opts ℝ) with dscoreMode := yes, zscoreMode := yes } = _ from hp] at h1
    cases h1
  · rcases C38_live_dmos exLive {} (by simp) (by simp) rfl rfl with ⟨e, h, _⟩ | ⟨r, r0, a, g1, g2, g3, g4⟩
    · rw [h1] at h; cases h
    · obtain ⟨b', hb', hcb⟩ := C38_zscores_clean exLive ⟨2, 2, 1, exArr⟩ rfl exArr_clean
        (fun x hx => by cases hx; exact ⟨5, rfl⟩) r0 g2
      rw [g3] at hb'; cases hb'
      exact ⟨r, r0, g1, g2, g4 hcb⟩

end Sureal.Props
