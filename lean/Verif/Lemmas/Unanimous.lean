import Verif.Spec.Unanimous
import Verif.Lemmas.Scale
import Verif.Lemmas.MleRun
/-!
# Helper lemmas: observers who agree
-/
set_option linter.unusedSectionVars false
namespace Sureal.Unanimous
open Sureal Spec

/-- a list of one number and missing numbers -/
theorem nanstd_const {c : ℝ} {l : List (Fl ℝ)} (h : ∀ x ∈ l, x = .nan ∨ x = .fin c) : Np.nanstd 0 l = .fin 0 ∨ Np.nanstd 0 l = .nan := by
  have hc : Np.Clean l := fun x hx => (h x hx).imp id fun h => ⟨c, h⟩
  rcases Nat.eq_zero_or_pos (present l).length with h0 | h0
  · right
    rw [Np.nanstd, Np.nanvar_small hc (by omega)]
    rfl
  · left
    have hp : ∀ v ∈ present l, v = c := by
      intro v hv
      rcases h _ (Mock.mem_present.mp hv) with h | h
      · cases h
      · exact Fl.fin_inj.mp h
    have hrep : present l = List.replicate (present l).length c := List.eq_replicate_iff.mpr ⟨rfl, hp⟩
    have hm : Spec.mean (present l) = c := by
      rw [hrep]
      unfold Spec.mean
      rw [List.sum_replicate, List.length_replicate, nsmul_eq_mul]
      have : ((present l).length : ℝ) ≠ 0 := by exact_mod_cast h0.ne'
      field_simp
    have hd : sqDev (present l) = 0 := by
      unfold sqDev
      rw [hm]
      apply List.sum_eq_zero
      intro x hx
      obtain ⟨v, hv, rfl⟩ := List.mem_map.mp hx
      rw [hp v hv]
      ring
    rw [Np.nanstd, Np.nanvar_eq hc h0, hd, zero_div, Fl.sqrt_fin (le_refl _)]
    exact congrArg Fl.fin Real.sqrt_zero

theorem meanOrNan_const {c : ℝ} {l : List (Fl ℝ)} (h : ∀ x ∈ l, x = .nan ∨ x = .fin c) :
    meanOrNan l = .nan ∨ meanOrNan l = .fin c := by
  rcases Scale.mean_in (lo := c) (hi := c) (fun x hx => (h x hx).imp id fun h => ⟨c, h, le_refl _, le_refl _⟩) with h | ⟨v, h, h1, h2⟩
  · exact Or.inl h
  · exact Or.inr (by rw [h, le_antisymm h2 h1])

section arrays
variable {E S R : ℕ} {g : Arr3 (Fl ℝ) E S R} {q : Fin E → ℝ}

theorem mean_video (h : ∀ e s r, g e s r = .nan ∨ g e s r = .fin (q e)) (e : Fin E) : meanAlongS g e = .nan ∨ meanAlongS g e = .fin (q e) := by
  rw [meanAlongS_spec g e fun s r => (h e s r).imp id fun h => ⟨_, h⟩]
  refine meanOrNan_const fun x hx => ?_
  obtain ⟨s, r, rfl⟩ := (mem_videoCells _ _ _).mp hx
  exact h e s r

theorem mean_rated (h : ∀ e s r, g e s r = .nan ∨ g e s r = .fin (q e)) {e : Fin E} {s : Fin S} {r : Fin R} {v : ℝ} (hv : g e s r = .fin v) :
    meanAlongS g e = .fin (q e) := by
  refine (mean_video h e).resolve_left fun hn => ?_
  rw [meanAlongS_spec g e fun s r => (h e s r).imp id fun h => ⟨_, h⟩] at hn
  unfold meanOrNan at hn
  split at hn
  · rename_i hp
    have : v ∈ present (videoCells g e) := Mock.mem_present.mpr ((mem_videoCells _ _ _).mpr ⟨s, r, hv⟩)
    rw [hp] at this
    cases this
  · cases hn

/-- residues of observers who agree -/
theorem residue (h : ∀ e s r, g e s r = .nan ∨ g e s r = .fin (q e)) (e : Fin E) (s : Fin S) (r : Fin R) :
    g e s r - meanAlongS g e = .nan ∨ g e s r - meanAlongS g e = .fin 0 := by
  rcases h e s r with h0 | h0
  · left
    rw [h0]
    simp
  · right
    rw [mean_rated h h0, h0, Fl.fin_sub, sub_self]

theorem bias_agree (h : ∀ e s r, g e s r = .nan ∨ g e s r = .fin (q e)) (e : Fin E) (s : Fin S) (r : Fin R) : biasArr g e s r = g e s r := by
  rcases h e s r with h0 | h0
  · show g e s r - _ = _
    rw [h0]
    simp
  · have hb : meanAlongE (fun e s r => g e s r - meanAlongS g e) s = .fin 0 := by
      have hr := residue h
      have hcl : ∀ e r, NumOrNan (g e s r - meanAlongS g e) := fun e r => (hr e s r).imp id fun h => ⟨_, h⟩
      rw [meanAlongE_spec (fun e s r => g e s r - meanAlongS g e) s hcl]
      refine (meanOrNan_const fun x hx => ?_).resolve_left fun hn => ?_
      · obtain ⟨e, r, rfl⟩ := (mem_observerCells _ _ _).mp hx
        exact hr e s r
      · unfold meanOrNan at hn
        split at hn
        · rename_i hp
          have : (0 : ℝ) ∈ present (observerCells (fun e s r => g e s r - meanAlongS g e) s) := by
            refine Mock.mem_present.mpr ((mem_observerCells _ _ _).mpr ⟨e, r, ?_⟩)
            show g e s r - meanAlongS g e = _
            rw [mean_rated h h0, h0, Fl.fin_sub, sub_self]
          rw [hp] at this
          cases this
        · cases hn
    show g e s r - meanAlongE (fun e s r => g e s r - meanAlongS g e) s = _
    rw [hb, h0, Fl.fin_sub, sub_zero]

end arrays

/-- rejection by counting outliers keeps somebody -/
theorem kurtosis_populated {E S R : ℕ} (g : Arr3 (Fl ℝ) E S R) (hS : 0 < S) : 0 < (kurtosisReject g).1.S := by
  show 0 < (splitObservers _).1.length
  generalize (fun s : Fin S => _ : Fin S → Bool) = rej
  unfold splitObservers
  dsimp only
  split
  · rename_i h
    rw [List.length_append, h]
    omega
  · rename_i h
    rw [List.length_pos_iff]
    intro hn
    apply h
    rw [List.filter_eq_nil_iff] at hn
    rw [List.filter_eq_self.mpr (by simpa using hn), List.length_finRange]

section preprocess
variable {κ : Type} {rd : Reader κ ℝ} {o : Opts ℝ} {p : Prep ℝ} {u : Arr3D (Fl ℝ)} {q : ℕ → ℝ}

theorem reject_agree {ty : Option String} {u w : Arr3D (Fl ℝ)} {r : Option (Rejection ℝ)} (hr : rejectStep o ty u = .ok (w, r)) (h : SameVote q u) :
    SameVote q w ∧ w.E = u.E ∧ (∀ i, (ty = none ∨ ty = some "kurtosis" ∨ o.subjectRejection = none) → RatedByAll u i → RatedByAll w i) := by
  unfold rejectStep at hr
  split at hr
  · rename_i ho
    split at hr
    · cases hr
      refine ⟨fun e s r => h e _ r, rfl, fun i _ hi => ⟨kurtosis_populated u.get hi.1, fun e he s => hi.2 e he _⟩⟩
    · rename_i hk
      split at hr
      · rename_i ht
        split at hr
        · cases hr
        · rename_i hcr
          cases hr
          unfold corrReject at hcr
          split at hcr
          · cases hcr
          · cases hcr
            refine ⟨fun e s r => h e _ r, rfl, fun i hi => ?_⟩
            rcases hi with rfl | hi | hi
            · rcases ht with ht | ht <;> cases ht
            · exact absurd hi hk
            · rw [hi] at ho; cases ho
      · cases hr
  · cases hr
    exact ⟨h, rfl, fun i _ hi => hi⟩

theorem preprocess_agree (hp : preprocess rd o = .ok p) (ha : rd.scores = .ok u) (hz : o.zscoreMode = none) (hd : o.dscoreMode = none) (h : SameVote q u) :
    SameVote q p.arr ∧ p.arr.E = u.E ∧
    (∀ i, (o.subjectRejectionType = none ∨ o.subjectRejection = none) → RatedByAll u i → RatedByAll p.arr i) := by
  unfold preprocess at hp
  rw [ha] at hp
  dsimp only at hp
  rw [hz, hd] at hp
  split at hp
  · cases hp
  · rename_i ty hty
    have ht : o.subjectRejectionType = none → ty = none ∨ ty = some "kurtosis" := by
      intro hn
      unfold checkOpts at hty
      rw [hn] at hty
      split at hty
      · dsimp only at hty
        split at hty
        · cases hty
        · cases hty; exact Or.inl rfl
      · dsimp only at hty
        split at hty
        · split at hty
          · cases hty
          · cases hty; exact Or.inr rfl
        · cases hty
    split at hp
    · cases hp
    · rename_i a1 h1
      cases h1
      split at hp
      · cases hp
      · rename_i a4 rej h4
        cases hp
        have hbias : (if o.biasOffset.isTrue = true then (⟨u.E, u.S, u.R, biasArr u.get⟩ : Arr3D (Fl ℝ)) else u) = u := by
          split
          · have : biasArr u.get = u.get := by funext e s r; exact bias_agree (q := fun e => q e.val) h e s r
            rw [this]
          · rfl
        have h4' : rejectStep o ty u = .ok (a4, rej) := by
          refine Eq.trans ?_ h4
          exact congrArg (rejectStep o ty) hbias.symm
        obtain ⟨k1, k2, k3⟩ := reject_agree h4' h
        refine ⟨k1, k2, fun i hi => k3 i ?_⟩
        rcases hi with hi | hi
        · exact (ht hi).imp id Or.inl
        · exact Or.inr (Or.inr hi)

end preprocess

end Sureal.Unanimous
