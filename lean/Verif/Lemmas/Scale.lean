import Verif.Lemmas.Pareto
import Verif.Lemmas.Corrupt
import Verif.Spec.Scale
/-!
# Helper lemmas: numbers on a rating scale
-/
set_option linter.unusedSectionVars false
namespace Sureal.Scale
open Sureal Spec Pareto

variable {lo hi a b c d : ℝ} {x y : Fl ℝ}

theorem clean (h : InScale lo hi x) : NumOrNan x := h.imp id fun ⟨v, h, _⟩ => ⟨v, h⟩

theorem mono (h : InScale a b x) (h1 : c ≤ a) (h2 : b ≤ d) : InScale c d x :=
  h.imp id fun ⟨v, h, h3, h4⟩ => ⟨v, h, h1.trans h3, h4.trans h2⟩

theorem sub (hx : InScale a b x) (hy : InScale c d y) : InScale (a - d) (b - c) (x - y) := by
  rcases hx with rfl | ⟨u, rfl, h1, h2⟩
  · exact Or.inl rfl
  · rcases hy with rfl | ⟨v, rfl, h3, h4⟩
    · exact Or.inl rfl
    · exact Or.inr ⟨u - v, rfl, by linarith, by linarith⟩

theorem add (hx : InScale a b x) (hy : InScale c d y) : InScale (a + c) (b + d) (x + y) := by
  rcases hx with rfl | ⟨u, rfl, h1, h2⟩
  · exact Or.inl rfl
  · rcases hy with rfl | ⟨v, rfl, h3, h4⟩
    · exact Or.inl rfl
    · exact Or.inr ⟨u + v, rfl, by linarith, by linarith⟩

theorem widen (h : InScale lo hi x) : InWideScale lo hi x := by
  rcases h with rfl | ⟨v, rfl, h1, h2⟩
  · exact Or.inl rfl
  · exact Or.inr ⟨v, rfl, by linarith, by linarith⟩

theorem mean_in {l : List (Fl ℝ)} (h : ∀ x ∈ l, InScale lo hi x) : InScale lo hi (meanOrNan l) := by
  unfold meanOrNan
  split
  · exact Or.inl rfl
  · rename_i xs hl
    refine Or.inr ⟨_, rfl, mean_bounds (by simp) fun v hv => ?_⟩
    · rw [← hl] at hv
      have := Mock.mem_present.mp hv
      rcases h _ this with h | ⟨w, h, hb⟩
      · cases h
      · cases h; exact hb

section arrays
variable {E S R : ℕ} {g : Arr3 (Fl ℝ) E S R}

theorem video_in (h : ∀ e s r, InScale lo hi (g e s r)) (e : Fin E) : InScale lo hi (meanAlongS g e) := by
  rw [meanAlongS_spec g e fun s r => clean (h e s r)]
  refine mean_in fun x hx => ?_
  obtain ⟨s, r, rfl⟩ := (mem_videoCells _ _ _).mp hx
  exact h e s r

theorem observer_in (h : ∀ e s r, InScale lo hi (g e s r)) (s : Fin S) : InScale lo hi (meanAlongE g s) := by
  rw [meanAlongE_spec g s fun e r => clean (h e s r)]
  refine mean_in fun x hx => ?_
  obtain ⟨e, r, rfl⟩ := (mem_observerCells _ _ _).mp hx
  exact h e s r

theorem bias_in (h : ∀ e s r, InScale lo hi (g e s r)) (e : Fin E) (s : Fin S) (r : Fin R) : InWideScale lo hi (biasArr g e s r) := by
  refine mono (sub (h e s r) (observer_in (fun e s r => sub (h e s r) (video_in h e)) s)) (by linarith) (by linarith)

end arrays

theorem reject_in {o : Opts ℝ} {ty : Option String} {u w : Arr3D (Fl ℝ)} {r : Option (Rejection ℝ)}
    (hr : rejectStep o ty u = .ok (w, r)) (h : VotesIn lo hi u) : VotesIn lo hi w := by
  unfold rejectStep at hr
  split at hr
  · split at hr
    · cases hr
      exact fun e s r => h e _ r
    · split at hr
      · split at hr
        · cases hr
        · rename_i hcr
          cases hr
          unfold corrReject at hcr
          split at hcr
          · cases hcr
          · cases hcr
            exact fun e s r => h e _ r
      · cases hr
  · cases hr
    exact h

theorem dscore_in {κ : Type} {rd : Reader κ ℝ} {u w : Arr3D (Fl ℝ)} (hb : dscoreStep rd u = .ok w)
    (hs : ∀ x, rd.dataset.refScore = some (some x) → InScale lo hi x) (h : VotesIn lo hi u) (e : Fin w.E) (s : Fin w.S) (r : Fin w.R) :
    InWideScale lo hi (w.get e s r) := by
  have hrm : ∀ rm, refMos rd (List.ofFn (meanAlongS u.get)) = .ok rm → ∀ (n : ℕ), InScale lo hi ((rm[n]?).getD .nan) := by
    intro rm hrm n
    cases hn : rm[n]? with
    | none => exact Or.inl rfl
    | some y =>
      obtain ⟨dv, -, hdv⟩ := forall₂_get (mapPy_eq_ok_iff.mp hrm) hn
      split at hdv
      · cases hdv
      · split at hdv
        · split at hdv
          · rename_i m hm
            cases hdv
            obtain ⟨e, he⟩ := (List.mem_ofFn' _ _).mp (List.mem_of_getElem? hm)
            show InScale lo hi y
            rw [← he]
            exact video_in h e
          · cases hdv
        · cases hdv
  have hsum : ∀ {x y z : Fl ℝ}, InScale lo hi x → InScale lo hi y → InScale lo hi z → InWideScale lo hi (x + y - z) :=
    fun hx hy hz => mono (sub (add hx hy) hz) (by linarith) (by linarith)
  unfold dscoreStep at hb
  split at hb
  · cases hb
  · cases hb
  · rename_i rs hrs
    have hrs := hs rs hrs
    split at hb
    · cases hb
    · rename_i rm hm
      split at hb
      · cases hb
        exact hsum (h e s r) hrs (hrm rm hm _)
      · split at hb
        · cases hb
          exact hsum (h e s r) hrs (hrm rm hm _)
        · cases hb

/-- all of preprocessing, without z-scoring -/
theorem preprocess_in {κ : Type} {rd : Reader κ ℝ} {o : Opts ℝ} {p : Prep ℝ} (hp : preprocess rd o = .ok p) {u : Arr3D (Fl ℝ)} (ha : rd.scores = .ok u)
    (hz : o.zscoreMode = none) (h : VotesIn lo hi u) :
    (o.dscoreMode = none → o.biasOffset = none → VotesIn lo hi p.arr) ∧
    ((o.dscoreMode = none ∨ o.biasOffset = none ∧ ∀ x, rd.dataset.refScore = some (some x) → InScale lo hi x) →
      ∀ e s r, InWideScale lo hi (p.arr.get e s r)) := by
  unfold preprocess at hp
  rw [ha] at hp
  dsimp only at hp
  rw [hz] at hp
  split at hp
  · cases hp
  · split at hp
    · cases hp
    · rename_i a1 h1
      split at hp
      · cases hp
      · rename_i a4 rej h4
        cases hp
        refine ⟨fun hd hb => ?_, ?_⟩
        · rw [hd] at h1
          rw [hb] at h4
          cases h1
          exact reject_in h4 h
        · rintro (hd | ⟨hb, hs⟩)
          · rw [hd] at h1
            cases h1
            refine reject_in (lo := lo - (hi - lo)) (hi := hi + (hi - lo)) h4 ?_
            by_cases hb : o.biasOffset.isTrue = true
            · rw [if_pos hb]
              exact fun e s r => bias_in h e s r
            · rw [if_neg hb]
              exact fun e s r => widen (h e s r)
          · rw [hb] at h4
            refine reject_in (lo := lo - (hi - lo)) (hi := hi + (hi - lo)) h4 ?_
            split at h1
            · exact fun e s r => dscore_in h1 hs h e s r
            · cases h1
              exact fun e s r => widen (h e s r)

end Sureal.Scale
