import Verif.Spec.RunModels
import Verif.Props.Perf
import Verif.Lemmas.Mos
/-! Helper lemmas about the reconstruction statistics. -/
set_option linter.unusedSectionVars false
namespace Sureal.Routine
open Sureal Spec

theorem ravel3_eq {α : Type} {E S R : ℕ} (a : Arr3 α E S R) : ravel3 a = (allCells E S R).map fun c => a c.1 c.2.1 c.2.2 := by
  unfold ravel3 allCells
  simp only [List.ofFn_eq_map, List.map_flatMap, List.flatMap, List.map_flatten, List.map_map, Function.comp_def]

theorem videoCells_eq {α : Type} {E S R : ℕ} (a : Arr3 α E S R) (e : Fin E) :
    videoCells a e = (List.finRange S).flatMap fun s => (List.finRange R).map fun r => a e s r := by
  unfold videoCells
  simp only [List.ofFn_eq_map, List.flatMap]

theorem recPairs_eq {E S R : ℕ} (raw rec : Arr3 (Fl ℝ) E S R) (h1 : ∀ e s r, NumOrNan (raw e s r)) (h2 : ∀ e s r, NumOrNan (rec e s r)) :
    recPairs ⟨E, S, R, raw⟩ ⟨E, S, R, rec⟩ = (bothPresent raw rec).map fun p => (.fin p.1, .fin p.2) := by
  unfold recPairs bothPresent
  rw [ravel3_eq, ravel3_eq]
  generalize allCells E S R = l
  induction l with
  | nil => rfl
  | cons c l ih =>
    obtain ⟨e, s, r⟩ := c
    dsimp only at ih
    simp only [List.map_cons, List.zip_cons_cons, List.filter_cons, List.filterMap_cons]
    have e0 : (Fl.nan : Fl ℝ).isNan = true := rfl
    have e1 : ∀ x : ℝ, (Fl.fin x).isNan = false := fun _ => rfl
    rcases h1 e s r with h | ⟨x, h⟩ <;> rcases h2 e s r with h' | ⟨y, h'⟩ <;> simp [h, h', ih, e0, e1]

theorem recStats_eq {E S R : ℕ} (raw rec : Arr3 (Fl ℝ) E S R) (h1 : ∀ e s r, NumOrNan (raw e s r)) (h2 : ∀ e s r, NumOrNan (rec e s r)) :
    recStats ⟨E, S, R, raw⟩ ⟨E, S, R, rec⟩ =
      if 2 ≤ (bothPresent raw rec).length then .ok (statsOf (bothPresent raw rec)) else .error .value := by
  unfold recStats
  rw [if_pos ⟨rfl, rfl, rfl⟩, recPairs_eq raw rec h1 h2]
  generalize bothPresent raw rec = ps
  cases hps : ps with
  | nil => simp
  | cons p l =>
    simp only [List.map_cons]
    have e1 : (Perf.Truth.num (Fl.fin p.1) :: (l.map fun p => (Fl.fin p.1, Fl.fin p.2)).map fun q : Fl ℝ × Fl ℝ => Perf.Truth.num q.1) = truths ps := by
      rw [hps, List.map_map]; rfl
    have e2 : (Fl.fin p.2 :: (l.map fun p => (Fl.fin p.1, Fl.fin p.2)).map fun q : Fl ℝ × Fl ℝ => q.2) = predictions ps := by
      rw [hps, List.map_map]; rfl
    rw [e1, e2, ← hps, (Props.C68_rmse _ (by rw [hps]; simp)).1]
    dsimp only
    by_cases h : 2 ≤ ps.length
    · rw [if_pos h, (Props.C68_pcc _ h).1, (Props.C68_srcc _ ps).1]
      rfl
    · rw [if_neg h, Props.C68_pcc_short _ (by omega)]

/-- parallel axes -/
theorem sum_sq_sub (l : List ℝ) (c : ℝ) : (l.map fun x => (x - c) ^ 2).sum = sqDev l + l.length * (mean l - c) ^ 2 := by
  rcases l.eq_nil_or_concat with rfl | ⟨l', x, hl⟩
  · simp [sqDev]
  · have hne : (l.length : ℝ) ≠ 0 := by rw [hl]; simp; positivity
    have hm : l.sum = l.length * mean l := by unfold mean; field_simp
    have key : ∀ (k : List ℝ) (a b : ℝ), (k.map fun x => (x - a) ^ 2).sum = (k.map fun x => (x - b) ^ 2).sum + 2 * (b - a) * (k.sum - k.length * b) + k.length * (b - a) ^ 2 := by
      intro k a b
      induction k with
      | nil => simp
      | cons y k ih => simp only [List.map_cons, List.sum_cons, List.length_cons, Nat.cast_add, Nat.cast_one, ih]; ring
    rw [key l c (mean l), hm]
    unfold sqDev
    ring

theorem sum_flatMap_map {α β : Type} (l : List α) (g : α → List β) (f : β → ℝ) :
    ((l.flatMap g).map f).sum = (l.map fun a => ((g a).map f).sum).sum := by
  induction l with
  | nil => rfl
  | cons a l ih => rw [List.flatMap_cons, List.map_append, List.sum_append, ih, List.map_cons, List.sum_cons]

theorem sum_map_add {α : Type} (l : List α) (f g : α → ℝ) : (l.map fun a => f a + g a).sum = (l.map f).sum + (l.map g).sum := by
  induction l with
  | nil => simp
  | cons a l ih => simp only [List.map_cons, List.sum_cons, ih]; ring

theorem sum_eq_length_mul_mean (l : List ℝ) : l.sum = l.length * mean l := by
  cases l with
  | nil => simp
  | cons x l =>
    have : ((x :: l).length : ℝ) ≠ 0 := by simp; positivity
    unfold mean
    field_simp

/-- votes in groups, each with the mean of its group -/
noncomputable def withMeans {α : Type} (I : List α) (L : α → List ℝ) : List (ℝ × ℝ) :=
  I.flatMap fun e => (L e).map fun x => (x, mean (L e))

section groups
variable {α : Type} (I : List α) (L : α → List ℝ)

theorem withMeans_sum (f : ℝ × ℝ → ℝ) : ((withMeans I L).map f).sum = (I.map fun e => ((L e).map fun x => f (x, mean (L e))).sum).sum := by
  unfold withMeans
  rw [sum_flatMap_map]
  congr 1
  refine List.map_congr_left fun e _ => ?_
  rw [List.map_map]
  rfl

theorem withMeans_within (q : α → ℝ) (ps : List (ℝ × ℝ)) (h : ps = I.flatMap fun e => (L e).map fun x => (x, q e)) :
    (ps.map fun p => (p.1 - p.2) ^ 2).sum = (I.map fun e => sqDev (L e)).sum + (I.map fun e => (L e).length * (mean (L e) - q e) ^ 2).sum := by
  rw [h, sum_flatMap_map, ← sum_map_add]
  congr 1
  refine List.map_congr_left fun e _ => ?_
  rw [List.map_map, ← sum_sq_sub]
  rfl

theorem withMeans_mean : mean ((withMeans I L).map (·.2)) = mean ((withMeans I L).map (·.1)) := by
  have : ((withMeans I L).map (·.2)).sum = ((withMeans I L).map (·.1)).sum := by
    rw [withMeans_sum, withMeans_sum]
    congr 1
    refine List.map_congr_left fun e _ => ?_
    simp only [List.map_const', List.sum_replicate, nsmul_eq_mul, List.map_id']
    exact (sum_eq_length_mul_mean _).symm
  unfold mean at *
  rw [this]
  simp

theorem withMeans_between : sqDev ((withMeans I L).map (·.2)) =
    (I.map fun e => (L e).length * (mean (L e) - mean ((withMeans I L).map (·.1))) ^ 2).sum := by
  unfold sqDev
  rw [withMeans_mean, List.map_map]
  rw [show (fun x => (x - mean ((withMeans I L).map (·.1))) ^ 2) ∘ (fun p : ℝ × ℝ => p.2) =
    fun p : ℝ × ℝ => (p.2 - mean ((withMeans I L).map (·.1))) ^ 2 from rfl, withMeans_sum]
  congr 1
  refine List.map_congr_left fun e _ => ?_
  simp

theorem withMeans_total : sqDev ((withMeans I L).map (·.1)) = (I.map fun e => sqDev (L e)).sum + sqDev ((withMeans I L).map (·.2)) := by
  rw [withMeans_between, ← sum_map_add]
  conv_lhs => unfold sqDev
  rw [List.map_map]
  rw [show (fun x => (x - mean ((withMeans I L).map (·.1))) ^ 2) ∘ (fun p : ℝ × ℝ => p.1) =
    fun p : ℝ × ℝ => (p.1 - mean ((withMeans I L).map (·.1))) ^ 2 from rfl, withMeans_sum]
  congr 1
  refine List.map_congr_left fun e _ => ?_
  exact sum_sq_sub _ _

theorem withMeans_cov : ((withMeans I L).map fun p => (p.1 - mean ((withMeans I L).map (·.1))) * (p.2 - mean ((withMeans I L).map (·.2)))).sum =
    sqDev ((withMeans I L).map (·.2)) := by
  rw [withMeans_between, withMeans_mean, withMeans_sum]
  congr 1
  refine List.map_congr_left fun e _ => ?_
  dsimp only
  rw [List.sum_map_mul_right]
  have : ((L e).map fun x => x - mean ((withMeans I L).map (·.1))).sum = (L e).length * (mean (L e) - mean ((withMeans I L).map (·.1))) := by
    generalize mean ((withMeans I L).map (·.1)) = m
    have h := sum_eq_length_mul_mean (L e)
    have : ∀ k : List ℝ, (k.map fun x => x - m).sum = k.sum - k.length * m := by
      intro k
      induction k with
      | nil => simp
      | cons y k ih => simp only [List.map_cons, List.sum_cons, List.length_cons, Nat.cast_add, Nat.cast_one, ih]; ring
    rw [this, h]
    ring
  rw [this]
  ring

end groups

/-- the pairs (vote, mean opinion score) -/
theorem bothPresent_video {E S R : ℕ} (a : Arr3 (Fl ℝ) E S R) (h : ∀ e s r, NumOrNan (a e s r)) (q : Fin E → Fl ℝ) (q' : Fin E → ℝ)
    (hq : ∀ e, present (videoCells a e) ≠ [] → q e = .fin (q' e)) :
    bothPresent a (fun e _ _ => q e) = (List.finRange E).flatMap fun e => (present (videoCells a e)).map fun x => (x, q' e) := by
  unfold bothPresent allCells
  rw [List.filterMap_flatMap]
  congr 1
  funext e
  have key : ∀ l : List (Fin S × Fin R), (∀ c ∈ l, ∀ x, a e c.1 c.2 = .fin x → q e = .fin (q' e)) →
      (l.map fun c => (e, c.1, c.2)).filterMap (fun c => match a c.1 c.2.1 c.2.2, q c.1 with
        | .fin x, .fin y => some (x, y)
        | _, _ => none) = (present (l.map fun c => a e c.1 c.2)).map fun x => (x, q' e) := by
    intro l hl
    induction l with
    | nil => rfl
    | cons c l ih =>
      have ih := ih fun c hc => hl c (by simp [hc])
      unfold present at ih ⊢
      simp only [List.map_cons, List.filterMap_cons]
      rcases h e c.1 c.2 with hx | ⟨x, hx⟩
      · rw [hx]
        simpa [Fl.val?] using ih
      · rw [hx, hl c (by simp) x hx]
        simpa [Fl.val?] using ih
  have h2 : ((List.finRange S).flatMap fun s => (List.finRange R).map fun r => ((e, s, r) : Fin E × Fin S × Fin R)) =
      ((List.finRange S).flatMap fun s => (List.finRange R).map fun r => (s, r)).map fun c => (e, c.1, c.2) := by
    rw [List.map_flatMap]
    congr 1
    funext s
    rw [List.map_map]
    rfl
  have h3 : videoCells a e = ((List.finRange S).flatMap fun s => (List.finRange R).map fun r => (s, r)).map fun c => a e c.1 c.2 := by
    rw [videoCells_eq, List.map_flatMap]
    congr 1
    funext s
    rw [List.map_map]
    rfl
  dsimp only
  rw [h2, h3]
  refine key _ ?_
  · intro c hc x hx
    refine hq e ?_
    rw [h3]
    intro h0
    have : x ∈ present (((List.finRange S).flatMap fun s => (List.finRange R).map fun r => (s, r)).map fun c => a e c.1 c.2) := by
      unfold present
      rw [List.mem_filterMap]
      exact ⟨_, List.mem_map_of_mem hc, by rw [hx]; rfl⟩
    rw [h0] at this
    cases this

end Sureal.Routine
