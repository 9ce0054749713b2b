import Verif.Lemmas.Reject
import Verif.Lemmas.Zscore
import Verif.Lemmas.MleSym
import Verif.Spec.Recast
/-!
# Lemmas: the screening rule on votes in another order and on other scales
-/
set_option linter.unusedSectionVars false
namespace Sureal.RejectSym
open Sureal Spec
variable {E S R : ℕ}

theorem ofFn_flatten {α : Type} {n : ℕ} (g : Fin n → List α) : (List.ofFn g).flatten = (List.finRange n).flatMap g := by
  rw [List.ofFn_eq_map]; rfl

theorem flatten_ofFn_perm {α : Type} {n m : ℕ} (f : Fin n → Fin m → α) (σ : Equiv.Perm (Fin n)) (ρ : Fin n → Equiv.Perm (Fin m)) :
    (List.ofFn fun i => List.ofFn fun r => f (σ i) (ρ i r)).flatten.Perm (List.ofFn fun i => List.ofFn fun r => f i r).flatten := by
  have h1 : (List.ofFn fun i => List.ofFn fun r => f (σ i) (ρ i r)).flatten.Perm (List.ofFn fun i => List.ofFn fun r => f (σ i) r).flatten := by
    rw [ofFn_flatten, ofFn_flatten]
    exact List.Perm.flatMap_left _ fun i _ => Mle.ofFn_perm (fun r => f (σ i) r) (ρ i)
  refine h1.trans (List.Perm.flatten ?_)
  exact Mle.ofFn_perm (fun i => List.ofFn fun r => f i r) σ

theorem moment4_affine (c d : ℝ) (l : List ℝ) : moment4 (l.map fun x => c * x + d) = c ^ 4 * moment4 l := by
  by_cases h : l = []
  · subst h; simp [moment4]
  · unfold moment4
    rw [mean_affine c d h, List.map_map, List.length_map]
    generalize Spec.mean l = m
    have : ∀ l : List ℝ, (l.map ((fun x => (x - (c * m + d)) ^ 4) ∘ fun x => c * x + d)).sum = c ^ 4 * (l.map fun x => (x - m) ^ 4).sum := by
      intro l
      induction l with
      | nil => simp
      | cons x l ih => rw [List.map_cons, List.map_cons, List.sum_cons, List.sum_cons, ih]; simp only [Function.comp]; ring
    rw [this, mul_div_assoc]

theorem popVar_affine (c d : ℝ) (l : List ℝ) : popVar (l.map fun x => c * x + d) = c ^ 2 * popVar l := by
  unfold popVar
  rw [sqDev_affine, List.length_map, mul_div_assoc]

theorem outlierFactor_affine {c : ℝ} (hc : c ≠ 0) (d : ℝ) (l : List ℝ) : outlierFactor (l.map fun x => c * x + d) = outlierFactor l := by
  unfold outlierFactor
  rw [moment4_affine, popVar_affine]
  have : c ^ 4 * moment4 l / (c ^ 2 * popVar l) ^ 2 = moment4 l / popVar l ^ 2 := by
    rw [show (c ^ 2 * popVar l) ^ 2 = c ^ 4 * popVar l ^ 2 by ring]
    exact mul_div_mul_left _ _ (pow_ne_zero 4 hc)
  rw [this]

variable (τ : Equiv.Perm (Fin E)) (σ : Equiv.Perm (Fin S)) (ρ : Fin E → Fin S → Equiv.Perm (Fin R)) (u z : Fin E → ℝ) (a : Arr3 (Fl ℝ) E S R)

theorem videoCells_recast (j : Fin E) :
    (videoCells (recast τ σ ρ u z a) j).Perm ((videoCells a (τ j)).map (affine (u (τ j)) (z (τ j)))) := by
  unfold videoCells recast
  have := flatten_ofFn_perm (fun i r => affine (u (τ j)) (z (τ j)) (a (τ j) i r)) σ (ρ j)
  refine this.trans (List.Perm.of_eq ?_)
  rw [List.map_flatten, List.map_ofFn]
  congr 2
  funext i
  simp [List.map_ofFn, Function.comp_def]

theorem votesOn_recast (j : Fin E) :
    (votesOn (recast τ σ ρ u z a) j).Perm ((votesOn a (τ j)).map fun x => u (τ j) * x + z (τ j)) := by
  unfold votesOn
  rw [← present_map_affine]
  exact Np.present_perm (videoCells_recast τ σ ρ u z a j)

theorem affine_eq_fin {c d : ℝ} {y : Fl ℝ} {x : ℝ} : affine c d y = .fin x ↔ ∃ v, y = .fin v ∧ x = c * v + d := by
  cases y <;> simp [affine, eq_comm]

theorem votesOn_ne_nil {e : Fin E} {s : Fin S} {r : Fin R} {v : ℝ} (h : a e s r = .fin v) : votesOn a e ≠ [] := by
  have : v ∈ votesOn a e := by
    unfold votesOn present
    rw [List.mem_filterMap]
    exact ⟨a e s r, (mem_videoCells a e _).mpr ⟨s, r, rfl⟩, by rw [h]; rfl⟩
  exact List.ne_nil_of_mem this

/-- the thresholds of a video on the other scale -/
theorem thresholds_recast (j : Fin E) (hc : u (τ j) ≠ 0) (h : votesOn a (τ j) ≠ []) :
    Spec.mean (votesOn (recast τ σ ρ u z a) j) = u (τ j) * Spec.mean (votesOn a (τ j)) + z (τ j) ∧
    outlierFactor (votesOn (recast τ σ ρ u z a) j) * Real.sqrt (popVar (votesOn (recast τ σ ρ u z a) j))
      = |u (τ j)| * (outlierFactor (votesOn a (τ j)) * Real.sqrt (popVar (votesOn a (τ j)))) := by
  have hp := votesOn_recast τ σ ρ u z a j
  constructor
  · rw [mean_perm hp, mean_affine _ _ h]
  · rw [outlierFactor_perm hp, popVar_perm hp, outlierFactor_affine hc, popVar_affine, Real.sqrt_mul (sq_nonneg _), Real.sqrt_sq_eq_abs]
    ring

theorem recast_up (hu : ∀ e, 0 < u e) (j : Fin E) (i : Fin S) (r : Fin R) :
    (IsHigh (recast τ σ ρ u z a) j i r ↔ IsHigh a (τ j) (σ i) (ρ j i r)) ∧ (IsLow (recast τ σ ρ u z a) j i r ↔ IsLow a (τ j) (σ i) (ρ j i r)) := by
  have hc := hu (τ j)
  have hcell : recast τ σ ρ u z a j i r = affine (u (τ j)) (z (τ j)) (a (τ j) (σ i) (ρ j i r)) := rfl
  unfold IsHigh IsLow
  rw [hcell]
  cases hv : a (τ j) (σ i) (ρ j i r) with
  | fin v =>
    obtain ⟨h1, h2⟩ := thresholds_recast τ σ ρ u z a j hc.ne' (votesOn_ne_nil a hv)
    rw [abs_of_pos hc] at h2
    rw [h1, h2]
    generalize Spec.mean (votesOn a (τ j)) = m
    generalize outlierFactor (votesOn a (τ j)) * Real.sqrt (popVar (votesOn a (τ j))) = t
    simp only [affine, Fl.fin.injEq, exists_eq_left']
    constructor
    · rw [show u (τ j) * m + z (τ j) + u (τ j) * t = u (τ j) * (m + t) + z (τ j) by ring, add_le_add_iff_right, mul_le_mul_iff_right₀ hc]
    · rw [show u (τ j) * m + z (τ j) - u (τ j) * t = u (τ j) * (m - t) + z (τ j) by ring, add_le_add_iff_right, mul_le_mul_iff_right₀ hc]
  | nan => simp [affine]
  | pinf => simp [affine]
  | ninf => simp [affine]

theorem recast_down (hu : ∀ e, u e < 0) (j : Fin E) (i : Fin S) (r : Fin R) :
    (IsHigh (recast τ σ ρ u z a) j i r ↔ IsLow a (τ j) (σ i) (ρ j i r)) ∧ (IsLow (recast τ σ ρ u z a) j i r ↔ IsHigh a (τ j) (σ i) (ρ j i r)) := by
  have hc := hu (τ j)
  have hcell : recast τ σ ρ u z a j i r = affine (u (τ j)) (z (τ j)) (a (τ j) (σ i) (ρ j i r)) := rfl
  unfold IsHigh IsLow
  rw [hcell]
  cases hv : a (τ j) (σ i) (ρ j i r) with
  | fin v =>
    obtain ⟨h1, h2⟩ := thresholds_recast τ σ ρ u z a j hc.ne (votesOn_ne_nil a hv)
    rw [abs_of_neg hc] at h2
    rw [h1, h2]
    generalize Spec.mean (votesOn a (τ j)) = m
    generalize outlierFactor (votesOn a (τ j)) * Real.sqrt (popVar (votesOn a (τ j))) = t
    simp only [affine, Fl.fin.injEq, exists_eq_left']
    constructor
    · rw [show u (τ j) * m + z (τ j) + -u (τ j) * t = u (τ j) * (m - t) + z (τ j) by ring, add_le_add_iff_right, mul_le_mul_left_of_neg hc]
    · rw [show u (τ j) * m + z (τ j) - -u (τ j) * t = u (τ j) * (m + t) + z (τ j) by ring, add_le_add_iff_right, mul_le_mul_left_of_neg hc]
  | nan => simp [affine]
  | pinf => simp [affine]
  | ninf => simp [affine]

theorem card_recast (p q : Fin E × Fin R → Prop) [DecidablePred p] [DecidablePred q] (i : Fin S) (h : ∀ j r, p (j, r) ↔ q (τ j, ρ j i r)) :
    (Finset.univ.filter p).card = (Finset.univ.filter q).card :=
  Finset.card_equiv (Equiv.prodShear τ fun j => ρ j i) fun c => by
    rw [Finset.mem_filter, Finset.mem_filter]
    exact and_congr (by simp) (h c.1 c.2)

open Classical in
/-- the two counts of an observer stay the same, or change places -/
theorem counts_recast (hu : OneDirection u) (i : Fin S) :
    (numHigh (recast τ σ ρ u z a) i = numHigh a (σ i) ∧ numLow (recast τ σ ρ u z a) i = numLow a (σ i)) ∨
    (numHigh (recast τ σ ρ u z a) i = numLow a (σ i) ∧ numLow (recast τ σ ρ u z a) i = numHigh a (σ i)) := by
  rcases hu with hu | hu
  · left
    unfold numHigh numLow
    constructor <;> refine card_recast τ ρ _ _ i fun j r => ?_
    · exact (recast_up τ σ ρ u z a hu j i r).1
    · exact (recast_up τ σ ρ u z a hu j i r).2
  · right
    unfold numHigh numLow
    constructor <;> refine card_recast τ ρ _ _ i fun j r => ?_
    · exact (recast_down τ σ ρ u z a hu j i r).1
    · exact (recast_down τ σ ρ u z a hu j i r).2

theorem screened_recast (hu : OneDirection u) (i : Fin S) : Screened (recast τ σ ρ u z a) i ↔ Screened a (σ i) := by
  unfold Screened
  rcases counts_recast τ σ ρ u z a hu i with ⟨h1, h2⟩ | ⟨h1, h2⟩
  · rw [h1, h2]
  · rw [h1, h2, add_comm (numLow a (σ i) : ℝ), ← neg_sub (numHigh a (σ i) : ℝ), neg_div, abs_neg]

theorem rejects_recast (hu : OneDirection u) (i : Fin S) : Rejects (recast τ σ ρ u z a) i ↔ Rejects a (σ i) := by
  unfold Rejects
  rw [screened_recast τ σ ρ u z a hu]
  refine and_congr_right fun _ => not_congr ?_
  constructor
  · intro h s
    have := (screened_recast τ σ ρ u z a hu (σ.symm s)).mp (h _)
    simpa using this
  · intro h s
    exact (screened_recast τ σ ρ u z a hu s).mpr (h _)

theorem recast_clean (hc : ∀ e s r, NumOrNan (a e s r)) : ∀ e s r, NumOrNan (recast τ σ ρ u z a e s r) := fun _ _ _ => affine_clean (hc _ _ _)

theorem abs_neg_div (x n : ℝ) : (Fl.fin (-x) / Fl.fin n : Fl ℝ).abs = (Fl.fin x / Fl.fin n : Fl ℝ).abs := by
  by_cases hn : n = 0
  · subst hn
    show (Fl.div (.fin (-x)) (.fin 0)).abs = (Fl.div (.fin x) (.fin 0)).abs
    unfold Fl.div
    rcases lt_trichotomy x 0 with h | h | h
    · simp [h, h.not_gt, Fl.abs]
    · simp [h]
    · simp [h, h.not_gt, Fl.abs]
  · rw [Fl.fin_div hn, Fl.fin_div hn, neg_div]
    unfold Fl.abs
    rcases lt_trichotomy (x / n) 0 with h | h | h
    · simp [h, h.not_gt]
    · simp [h]
    · simp [h, h.not_gt]

/-- the two reported statistics -/
theorem stats_recast (hu : OneDirection u) (hc : ∀ e s r, NumOrNan (a e s r)) :
    ∃ s1 s2 : Fin S → Fl ℝ, (kurtosisReject a).2.stats1 = List.ofFn s1 ∧ (kurtosisReject a).2.stats2 = List.ofFn s2 ∧
      (kurtosisReject (recast τ σ ρ u z a)).2.stats1 = List.ofFn (fun i => s1 (σ i)) ∧
      (kurtosisReject (recast τ σ ρ u z a)).2.stats2 = List.ofFn (fun i => s2 (σ i)) := by
  refine ⟨_, _, rfl, rfl, congrArg List.ofFn (funext fun i => ?_), congrArg List.ofFn (funext fun i => ?_)⟩
  · rw [(counts_spec a hc (σ i)).1, (counts_spec a hc (σ i)).2, (counts_spec _ (recast_clean τ σ ρ u z a hc) i).1,
      (counts_spec _ (recast_clean τ σ ρ u z a hc) i).2]
    rcases counts_recast τ σ ρ u z a hu i with ⟨h1, h2⟩ | ⟨h1, h2⟩
    · rw [h1, h2]
    · rw [h1, h2]
      simp only [Fl.natCast_def, Fl.fin_add]
      rw [add_comm]
  · rw [(counts_spec a hc (σ i)).1, (counts_spec a hc (σ i)).2, (counts_spec _ (recast_clean τ σ ρ u z a hc) i).1,
      (counts_spec _ (recast_clean τ σ ρ u z a hc) i).2]
    rcases counts_recast τ σ ρ u z a hu i with ⟨h1, h2⟩ | ⟨h1, h2⟩
    · rw [h1, h2]
    · rw [h1, h2]
      simp only [Fl.natCast_def, Fl.fin_add, Fl.fin_sub]
      rw [add_comm (numLow a (σ i) : ℝ), ← neg_sub (numHigh a (σ i) : ℝ)]
      exact abs_neg_div _ _

theorem filter_perm (f : Fin S → Bool) : (((List.finRange S).filter fun i => f (σ i)).map σ).Perm ((List.finRange S).filter f) := by
  have h1 : ((List.finRange S).filter fun i => f (σ i)).map σ = ((List.finRange S).map σ).filter f := by
    rw [List.filter_map]; rfl
  rw [h1]
  apply List.Perm.filter
  have := Mle.ofFn_perm (fun i : Fin S => i) σ
  rw [List.ofFn_eq_map, List.ofFn_eq_map, List.map_id'] at this
  exact this

/-- the cells of a video in some observers' columns -/
def cellsOf (a : Arr3 (Fl ℝ) E S R) (e : Fin E) (l : List (Fin S)) : List (Fl ℝ) := (l.map fun s => List.ofFn fun r => a e s r).flatten

theorem cellsOf_recast (f : Fin S → Bool) (j : Fin E) :
    (cellsOf (recast τ σ ρ u z a) j ((List.finRange S).filter fun i => f (σ i))).Perm
      ((cellsOf a (τ j) ((List.finRange S).filter f)).map (affine (u (τ j)) (z (τ j)))) := by
  have hp := filter_perm σ f
  unfold cellsOf
  rw [List.map_flatten, List.map_map]
  have h2 := (hp.map (List.map (affine (u (τ j)) (z (τ j))) ∘ fun s => List.ofFn fun r => a (τ j) s r)).flatten
  refine List.Perm.trans ?_ h2
  rw [List.map_map, ← List.flatMap_def, ← List.flatMap_def]
  refine List.Perm.flatMap_left _ fun i _ => ?_
  simp only [Function.comp, List.map_ofFn]
  exact Mle.ofFn_perm (fun r => affine (u (τ j)) (z (τ j)) (a (τ j) (σ i) r)) (ρ j i)

/-- the scores after screening -/
theorem screenedMeans (hc : ∀ e s r, NumOrNan (a e s r)) (flags : Fin S → Bool) (b : Arr3D (Fl ℝ))
    (hb : b = ⟨E, ((List.finRange S).filter fun s => !flags s).length, R, fun e i r => a e (((List.finRange S).filter fun s => !flags s).get i) r⟩) :
    List.ofFn (meanAlongS b.get) = List.ofFn fun e => meanOrNan (cellsOf a e ((List.finRange S).filter fun s => !flags s)) := by
  subst hb
  congr 1
  funext e
  dsimp only
  rw [meanAlongS_spec (fun e (i : Fin ((List.finRange S).filter fun s => !flags s).length) r => a e (((List.finRange S).filter fun s => !flags s).get i) r) e
    (fun s r => hc _ _ _)]
  unfold videoCells cellsOf
  congr 2
  apply List.ext_getElem
  · simp
  · intro i h1 h2; simp

/-- Everything the screening reports, on both panels. -/
theorem kurtosis_recast (hu : OneDirection u) (hc : ∀ e s r, NumOrNan (a e s r)) :
    ∃ (flags : Fin S → Bool) (s1 s2 : Fin S → Fl ℝ) (q : Fin E → Fl ℝ),
      (∀ s, flags s = true ↔ Rejects a s) ∧
      (kurtosisReject a).2.rejected = List.ofFn flags ∧ (kurtosisReject (recast τ σ ρ u z a)).2.rejected = List.ofFn (fun i => flags (σ i)) ∧
      (kurtosisReject a).2.stats1 = List.ofFn s1 ∧ (kurtosisReject (recast τ σ ρ u z a)).2.stats1 = List.ofFn (fun i => s1 (σ i)) ∧
      (kurtosisReject a).2.stats2 = List.ofFn s2 ∧ (kurtosisReject (recast τ σ ρ u z a)).2.stats2 = List.ofFn (fun i => s2 (σ i)) ∧
      List.ofFn (meanAlongS (kurtosisReject a).1.get) = List.ofFn q ∧
      List.ofFn (meanAlongS (kurtosisReject (recast τ σ ρ u z a)).1.get) = List.ofFn (fun j => affine (u (τ j)) (z (τ j)) (q (τ j))) := by
  obtain ⟨flags, hf, hrej, harr⟩ := kurtosisReject_spec a hc
  obtain ⟨flags', hf', hrej', harr'⟩ := kurtosisReject_spec _ (recast_clean τ σ ρ u z a hc)
  obtain ⟨s1, s2, h1, h2, h3, h4⟩ := stats_recast τ σ ρ u z a hu hc
  have hff : flags' = fun i => flags (σ i) := by
    funext i
    rw [Bool.eq_iff_iff, hf', hf, rejects_recast τ σ ρ u z a hu]
  subst hff
  refine ⟨flags, s1, s2, _, hf, hrej, hrej', h1, h3, h2, h4, screenedMeans a hc flags _ harr, ?_⟩
  rw [screenedMeans _ (recast_clean τ σ ρ u z a hc) (fun i => flags (σ i)) _ harr']
  congr 1
  funext j
  rw [← meanOrNan_affine]
  exact meanOrNan_perm (Np.present_perm (cellsOf_recast τ σ ρ u z a (fun s => !flags s) j))

theorem clean_meanOrNan (l : List (Fl ℝ)) : NumOrNan (meanOrNan l) := by
  unfold meanOrNan
  split
  · exact Or.inl rfl
  · exact Or.inr ⟨_, rfl⟩

theorem clean_sub {x y : Fl ℝ} (hx : NumOrNan x) (hy : NumOrNan y) : NumOrNan (x - y) := by
  rcases hx with rfl | ⟨v, rfl⟩ <;> rcases hy with rfl | ⟨w, rfl⟩
  · exact Or.inl rfl
  · exact Or.inl rfl
  · exact Or.inl rfl
  · exact Or.inr ⟨v - w, rfl⟩

theorem affine_sub {c d d' : ℝ} {x y : Fl ℝ} (hx : NumOrNan x) (hy : NumOrNan y) : affine c (d - d') (x - y) = affine c d x - affine c d' y := by
  rcases hx with rfl | ⟨v, rfl⟩ <;> rcases hy with rfl | ⟨w, rfl⟩
  · rfl
  · rfl
  · rfl
  · simp only [affine, Fl.fin_sub, Fl.fin.injEq]
    ring

/-- the biases, with one unit for all videos -/
theorem biasEstimate_recast (c : ℝ) (hc : ∀ e s r, NumOrNan (a e s r)) (i : Fin S) :
    biasEstimate (recast τ σ ρ (fun _ => c) z a) i = affine c 0 (biasEstimate a (σ i)) := by
  have hm : ∀ (b : Arr3 (Fl ℝ) E S R), (∀ e s r, NumOrNan (b e s r)) → ∀ e, NumOrNan (meanAlongS b e) := by
    intro b hb e
    rw [meanAlongS_spec b e (hb e)]
    exact clean_meanOrNan _
  have hc' := recast_clean τ σ ρ (fun _ => c) z a hc
  have hmos : ∀ j, meanAlongS (recast τ σ ρ (fun _ => c) z a) j = affine c (z (τ j)) (meanAlongS a (τ j)) := by
    intro j
    rw [meanAlongS_spec _ j (hc' j), meanAlongS_spec _ (τ j) (hc (τ j)), ← meanOrNan_affine]
    exact meanOrNan_perm (Np.present_perm (videoCells_recast τ σ ρ (fun _ => c) z a j))
  unfold biasEstimate
  have e : (fun j i r => recast τ σ ρ (fun _ => c) z a j i r - meanAlongS (recast τ σ ρ (fun _ => c) z a) j)
      = fun j i r => affine c 0 (a (τ j) (σ i) (ρ j i r) - meanAlongS a (τ j)) := by
    funext j i r
    rw [hmos, ← sub_self (z (τ j)), affine_sub (hc _ _ _) (hm a hc _)]
    rfl
  rw [e, meanAlongE_spec _ i (fun j r => affine_clean (clean_sub (hc _ _ _) (hm a hc _))),
    meanAlongE_spec _ (σ i) (fun j r => clean_sub (hc _ _ _) (hm a hc _)), ← meanOrNan_affine]
  apply meanOrNan_perm
  apply Np.present_perm
  unfold observerCells
  have := flatten_ofFn_perm (fun j r => affine c 0 (a j (σ i) r - meanAlongS a j)) τ (fun j => ρ j i)
  refine this.trans (List.Perm.of_eq ?_)
  rw [List.map_flatten, List.map_ofFn]
  congr 2
  funext j
  simp [List.map_ofFn, Function.comp_def]

theorem biasEstimate_clean (hc : ∀ e s r, NumOrNan (a e s r)) (i : Fin S) : NumOrNan (biasEstimate a i) := by
  unfold biasEstimate
  have hm : ∀ e, NumOrNan (meanAlongS a e) := by
    intro e
    rw [meanAlongS_spec a e (hc e)]
    exact clean_meanOrNan _
  rw [meanAlongE_spec _ i (fun j r => clean_sub (hc _ _ _) (hm j))]
  exact clean_meanOrNan _

theorem biasArr_clean (hc : ∀ e s r, NumOrNan (a e s r)) : ∀ e s r, NumOrNan (biasArr a e s r) :=
  fun _ _ _ => clean_sub (hc _ _ _) (biasEstimate_clean a hc _)

theorem biasArr_recast (c : ℝ) (hc : ∀ e s r, NumOrNan (a e s r)) :
    biasArr (recast τ σ ρ (fun _ => c) z a) = recast τ σ ρ (fun _ => c) z (biasArr a) := by
  funext j i r
  show recast τ σ ρ (fun _ => c) z a j i r - biasEstimate (recast τ σ ρ (fun _ => c) z a) i = affine c (z (τ j)) (a _ _ _ - biasEstimate a (σ i))
  rw [biasEstimate_recast τ σ ρ z a c hc]
  conv_rhs => rw [← sub_zero (z (τ j)), affine_sub (hc _ _ _) (biasEstimate_clean a hc _)]
  rfl

end Sureal.RejectSym
